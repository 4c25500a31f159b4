import Verif.Proof.Local

/-!
# C118: what lies beyond a bridge does not matter to the demands on this side
-/

namespace NTM

open Spec

/-- one direction of `C118_local`: cheapest paths carry over -/
theorem cheapest_local {s t : State} (hws : WellConfigured s) (hwt : WellConfigured t)
    {W : String → Bool} (hbs : Bridge s W) (hbt : Bridge t W) (hin : SameInside s t W)
    {a b : String} (ha : W a = true) (hb : W b = true) (q : List ℕ) :
    CheapestOver t (Open t) a q b ↔ CheapestOver s (Open s) a q b := by
  obtain ⟨x, y, hbs⟩ := hbs
  obtain ⟨x', y', hbt⟩ := hbt
  have hst : ∀ i, Open s i → W (s.tail i) = true → W (s.head i) = true → Open t i ∧
      t.tail i = s.tail i ∧ t.head i = s.head i ∧ (t.ifc i).cost = (s.ifc i).cost := by
    rintro i ⟨h1, h2, h3⟩ h4 h5
    obtain ⟨e1, e2, e3, e4, e5⟩ := hin.2 i ⟨h1, h4, h5⟩
    exact ⟨⟨((hin.1 i).2 ⟨h1, h4, h5⟩).1, e4.trans h2, e5.trans h3⟩, e1, e2, e3⟩
  have hts : ∀ i, Open t i → W (t.tail i) = true → W (t.head i) = true → Open s i ∧
      s.tail i = t.tail i ∧ s.head i = t.head i ∧ (s.ifc i).cost = (t.ifc i).cost := by
    rintro i ⟨h1, h2, h3⟩ h4 h5
    have hi := (hin.1 i).1 ⟨h1, h4, h5⟩
    obtain ⟨e1, e2, e3, e4, e5⟩ := hin.2 i hi
    exact ⟨⟨hi.1, e4.symm.trans h2, e5.symm.trans h3⟩, e1.symm, e2.symm, e3.symm⟩
  have ps : ∀ i, Open s i → 1 ≤ (s.ifc i).cost := fun i hi => hws.tidy.costs i hi.1
  have pt : ∀ i, Open t i → 1 ≤ (t.ifc i).cost := fun i hi => hwt.tidy.costs i hi.1
  exact ⟨cheapest_inside (fun i hi => (hbt i hi.1).1) (fun i hi => (hbt i hi.1).2)
      (fun i hi => (hbs i hi.1).1) (fun i hi => (hbs i hi.1).2) pt ps hts hst ha hb,
    cheapest_inside (fun i hi => (hbs i hi.1).1) (fun i hi => (hbs i hi.1).2)
      (fun i hi => (hbt i hi.1).1) (fun i hi => (hbt i hi.1).2) ps pt hst hts ha hb⟩

/-- **C118** Take two well-formed models of one class without IGP shortcuts that agree on the
interfaces within a set of nodes, and in each of which all circuits between the set and the rest
connect the same two nodes.  A demand within the set that no routed LSP serves takes the same paths
in both and puts the same traffic on every interface: nodes, circuits, failures, demands and LSPs
beyond the bridge do not matter, nor do LSPs between other nodes of the set. -/
theorem C118_local {env env' : Env} {s s' t t' : State} (hws : WellConfigured s)
    (hwt : WellConfigured t) (hkind : t.kind = s.kind)
    (hties : ∀ l ∈ s.lsps, ¬ RoundingTie (setupBandwidth s l))
    (htiet : ∀ l ∈ t.lsps, ¬ RoundingTie (setupBandwidth t l)) (hscs : NoShortcuts s)
    (hsct : NoShortcuts t) (hrs : updateSimulation env s = .ok () s')
    (hrt : updateSimulation env' t = .ok () t') {W : String → Bool} (hbs : Bridge s W)
    (hbt : Bridge t W) (hin : SameInside s t W) {d e : ℕ} (hd : d ∈ s.dmds) (he : e ∈ t.dmds)
    (hsrc : t.dmdSrc e = s.dmdSrc d) (hdst : t.dmdDst e = s.dmdDst d)
    (htr : (t.dmd e).traffic = (s.dmd d).traffic) (ha : W (s.dmdSrc d) = true)
    (hb : W (s.dmdDst d) = true)
    (hnos : ∀ l, LspBetween s' (s'.dmdSrc d) (s'.dmdDst d) l → ¬ IsRouted s' l)
    (hnot : ∀ l, LspBetween t' (t'.dmdSrc e) (t'.dmdDst e) l → ¬ IsRouted t' l) :
    SamePaths (s'.dmd d).path (t'.dmd e).path ∧
    ∀ i, contribution t' e i = contribution s' d i := by
  have hts := hws.tidy
  have htt := hwt.tidy
  have key := cheapest_local hws hwt hbs hbt hin ha hb
  obtain ⟨s1, Δ, hs⟩ := sim_spec hts.dmds hts.ends hts.ckts hrs
  obtain ⟨t1, Δ', ht⟩ := sim_spec htt.dmds htt.ends htt.ckts hrt
  have cs : ∀ q, CheapestOver s' (Usable s' 0) (s'.dmdSrc d) q (s'.dmdDst d) ↔
      CheapestOver s (Open s) (s.dmdSrc d) q (s.dmdDst d) := by
    intro q
    rw [CheapestOver.congr (hs.open_iff hws hties), hs.cfg.dmdSrc, hs.cfg.dmdDst]
    unfold CheapestOver
    rw [funext hs.cfg.tail, funext hs.cfg.head]
    have : (fun i => (s'.ifc i).cost) = fun i => (s.ifc i).cost := by funext i; rw [hs.cfg.ifc i]
    rw [this]
  have ct : ∀ q, CheapestOver t' (Usable t' 0) (t'.dmdSrc e) q (t'.dmdDst e) ↔
      CheapestOver t (Open t) (t.dmdSrc e) q (t.dmdDst e) := by
    intro q
    rw [CheapestOver.congr (ht.open_iff hwt htiet), ht.cfg.dmdSrc, ht.cfg.dmdDst]
    unfold CheapestOver
    rw [funext ht.cfg.tail, funext ht.cfg.head]
    have : (fun i => (t'.ifc i).cost) = fun i => (t.ifc i).cost := by funext i; rw [ht.cfg.ifc i]
    rw [this]
  have rs : ¬ Reachable s'.tail s'.head (Usable s' 0) (s.dmdSrc d) (s.dmdDst d) →
      ∀ q, ¬ CheapestOver s (Open s) (s.dmdSrc d) q (s.dmdDst d) := by
    intro h q hq
    refine h ⟨q, ?_⟩
    have := ((cs q).2 hq).1
    rw [hs.cfg.dmdSrc, hs.cfg.dmdDst] at this
    exact this
  have rt : ¬ Reachable t'.tail t'.head (Usable t' 0) (t.dmdSrc e) (t.dmdDst e) →
      ∀ q, ¬ CheapestOver t (Open t) (t.dmdSrc e) q (t.dmdDst e) := by
    intro h q hq
    refine h ⟨q, ?_⟩
    have := ((ct q).2 hq).1
    rw [ht.cfg.dmdSrc, ht.cfg.dmdDst] at this
    exact this
  rw [hsrc, hdst] at ct
  rcases hs.igp hts (fun _ => hscs) hd (hs.rides_none hws hd hnos) with
      ⟨p1, z1, n1⟩ | ⟨l, det, p1, L1⟩ <;>
    rcases ht.igp htt (fun _ => hsct) he (ht.rides_none hwt he hnot) with
      ⟨p2, z2, n2⟩ | ⟨l', det', p2, L2⟩
  · rw [p1, p2]
    refine ⟨trivial, fun i => ?_⟩
    rw [← hs.delta_eq hts (fun _ => hscs) hd, ← ht.delta_eq htt (fun _ => hsct) he, z1, z2]
  · obtain ⟨q, hq⟩ := List.exists_mem_of_ne_nil _ L2.ne
    exact absurd ((key q).1 ((ct q).1 ((L2.mem q).1 hq))) (rs n1 q)
  · obtain ⟨q, hq⟩ := List.exists_mem_of_ne_nil _ L1.ne
    have := rt n2 q
    rw [hsrc, hdst] at this
    exact absurd ((key q).2 ((cs q).1 ((L1.mem q).1 hq))) this
  · have hmem : ∀ q, q ∈ l' ↔ q ∈ l := fun q => by rw [L1.mem, L2.mem, cs, ct, key]
    refine ⟨?_, fun i => ?_⟩
    · rw [p1, p2]
      exact ((List.perm_ext_iff_of_nodup L1.nodup L2.nodup).2 fun q => (hmem q).symm).map _
    · rw [← hs.delta_eq hts (fun _ => hscs) hd, ← ht.delta_eq htt (fun _ => hsct) he]
      refine L1.local L2 (by rw [ht.cfg.kind, hs.cfg.kind, hkind]) ?_
        (by rw [ht.cfg.dmd e, hs.cfg.dmd d]; exact htr) hmem i
      intro p hp j hj
      have hc := (cs p).1 ((L1.mem p).1 hp)
      obtain ⟨x, y, hbs⟩ := hbs
      have := bridge_inside hc.1 (fun i hi => (hbs i hi.1).1) (fun i hi => (hbs i hi.1).2)
        (cheapest_simple (fun i hi => hts.costs i (Route.mem_ok hc.1 i hi).1) hc) ha hb j hj
      rw [ht.cfg.tail, hs.cfg.tail]
      exact (hin.2 j ⟨(Route.mem_ok hc.1 j hj).1, this.1, this.2⟩).1

/-- `Ex.joined` with a different network beyond the circuit C-D: a fourth node, other costs, a
failed circuit, another demand and no LSP -/
def Ex.rejoined (k : Kind) : State := finalState (failInterface "ef1" "E") (Ex.mk k
  [{ name := "A" }, { name := "B" }, { name := "C" }, { name := "D" }, { name := "E" },
   { name := "F" }, { name := "G" }]
  (Ex.link "ab" 0 1 10 100 1 ++ Ex.link "bc" 1 2 10 100 2 ++ Ex.link "ac" 0 2 20 100 3 ++
    Ex.link "cd" 2 3 15 100 4 ++ Ex.link "de" 3 4 30 100 5 ++ Ex.link "ef" 4 5 10 100 6 ++
    Ex.link "df" 3 5 5 100 7 ++ Ex.link "fg" 5 6 5 100 8)
  [{ src := 0, dst := 6, traffic := 3, name := "w" }, { src := 0, dst := 2, traffic := 7, name := "u" }]
  [] [])

theorem Ex.rejoined_inside (k : Kind) : SameInside (Ex.joined k) (Ex.rejoined k) Ex.firstHalf := by
  have h1 : ∀ i ∈ (Ex.joined k).ifs, Inside (Ex.joined k) Ex.firstHalf i →
      Inside (Ex.rejoined k) Ex.firstHalf i ∧
      (Ex.rejoined k).tail i = (Ex.joined k).tail i ∧ (Ex.rejoined k).head i = (Ex.joined k).head i ∧
      ((Ex.rejoined k).ifc i).cost = ((Ex.joined k).ifc i).cost ∧
      ((Ex.rejoined k).ifc i).failed = ((Ex.joined k).ifc i).failed ∧
      ((Ex.rejoined k).ifc i).rsvpEnabled = ((Ex.joined k).ifc i).rsvpEnabled := by
    unfold Inside
    cases k <;> decide +kernel
  have h2 : ∀ i ∈ (Ex.rejoined k).ifs, Inside (Ex.rejoined k) Ex.firstHalf i →
      Inside (Ex.joined k) Ex.firstHalf i := by
    unfold Inside
    cases k <;> decide +kernel
  exact ⟨fun i => ⟨fun h => h2 i h.1 h, fun h => (h1 i h.1 h).1⟩, fun i h => (h1 i h.1 h).2⟩

/-- demand 3 of the one and demand 1 of the other go from A to C, over two paths each -/
example (k : Kind) : WellConfigured (Ex.joined k) ∧ WellConfigured (Ex.rejoined k) ∧
    NoTies (Ex.joined k) ∧ NoTies (Ex.rejoined k) ∧ NoShortcuts (Ex.joined k) ∧
    NoShortcuts (Ex.rejoined k) ∧ Bridge (Ex.joined k) Ex.firstHalf ∧
    Bridge (Ex.rejoined k) Ex.firstHalf ∧ SameInside (Ex.joined k) (Ex.rejoined k) Ex.firstHalf ∧
    raised (updateSimulation Env.default) (Ex.joined k) = none ∧
    raised (updateSimulation Env.default) (Ex.rejoined k) = none ∧
    let s' := finalState (updateSimulation Env.default) (Ex.joined k)
    let t' := finalState (updateSimulation Env.default) (Ex.rejoined k)
    (s'.dmd 3).path.map List.length = some 2 ∧ (t'.dmd 1).path.map List.length = some 2 ∧
    (s'.lsp 0).path ≠ .unrouted := by
  cases k <;> exact ⟨wellConfigured_of (by decide +kernel), wellConfigured_of (by decide +kernel),
    noTies_of (by decide +kernel), noTies_of (by decide +kernel), by decide +kernel,
    by decide +kernel, ⟨"C", "D", by decide +kernel⟩, ⟨"C", "D", by decide +kernel⟩,
    Ex.rejoined_inside _, by decide +kernel, by decide +kernel, by decide +kernel, by decide +kernel, by decide +kernel⟩

end NTM
