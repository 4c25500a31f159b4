import Verif.Proof.Change
import Verif.Props.Impact

/-!
# C93 and C94: raising costs, raising traffic
-/

namespace NTM

open Spec

/-- **C93** Without LSPs, when the costs of some interfaces are raised: a demand is routed
exactly if it was; if some of its paths kept their cost, it is carried by exactly those; if none
did, all its new paths cost more than its paths did before. -/
theorem C93_cost_impact {env env' : Env} {s s' t t' : State} (hts : Tidy s) (htt : Tidy t)
    (hsc : s.kind = .flex → NoShortcuts s) (hm : Costlier s t) (hls : s.lsps = [])
    (hlt : t.lsps = []) (hrs : updateSimulation env s = .ok () s')
    (hrt : updateSimulation env' t = .ok () t') {d : ℕ} (hb : InBoth s t d) :
    ((s'.dmd d).path = none ↔ (t'.dmd d).path = none) ∧
    ∀ ps, (s'.dmd d).path = some ps →
      (ps.filter (costKept s t) ≠ [] →
        SamePaths (t'.dmd d).path (some (ps.filter (costKept s t)))) ∧
      (ps.filter (costKept s t) = [] → ∀ qs, (t'.dmd d).path = some qs →
        ∀ p ∈ ps, ∀ q ∈ qs, pathCost s p < pathCost t q) := by
  obtain ⟨s1, Δ, hs⟩ := sim_spec hts.dmds hts.ends hts.ckts hrs
  obtain ⟨t1, Δ', ht⟩ := sim_spec htt.dmds htt.ends htt.ckts hrt
  obtain ⟨r1, g1⟩ := hs.noLsps hls
  obtain ⟨r2, g2⟩ := ht.noLsps hlt
  have hm' := hm.run hs.cfg ht.cfg
  have hu := hm'.usable r1 r2
  obtain ⟨e1, e2, -⟩ := inBoth_ends hb fun n => by rw [hm.node]
  have cs : (fun i => (s.ifc i).cost) = fun i => (s'.ifc i).cost := by
    funext i; rw [hs.cfg.ifc i]
  have ct : (fun i => (t.ifc i).cost) = fun i => (t'.ifc i).cost := by
    funext i; rw [ht.cfg.ifc i]
  have hr : ∀ a b, Reachable t'.tail t'.head (Usable t' 0) a b ↔
      Reachable s'.tail s'.head (Usable s' 0) a b := fun a b => by
    rw [hm'.tail, hm'.head]; exact exists_congr fun _ => Route.congr hu
  rcases hs.igp hts hsc hb.1 (g1 _) with ⟨p1, -, n1⟩ | ⟨l, det, p1, L1⟩ <;>
    rcases ht.igp htt (fun hk => hm.noShortcuts (hsc (hm.kind ▸ hk))) hb.2.1 (g2 _) with
      ⟨p2, -, n2⟩ | ⟨l', det', p2, L2⟩ <;> rw [p1, p2]
  · exact ⟨Iff.rfl, fun _ h => nomatch h⟩
  · exfalso
    obtain ⟨q, hq⟩ := List.exists_mem_of_ne_nil _ L2.ne
    have := ((L2.mem q).1 hq).1
    rw [ht.cfg.dmdSrc, ht.cfg.dmdDst, e1, e2] at this
    exact n1 ((hr _ _).1 ⟨q, this⟩)
  · exfalso
    obtain ⟨q, hq⟩ := List.exists_mem_of_ne_nil _ L1.ne
    have := ((L1.mem q).1 hq).1
    rw [hs.cfg.dmdSrc, hs.cfg.dmdDst] at this
    rw [hr, e1, e2] at n2
    exact n2 ⟨q, this⟩
  · refine ⟨by simp, fun ps h => ?_⟩
    cases h
    have hmem' : ∀ q, q ∈ l' ↔ Cheapest s'.tail s'.head (fun i => (t'.ifc i).cost)
        (Usable s' 0) (s'.dmdSrc d) q (s'.dmdDst d) := fun q => by
      rw [L2.mem q, ht.cfg.dmdSrc, ht.cfg.dmdDst, e1, e2, hs.cfg.dmdSrc, hs.cfg.dmdDst,
        CheapestOver.congr hu]
      unfold CheapestOver
      rw [hm'.tail, hm'.head]
    have hkept : ∀ q : List ℕ, costKept s t (q.map Item.ifc) = true ↔
        ∀ i ∈ q, (t'.ifc i).cost = (s'.ifc i).cost := fun q => by
      rw [costKept_ifcs]
      refine forall_congr' fun i => forall_congr' fun _ => ?_
      rw [congrFun cs i, congrFun ct i]
    constructor
    · intro hne
      obtain ⟨p, hp⟩ := List.exists_mem_of_ne_nil _ hne
      obtain ⟨hp1, hp2⟩ := List.mem_filter.1 hp
      obtain ⟨q₀, hq₀, rfl⟩ := List.mem_map.1 hp1
      have key : ∀ q, q ∈ l' ↔ q ∈ l ∧ costKept s t (q.map Item.ifc) = true := fun q => by
        rw [hmem', cheapest_raised hm'.cost ((L1.mem q₀).1 hq₀) ((hkept q₀).1 hp2), hkept]
        exact and_congr_left' (L1.mem q).symm
      show (l'.map _).Perm _
      rw [List.filter_map]
      refine List.Perm.map _ ((List.perm_ext_iff_of_nodup L2.nodup (L1.nodup.filter _)).2 fun q => ?_)
      rw [key, List.mem_filter]
      rfl
    · intro hno qs h p hp q hq
      cases h
      obtain ⟨p, hp0, rfl⟩ := List.mem_map.1 hp
      obtain ⟨q, hq0, rfl⟩ := List.mem_map.1 hq
      rw [pathCost_ifcs, pathCost_ifcs, cs, ct]
      refine cheapest_raised_dearer hm'.cost ((L1.mem p).1 hp0) ((hmem' q).1 hq0) fun r hr hall => ?_
      have hr' := (L1.mem r).2 hr
      have : r.map Item.ifc ∈ (l.map fun q => q.map Item.ifc).filter (costKept s t) :=
        List.mem_filter.2 ⟨List.mem_map_of_mem hr', (hkept r).2 hall⟩
      rw [hno] at this
      cases this

/-- **C93** A demand none of whose paths uses an interface with a raised cost is not affected:
it keeps its paths, and puts the same traffic on every interface. -/
theorem C93_unaffected {env env' : Env} {s s' t t' : State} (hts : Tidy s) (htt : Tidy t)
    (hsc : s.kind = .flex → NoShortcuts s) (hm : Costlier s t) (hls : s.lsps = [])
    (hlt : t.lsps = []) (hrs : updateSimulation env s = .ok () s')
    (hrt : updateSimulation env' t = .ok () t') {d : ℕ} (hb : InBoth s t d)
    (hsv : ∀ ps, (s'.dmd d).path = some ps → ∀ p ∈ ps, costKept s t p = true) :
    SamePaths (t'.dmd d).path (s'.dmd d).path ∧
    ∀ i, contribution t' d i = contribution s' d i := by
  have himp := C93_cost_impact hts htt hsc hm hls hlt hrs hrt hb
  obtain ⟨s1, Δ, hs⟩ := sim_spec hts.dmds hts.ends hts.ckts hrs
  obtain ⟨t1, Δ', ht⟩ := sim_spec htt.dmds htt.ends htt.ckts hrt
  obtain ⟨r1, g1⟩ := hs.noLsps hls
  obtain ⟨r2, g2⟩ := ht.noLsps hlt
  have hm' := hm.run hs.cfg ht.cfg
  obtain ⟨-, -, e3⟩ := inBoth_ends hb fun n => by rw [hm.node]
  have hsct := fun hk => hm.noShortcuts (hsc (hm.kind ▸ hk))
  have hΔ : (∀ i, Δ' d i = Δ d i) → ∀ i, contribution t' d i = contribution s' d i :=
    fun h i => by rw [← hs.delta_eq hts hsc hb.1, ← ht.delta_eq htt hsct hb.2.1, h]
  have hpaths : SamePaths (t'.dmd d).path (s'.dmd d).path := by
    cases hp : (s'.dmd d).path with
    | none => rw [himp.1.1 hp]; trivial
    | some ps =>
      have e : ps.filter (costKept s t) = ps := List.filter_eq_self.2 (hsv ps hp)
      have := (himp.2 ps hp).1
      rw [e] at this
      refine this fun h0 => ?_
      rcases hs.igp hts hsc hb.1 (g1 _) with ⟨p1, -⟩ | ⟨l, det, p1, L1⟩
      · rw [hp] at p1; cases p1
      · rw [hp] at p1; cases p1
        exact L1.ne (List.map_eq_nil_iff.1 h0)
  refine ⟨hpaths, hΔ ?_⟩
  rcases hs.igp hts hsc hb.1 (g1 _) with ⟨p1, z1, -⟩ | ⟨l, det, p1, L1⟩ <;>
    rcases ht.igp htt hsct hb.2.1 (g2 _) with ⟨p2, z2, -⟩ | ⟨l', det', p2, L2⟩ <;>
    rw [p1, p2] at hpaths
  · intro i; rw [z1, z2]
  · cases hpaths
  · cases hpaths
  · refine L1.same L2 hm'.kind hm'.tail (by rw [ht.cfg.dmd, hs.cfg.dmd]; exact e3) fun q => ?_
    have h1 : (l'.map fun q => q.map Item.ifc).Perm (l.map fun q => q.map Item.ifc) := hpaths
    have h2 := h1.mem_iff (a := q.map Item.ifc)
    rwa [List.mem_map_of_injective ifc_map_injective, List.mem_map_of_injective ifc_map_injective]
      at h2

theorem setCost_costlier {s t : State} {i : ℕ} {c : ℤ} (hc : setCost i c s = .ok () t)
    (hle : ((s.ifc i).cost : ℤ) ≤ c) :
    Costlier s t ∧ t = { s with ifc := t.ifc } ∧ (t.ifc i).cost = c ∧ 1 ≤ c ∧
      ∀ j, t.ifc j = { s.ifc j with cost := (t.ifc j).cost } ∧
        (j ≠ i → (t.ifc j).cost = (s.ifc j).cost) := by
  unfold setCost at hc
  split at hc
  · cases hc
  rename_i h1
  cases hc
  have hj : ∀ j, (s.updIfc i fun x => { x with cost := c.toNat }).ifc j =
      if j = i then { s.ifc j with cost := c.toNat } else s.ifc j := fun j => by
    unfold State.updIfc
    rfl
  refine ⟨⟨rfl, .refl _, rfl, .refl _, fun j => ?_, fun j => ?_⟩, rfl, ?_, by omega, fun j =>
    ⟨?_, fun h => ?_⟩⟩ <;> rw [hj]
  · split <;> rfl
  · split
    · next h => subst h; show _ ≤ c.toNat; omega
    · exact le_rfl
  · rw [if_pos rfl]; show ((c.toNat : ℕ) : ℤ) = c; omega
  · split <;> rfl
  · rw [if_neg h]

/-- **C93** in terms of calls: simulate, raise the cost of one interface, simulate again -/
theorem C93_raise_cost {env env' : Env} {s s' t t' : State} (hts : Tidy s)
    (hsc : s.kind = .flex → NoShortcuts s) (hls : s.lsps = [])
    (hrs : updateSimulation env s = .ok () s') {i : ℕ} {c : ℤ}
    (hle : ((s.ifc i).cost : ℤ) < c) (hc : setCost i c s' = .ok () t)
    (hrt : updateSimulation env' t = .ok () t') {d : ℕ} (hd : d ∈ s.dmds) :
    ((s'.dmd d).path = none ↔ (t'.dmd d).path = none) ∧
    ∀ ps, (s'.dmd d).path = some ps →
      ((∀ p ∈ ps, Item.ifc i ∉ p) → SamePaths (t'.dmd d).path (some ps) ∧
        ∀ k, contribution t' d k = contribution s' d k) ∧
      (∀ others, others = ps.filter (fun p => Item.ifc i ∉ p) →
        others ≠ [] → SamePaths (t'.dmd d).path (some others)) ∧
      ((∀ p ∈ ps, Item.ifc i ∈ p) → ∀ qs, (t'.dmd d).path = some qs →
        ∀ p ∈ ps, ∀ q ∈ qs, pathCost s p < pathCost t q) := by
  obtain ⟨s1, Δ, hs⟩ := sim_spec hts.dmds hts.ends hts.ckts hrs
  have ec : ∀ j, (s'.ifc j).cost = (s.ifc j).cost := fun j => by rw [hs.cfg.ifc j]
  obtain ⟨hm0, ht0, hci, hc1, hcj⟩ := setCost_costlier hc (by rw [ec]; omega)
  have hm : Costlier s t := {
    kind := by rw [hm0.kind, hs.cfg.kind]
    nodes := by rw [← hs.cfg.nodes]; exact hm0.nodes
    node := by rw [hm0.node]; funext n; rw [hs.cfg.node]
    ifs := by rw [← hs.cfg.ifs]; exact hm0.ifs
    ifc := fun j => by rw [hm0.ifc j, hs.cfg.ifc j]
    cost := fun j => by rw [← ec]; exact hm0.cost j }
  have hs' := hts.simulated hrs
  have hopp : ∀ x y, Opposite t x y → Opposite s' x y := fun x y ho => by
    obtain ⟨h1, h2, h3⟩ := ho
    rw [hm0.tail, hm0.head] at h1 h2
    refine ⟨h1, h2, fun hk => ?_⟩
    have := h3 (hm0.kind.trans hk)
    rwa [(hcj x).1, (hcj y).1] at this
  have htt : Tidy t := {
    nodes := hm0.nodes.nodup_iff.2 hs'.nodes
    ifs := hm0.ifs.nodup_iff.2 hs'.ifs
    dmds := by rw [ht0]; exact hs'.dmds
    lsps := by rw [ht0]; exact hs'.lsps
    costs := fun j hj => (hs'.costs j (hm0.ifs.mem_iff.1 hj)).trans (hm0.cost j)
    ends := fun x hx y hy ho => by
      rw [(hcj x).1, (hcj y).1]
      exact hs'.ends x (hm0.ifs.mem_iff.1 hx) y (hm0.ifs.mem_iff.1 hy) (hopp x y ho)
    ckts := fun hk j hj => by
      rw [(hcj j).1]; exact hs'.ckts (hm0.kind ▸ hk) j (hm0.ifs.mem_iff.1 hj) }
  have hlt : t.lsps = [] := by rw [ht0]; exact hs.cfg.lsps.trans hls
  have hb : InBoth s t d := by
    refine ⟨hd, by rw [ht0]; exact hs.cfg.dmds ▸ hd, ?_⟩
    rw [ht0]
    exact hs.cfg.dmd d
  have hkept : ∀ ps, (s'.dmd d).path = some ps → ∀ p ∈ ps,
      (costKept s t p = true ↔ Item.ifc i ∉ p) := by
    intro ps hps p hp
    rcases hs.igp hts hsc hd ((hs.noLsps hls).2 _) with ⟨p1, -⟩ | ⟨l, det, p1, L1⟩
    · rw [hps] at p1; cases p1
    rw [hps] at p1
    cases p1
    obtain ⟨q, hq, rfl⟩ := List.mem_map.1 hp
    rw [costKept_ifcs, mem_map_ifc]
    constructor
    · intro h hi
      have := h i hi
      omega
    · intro h j hj
      rw [← ec, (hcj j).2 (by rintro rfl; exact h hj)]
  have himp := C93_cost_impact hts htt hsc hm hls hlt hrs hrt hb
  refine ⟨himp.1, fun ps hps => ⟨fun hun => ?_, fun sv hsv hne => ?_, fun hno => ?_⟩⟩
  · have := C93_unaffected hts htt hsc hm hls hlt hrs hrt hb fun ps' h' p hp => by
      rw [hps] at h'
      cases h'
      exact (hkept ps hps p hp).2 (hun p hp)
    rw [hps] at this
    exact this
  · have e2 : ps.filter (costKept s t) = sv := by
      rw [hsv]
      exact List.filter_congr fun p hp => by
        rw [Bool.eq_iff_iff, hkept ps hps p hp, decide_eq_true_eq]
    have := (himp.2 ps hps).1
    rw [e2] at this
    exact this hne
  · refine (himp.2 ps hps).2 (List.filter_eq_nil_iff.2 fun p hp => ?_)
    rw [hkept ps hps p hp]
    exact fun h => h (hno p hp)

/-- the square after the cost of `ab1` on A is set to 50 -/
def Ex.squareDear (k : Kind) : State := finalState (setCost 0 50) (Ex.squareRun k)

/-- the square meets the hypotheses: demand 0 keeps one of its two paths, demand 1 moves to a
dearer one -/
example (k : Kind) : Tidy (Ex.square k) ∧ NoShortcuts (Ex.square k) ∧ (Ex.square k).lsps = [] ∧
    raised (updateSimulation Env.default) (Ex.square k) = none ∧
    (((Ex.square k).ifc 0).cost : ℤ) < 50 ∧ raised (setCost 0 50) (Ex.squareRun k) = none ∧
    raised (updateSimulation Env.default) (Ex.squareDear k) = none ∧
    ((Ex.squareRun k).dmd 0).path = some [[.ifc 0, .ifc 2], [.ifc 4, .ifc 6]] ∧
    ((finalState (updateSimulation Env.default) (Ex.squareDear k)).dmd 0).path =
      some [[.ifc 4, .ifc 6]] ∧
    ((Ex.squareRun k).dmd 1).path = some [[.ifc 0]] ∧
    ((finalState (updateSimulation Env.default) (Ex.squareDear k)).dmd 1).path =
      some [[.ifc 4, .ifc 6, .ifc 3]] := by
  refine ⟨?_, ?_, rfl, ?_, ?_, ?_, ?_, ?_, ?_, ?_, ?_⟩ <;> cases k <;> decide +kernel

/-- **C93** Draining.  Without LSPs, if each of a demand's paths after some interfaces fail costs
less than every one of those interfaces, then the demand takes the same paths, and puts the same
traffic on every interface, when they are up: costing interfaces out is as good as failing them. -/
theorem C93_drained {env env' : Env} {s s' t t' : State} (hts : Tidy s) (htt : Tidy t)
    (hsc : s.kind = .flex → NoShortcuts s) (hm : MoreFailures s t) (hls : s.lsps = [])
    (hlt : t.lsps = []) (hrs : updateSimulation env s = .ok () s')
    (hrt : updateSimulation env' t = .ok () t') {d : ℕ} (hb : InBoth s t d)
    {qs : List (List Item)} (hq : (t'.dmd d).path = some qs)
    (hdear : ∀ q ∈ qs, ∀ i, (s.ifc i).failed = false → (t.ifc i).failed = true →
      pathCost t q < (s.ifc i).cost) :
    SamePaths (t'.dmd d).path (s'.dmd d).path ∧
    ∀ i, contribution t' d i = contribution s' d i := by
  refine C77_unaffected hts htt hsc hm hls hlt hrs hrt hb fun ps hps p hp => ?_
  obtain ⟨s1, Δ, hs⟩ := sim_spec hts.dmds hts.ends hts.ckts hrs
  obtain ⟨t1, Δ', ht⟩ := sim_spec htt.dmds htt.ends htt.ckts hrt
  obtain ⟨r1, g1⟩ := hs.noLsps hls
  obtain ⟨r2, g2⟩ := ht.noLsps hlt
  have hm' := hm.run hs.cfg ht.cfg
  have hu := hm'.usable r1 r2
  obtain ⟨e1, e2, -⟩ := inBoth_ends hb fun n => by rw [hm.node n]
  rcases hs.igp hts hsc hb.1 (g1 _) with ⟨p1, -⟩ | ⟨l, det, p1, L1⟩
  · rw [hps] at p1; cases p1
  rcases ht.igp htt (fun hk => hm.noShortcuts (hsc (hm.kind ▸ hk))) hb.2.1 (g2 _) with
      ⟨p2, -⟩ | ⟨l', det', p2, L2⟩
  · rw [hq] at p2; cases p2
  rw [hps] at p1
  rw [hq] at p2
  cases p1
  cases p2
  obtain ⟨p, hp0, rfl⟩ := List.mem_map.1 hp
  obtain ⟨q, hq0⟩ := List.exists_mem_of_ne_nil _ L2.ne
  have hqr := ((L2.mem q).1 hq0).1
  rw [hm'.tail, hm'.head, ht.cfg.dmdSrc, ht.cfg.dmdDst, e1, e2, ← hs.cfg.dmdSrc,
    ← hs.cfg.dmdDst] at hqr
  have hle := ((L1.mem p).1 hp0).2 q (hqr.mono fun i _ hi => ((hu i).1 hi).1)
  rw [survives_ifcs]
  intro i hi
  cases hf : (t'.ifc i).failed
  · rfl
  exfalso
  have hup : (s'.ifc i).failed = false := (Route.mem_ok ((L1.mem p).1 hp0).1 i hi).2.1
  have hlt' := hdear _ (List.mem_map_of_mem hq0) i (by rw [hs.cfg.ifc i] at hup; exact hup)
    (by rw [ht.cfg.ifc i] at hf; exact hf)
  rw [pathCost_ifcs] at hlt'
  have hc1 : (fun i => (t.ifc i).cost) = fun i => (s'.ifc i).cost := by
    funext j; rw [hm.ifc j, hs.cfg.ifc j]
  rw [hc1] at hlt'
  have hc2 : (s.ifc i).cost = (s'.ifc i).cost := by rw [hs.cfg.ifc i]
  rw [hc2] at hlt'
  have hmem : (s'.ifc i).cost ≤ totalCost (fun i => (s'.ifc i).cost) p :=
    List.single_le_sum (by simp) _ (List.mem_map_of_mem hi)
  omega

/-- the square with circuit A-B at cost 90, and the same with the circuit failed -/
def Ex.squareOut (k : Kind) : State :=
  finalState (do setCost 0 90; setCost 1 90) (Ex.square k)

def Ex.squareOutCut (k : Kind) : State :=
  { Ex.squareOut k with ifc := fun i =>
    if i ≤ 1 then { (Ex.squareOut k).ifc i with failed := true } else (Ex.squareOut k).ifc i }

example (k : Kind) : Tidy (Ex.squareOut k) ∧ Tidy (Ex.squareOutCut k) ∧
    NoShortcuts (Ex.squareOut k) ∧ (Ex.squareOut k).lsps = [] ∧ (Ex.squareOutCut k).lsps = [] ∧
    MoreFailures (Ex.squareOut k) (Ex.squareOutCut k) ∧
    InBoth (Ex.squareOut k) (Ex.squareOutCut k) 1 ∧
    raised (updateSimulation Env.default) (Ex.squareOut k) = none ∧
    raised (updateSimulation Env.default) (Ex.squareOutCut k) = none ∧
    ((finalState (updateSimulation Env.default) (Ex.squareOutCut k)).dmd 1).path =
      some [[.ifc 4, .ifc 6, .ifc 3]] ∧
    pathCost (Ex.squareOutCut k) [.ifc 4, .ifc 6, .ifc 3] < ((Ex.squareOut k).ifc 0).cost := by
  refine ⟨?_, ?_, ?_, ?_, ?_, ⟨rfl, .refl _, fun _ => rfl, .refl _, fun i => ?_, fun i h => ?_⟩,
    ⟨?_, ?_, rfl⟩, ?_, ?_, ?_, ?_⟩
  case refine_6 =>
    show (if i ≤ 1 then _ else _) = _
    split
    · next h => simp only [Ex.squareOutCut, h, if_true]
    · next h => simp only [Ex.squareOutCut, h, if_false]
  case refine_7 =>
    show (if i ≤ 1 then _ else _ : Ifc).failed = true
    split
    · rfl
    · exact h
  all_goals cases k <;> decide +kernel

/-- **C94** More demand never means less load.  On the same network and without LSPs, if every
demand of `s` is in `t` with at least as much traffic, and the demands that `t` has besides have
no negative traffic, then the demands of `s` take the same paths in `t`, and no interface carries
less in `t` than in `s`. -/
theorem C94_more_demand {env env' : Env} {s s' t t' : State} (hts : Tidy s) (htt : Tidy t)
    (hsc : s.kind = .flex → NoShortcuts s) (hk : t.kind = s.kind) (hn : SameNetwork s t)
    {added : List ℕ} (hd : t.dmds.Perm (s.dmds ++ added)) (hb : ∀ d ∈ s.dmds, NoLighter s t d)
    (hpos : ∀ d ∈ added, 0 ≤ (t.dmd d).traffic)
    (hls : s.lsps = []) (hlt : t.lsps = []) (hrs : updateSimulation env s = .ok () s')
    (hrt : updateSimulation env' t = .ok () t') :
    (∀ d ∈ s.dmds, SamePaths (s'.dmd d).path (t'.dmd d).path) ∧
    ∀ i ∈ s.ifs, ((s'.ifc i).traffic = .down ∧ (t'.ifc i).traffic = .down) ∨
      ∃ a b, (s'.ifc i).traffic = .val a ∧ (t'.ifc i).traffic = .val b ∧ a ≤ b := by
  obtain ⟨s1, Δs, hs⟩ := sim_spec hts.dmds hts.ends hts.ckts hrs
  obtain ⟨t1, Δt, ht⟩ := sim_spec htt.dmds htt.ends htt.ckts hrt
  have hst : t.kind = .flex → NoShortcuts t := fun h n hm => by
    rw [hn.node]; exact hsc (hk ▸ h) n (hn.nodes.mem_iff.1 hm)
  have nt : SameNetwork s' t' := hn.run hs.cfg ht.cfg
  have cs := fun d hd' => compare_heavier hs ht hts htt hsc hst hls hlt
    (by rw [ht.cfg.kind, hs.cfg.kind, hk]) hn (hb d hd')
  refine ⟨fun d h => (cs d h).1, fun i hi => ?_⟩
  rw [hs.traffic i hi, ht.traffic i (hn.ifs.mem_iff.2 hi), nt.failed i]
  split
  · exact .inl ⟨rfl, rfl⟩
  refine .inr ⟨_, _, rfl, rfl, ?_⟩
  rw [(hd.map _).sum_eq, List.map_append, List.sum_append]
  have h1 : (s.dmds.map fun d => Δs d i).sum ≤ (s.dmds.map fun d => Δt d i).sum :=
    List.sum_le_sum fun d hd' => (cs d hd').2 i
  have h2 : 0 ≤ (added.map fun d => Δt d i).sum := by
    refine List.sum_nonneg fun x hx => ?_
    obtain ⟨d, hd', rfl⟩ := List.mem_map.1 hx
    rcases ht.igp htt hst (hd.mem_iff.2 (List.mem_append_right _ hd')) ((ht.noLsps hlt).2 _) with
      ⟨-, z, -⟩ | ⟨l, det, -, L⟩
    · rw [z]
    · exact L.nonneg' (by rw [ht.cfg.dmd]; exact hpos d hd') i
  linarith

/-- the square with demand 0 alone, and with demand 0 heavier and demand 1 added -/
def Ex.squareBusy (k : Kind) : State :=
  { Ex.square k with dmd := fun d =>
    if d = 0 then { (Ex.square k).dmd 0 with traffic := 13 } else (Ex.square k).dmd d }

example (k : Kind) : Tidy (Ex.only k [0]) ∧ Tidy (Ex.squareBusy k) ∧ NoShortcuts (Ex.only k [0]) ∧
    SameNetwork (Ex.only k [0]) (Ex.squareBusy k) ∧
    (Ex.squareBusy k).dmds.Perm ((Ex.only k [0]).dmds ++ [1]) ∧
    (∀ d ∈ (Ex.only k [0]).dmds, NoLighter (Ex.only k [0]) (Ex.squareBusy k) d) ∧
    (∀ d ∈ [1], 0 ≤ ((Ex.squareBusy k).dmd d).traffic) ∧
    (Ex.only k [0]).lsps = [] ∧ (Ex.squareBusy k).lsps = [] ∧
    raised (updateSimulation Env.default) (Ex.only k [0]) = none ∧
    raised (updateSimulation Env.default) (Ex.squareBusy k) = none ∧
    ((finalState (updateSimulation Env.default) (Ex.only k [0])).ifc 0).traffic = .val 5 ∧
    ((finalState (updateSimulation Env.default) (Ex.squareBusy k)).ifc 0).traffic =
      .val (19 / 2) := by
  refine ⟨?_, ?_, ?_, ⟨rfl, .refl _, .refl _, fun _ => rfl⟩, .refl _, fun d hd => ?_, ?_, rfl,
    rfl, ?_, ?_, ?_, ?_⟩
  case refine_4 =>
    have : d = 0 := by simpa [Ex.only] using hd
    subst this
    refine ⟨?_, ?_, rfl, rfl, ?_⟩ <;> cases k <;> decide +kernel
  all_goals cases k <;> decide +kernel

end NTM
