import Verif.Proof.Impact
import Verif.Props.Failure
import Verif.Props.Carry

/-!
# C77–C81: what a change of the model does to the results
-/

namespace NTM

open Spec

/-- **C77** Without LSPs, when further interfaces fail: a demand that was unrouted stays
unrouted; if some of a demand's paths survive, it is carried by exactly those that do; if none
does, it is unrouted or its new paths are all dearer than the old ones. -/
theorem C77_failure_impact {env env' : Env} {s s' t t' : State} (hts : Tidy s) (htt : Tidy t)
    (hsc : s.kind = .flex → NoShortcuts s) (hm : MoreFailures s t) (hls : s.lsps = [])
    (hlt : t.lsps = []) (hrs : updateSimulation env s = .ok () s')
    (hrt : updateSimulation env' t = .ok () t') {d : ℕ} (hb : InBoth s t d) :
    ((s'.dmd d).path = none → (t'.dmd d).path = none) ∧
    ∀ ps, (s'.dmd d).path = some ps →
      (ps.filter (survives t') ≠ [] → SamePaths (t'.dmd d).path (some (ps.filter (survives t')))) ∧
      (ps.filter (survives t') = [] → ∀ qs, (t'.dmd d).path = some qs →
        ∀ p ∈ ps, ∀ q ∈ qs, pathCost t' p < pathCost t' q) := by
  obtain ⟨s1, Δ, hs⟩ := sim_spec hts.dmds hts.ends hts.ckts hrs
  obtain ⟨t1, Δ', ht⟩ := sim_spec htt.dmds htt.ends htt.ckts hrt
  obtain ⟨r1, g1⟩ := hs.noLsps hls
  obtain ⟨r2, g2⟩ := ht.noLsps hlt
  have hm' := hm.run hs.cfg ht.cfg
  have hu := hm'.usable r1 r2
  have hsub : ∀ i, Usable t' 0 i → Usable s' 0 i := fun i hi => ((hu i).1 hi).1
  obtain ⟨e1, e2, -⟩ := inBoth_ends hb fun n => by rw [hm.node n]
  have hcost : (fun i => (t'.ifc i).cost) = fun i => (s'.ifc i).cost := by
    funext i; rw [hm'.ifc i]
  rcases hs.igp hts hsc hb.1 (g1 _) with ⟨p1, -, n1⟩ | ⟨l, det, p1, L1⟩ <;>
    rcases ht.igp htt (fun hk => hm.noShortcuts (hsc (hm.kind ▸ hk))) hb.2.1 (g2 _) with
      ⟨p2, -, n2⟩ | ⟨l', det', p2, L2⟩ <;> rw [p1, p2]
  · exact ⟨fun _ => rfl, fun _ h => nomatch h⟩
  · exfalso
    obtain ⟨q, hq⟩ := List.exists_mem_of_ne_nil _ L2.ne
    have := ((L2.mem q).1 hq).1
    rw [hm'.tail, hm'.head, ht.cfg.dmdSrc, ht.cfg.dmdDst, e1, e2] at this
    exact n1 ⟨q, this.mono fun i _ => hsub i⟩
  · refine ⟨fun h => (nomatch h), fun ps h => ?_⟩
    cases h
    refine ⟨fun hne => ?_, fun _ qs h => (nomatch h)⟩
    exfalso
    obtain ⟨p, hp⟩ := List.exists_mem_of_ne_nil _ hne
    obtain ⟨hp1, hp2⟩ := List.mem_filter.1 hp
    obtain ⟨q, hq, rfl⟩ := List.mem_map.1 hp1
    rw [survives_ifcs] at hp2
    have := ((L1.mem q).1 hq).1
    rw [hs.cfg.dmdSrc, hs.cfg.dmdDst] at this
    rw [hm'.tail, hm'.head, e1, e2] at n2
    exact n2 ⟨q, this.mono fun i hi h => (hu i).2 ⟨h, hp2 i hi⟩⟩
  · refine ⟨fun h => (nomatch h), fun ps h => ?_⟩
    cases h
    have hmem' : ∀ q, q ∈ l' ↔ Cheapest s'.tail s'.head (fun i => (s'.ifc i).cost)
        (Usable t' 0) (s'.dmdSrc d) q (s'.dmdDst d) := fun q => by
      rw [L2.mem q, ht.cfg.dmdSrc, ht.cfg.dmdDst, e1, e2, hs.cfg.dmdSrc, hs.cfg.dmdDst]
      unfold CheapestOver
      rw [hm'.tail, hm'.head, hcost]
    have hsurv : ∀ q ∈ l, (∀ i ∈ q, Usable t' 0 i) ↔ survives t' (q.map Item.ifc) = true :=
      fun q hq => by
        rw [survives_ifcs]
        have := Route.mem_ok ((L1.mem q).1 hq).1
        exact ⟨fun h i hi => ((hu i).1 (h i hi)).2, fun h i hi => (hu i).2 ⟨this i hi, h i hi⟩⟩
    constructor
    · intro hne
      obtain ⟨p, hp⟩ := List.exists_mem_of_ne_nil _ hne
      obtain ⟨hp1, hp2⟩ := List.mem_filter.1 hp
      obtain ⟨q₀, hq₀, rfl⟩ := List.mem_map.1 hp1
      have key : ∀ q, q ∈ l' ↔ q ∈ l ∧ survives t' (q.map Item.ifc) = true := fun q => by
        rw [hmem', cheapest_sub hsub ((L1.mem q₀).1 hq₀) ((hsurv q₀ hq₀).2 hp2)]
        constructor
        · rintro ⟨h1, h2⟩
          have := (L1.mem q).2 h1
          exact ⟨this, (hsurv q this).1 h2⟩
        · rintro ⟨h1, h2⟩
          exact ⟨(L1.mem q).1 h1, (hsurv q h1).2 h2⟩
      show (l'.map _).Perm _
      rw [List.filter_map]
      refine List.Perm.map _ ((List.perm_ext_iff_of_nodup L2.nodup (L1.nodup.filter _)).2 fun q => ?_)
      rw [key, List.mem_filter]
      rfl
    · intro hno qs h p hp q hq
      cases h
      obtain ⟨p, hp0, rfl⟩ := List.mem_map.1 hp
      obtain ⟨q, hq0, rfl⟩ := List.mem_map.1 hq
      rw [pathCost_ifcs, pathCost_ifcs, hcost]
      refine cheapest_dearer hsub ((L1.mem p).1 hp0) ((hmem' q).1 hq0) fun r hr hall => ?_
      have hr' := (L1.mem r).2 hr
      have : r.map Item.ifc ∈ (l.map fun q => q.map Item.ifc).filter (survives t') :=
        List.mem_filter.2 ⟨List.mem_map_of_mem hr', (hsurv r hr').1 hall⟩
      rw [hno] at this
      cases this

/-- **C77** A demand none of whose paths uses an interface that has failed is not affected: it
keeps its paths, and puts the same traffic on every interface. -/
theorem C77_unaffected {env env' : Env} {s s' t t' : State} (hts : Tidy s) (htt : Tidy t)
    (hsc : s.kind = .flex → NoShortcuts s) (hm : MoreFailures s t) (hls : s.lsps = [])
    (hlt : t.lsps = []) (hrs : updateSimulation env s = .ok () s')
    (hrt : updateSimulation env' t = .ok () t') {d : ℕ} (hb : InBoth s t d)
    (hsv : ∀ ps, (s'.dmd d).path = some ps → ∀ p ∈ ps, survives t' p = true) :
    SamePaths (t'.dmd d).path (s'.dmd d).path ∧
    ∀ i, contribution t' d i = contribution s' d i := by
  have himp := C77_failure_impact hts htt hsc hm hls hlt hrs hrt hb
  obtain ⟨s1, Δ, hs⟩ := sim_spec hts.dmds hts.ends hts.ckts hrs
  obtain ⟨t1, Δ', ht⟩ := sim_spec htt.dmds htt.ends htt.ckts hrt
  obtain ⟨r1, g1⟩ := hs.noLsps hls
  obtain ⟨r2, g2⟩ := ht.noLsps hlt
  have hm' := hm.run hs.cfg ht.cfg
  obtain ⟨-, -, e3⟩ := inBoth_ends hb fun n => by rw [hm.node n]
  have hsct := fun hk => hm.noShortcuts (hsc (hm.kind ▸ hk))
  have hΔ : (∀ i, Δ' d i = Δ d i) → ∀ i, contribution t' d i = contribution s' d i :=
    fun h i => by rw [← hs.delta_eq hts hsc hb.1, ← ht.delta_eq htt hsct hb.2.1, h]
  have hpaths : SamePaths (t'.dmd d).path (s'.dmd d).path := by
    cases hp : (s'.dmd d).path with
    | none => rw [himp.1 hp]; trivial
    | some ps =>
      have e : ps.filter (survives t') = ps := List.filter_eq_self.2 (hsv ps hp)
      have := (himp.2 ps hp).1
      rw [e] at this
      refine this fun h0 => ?_
      rcases hs.igp hts hsc hb.1 (g1 _) with ⟨p1, -⟩ | ⟨l, det, p1, L1⟩
      · rw [hp] at p1; cases p1
      · rw [hp] at p1; cases p1
        exact L1.ne (List.map_eq_nil_iff.1 h0)
  refine ⟨hpaths, hΔ ?_⟩
  rcases hs.igp hts hsc hb.1 (g1 _) with ⟨p1, z1, -⟩ | ⟨l, det, p1, L1⟩ <;>
    rcases ht.igp htt hsct hb.2.1 (g2 _) with ⟨p2, z2, -⟩ | ⟨l', det', p2, L2⟩ <;>
    rw [p1, p2] at hpaths
  · intro i; rw [z1, z2]
  · cases hpaths
  · cases hpaths
  · refine L1.same L2 hm'.kind hm'.tail (by rw [ht.cfg.dmd, hs.cfg.dmd]; exact e3) fun q => ?_
    have h1 : (l'.map fun q => q.map Item.ifc).Perm (l.map fun q => q.map Item.ifc) := hpaths
    have h2 := h1.mem_iff (a := q.map Item.ifc)
    rwa [List.mem_map_of_injective ifc_map_injective, List.mem_map_of_injective ifc_map_injective]
      at h2

theorem Spec.FailedOnly.moreFailures {s t : State} {F N : ℕ → Prop} (h : FailedOnly s t F N) :
    MoreFailures s t := by
  obtain ⟨h1, h2, h3, h4, h5⟩ := h
  refine ⟨by rw [h5], by rw [h5], fun n => ?_, by rw [h5], fun i => ?_, fun i hi => ?_⟩
  · by_cases hn : N n
    · rw [h3 n hn]
    · rw [h4 n hn]
  · by_cases hn : F i
    · rw [h1 i hn]
    · rw [h2 i hn]
  · by_cases hn : F i
    · rw [h1 i hn]
    · rw [h2 i hn]; exact hi

/-- a simulated model is as tidy as before -/
theorem Spec.Tidy.simulated {env : Env} {s s' : State} (h : Tidy s)
    (hrun : updateSimulation env s = .ok () s') : Tidy s' := by
  obtain ⟨s1, Δ, hs⟩ := sim_spec h.dmds h.ends h.ckts hrun
  have hc := hs.cfg
  have hin := C73_inputs_kept env s
  unfold finalState at hin
  rw [hrun] at hin
  have hid : s.kind = .flex → ∀ i, (s'.ifc i).cktId = (s.ifc i).cktId := hin.cktId
  have hf : ∀ i, (s'.ifc i).failed = (s.ifc i).failed := fun i => by rw [hc.ifc i]
  exact {
    nodes := by rw [hc.nodes]; exact h.nodes
    ifs := by rw [hc.ifs]; exact h.ifs
    dmds := by rw [hc.dmds]; exact h.dmds
    lsps := by rw [hc.lsps]; exact h.lsps
    costs := fun i hi => by rw [hc.ifc i]; exact h.costs i (hc.ifs ▸ hi)
    ends := fun i hi j hj ho => by
      rw [hf, hf]
      refine h.ends i (hc.ifs ▸ hi) j (hc.ifs ▸ hj) ⟨?_, ?_, fun hk => ?_⟩
      · rw [← hc.tail, ← hc.head]; exact ho.1
      · rw [← hc.tail, ← hc.head]; exact ho.2.1
      · rw [← hid hk, ← hid hk]; exact ho.2.2 (hc.kind.trans hk)
    ckts := fun hk i hi => by
      rw [hid (hc.kind ▸ hk)]; exact h.ckts (hc.kind ▸ hk) i (hc.ifs ▸ hi) }

/-- failing both directions of circuits keeps a model tidy -/
theorem Spec.FailedOnly.tidy {s t : State} {F N : ℕ → Prop} (h : FailedOnly s t F N) (hs : Tidy s)
    (hF : ∀ i ∈ s.ifs, ∀ j ∈ s.ifs, Opposite s i j → F i → F j) : Tidy t := by
  have hm := h.moreFailures
  have e := h.2.2.2.2
  have hifs : t.ifs = s.ifs := by rw [e]
  have hkind : t.kind = s.kind := by rw [e]
  have hid : ∀ i, (t.ifc i).cktId = (s.ifc i).cktId := fun i => by
    by_cases hn : F i
    · rw [h.1 i hn]
    · rw [h.2.1 i hn]
  have hopp : ∀ i j, Opposite t i j → Opposite s i j := fun i j ho => by
    refine ⟨?_, ?_, fun hk => ?_⟩
    · rw [← hm.tail, ← hm.head]; exact ho.1
    · rw [← hm.tail, ← hm.head]; exact ho.2.1
    · rw [← hid, ← hid]; exact ho.2.2 (hkind.trans hk)
  exact {
    nodes := by rw [e]; exact hs.nodes
    ifs := by rw [e]; exact hs.ifs
    dmds := by rw [e]; exact hs.dmds
    lsps := by rw [e]; exact hs.lsps
    costs := fun i hi => by rw [hm.ifc i]; exact hs.costs i (hifs ▸ hi)
    ends := fun i hi j hj ho => by
      rw [hifs] at hi hj
      have ho' := hopp i j ho
      by_cases h1 : F i
      · rw [h.1 i h1, h.1 j (hF i hi j hj ho' h1)]
      · have h2 : ¬ F j := fun h2 => h1 (hF j hj i hi (opposite_symm ho') h2)
        rw [h.2.1 i h1, h.2.1 j h2]
        exact hs.ends i hi j hj ho'
    ckts := fun hk i hi => by rw [hid]; exact hs.ckts (hkind ▸ hk) i (hifs ▸ hi) }

theorem moreFailures_trans {s t u : State} (hc : Cfg s t) (h : MoreFailures t u) :
    MoreFailures s u where
  kind := by rw [h.kind, hc.kind]
  nodes := by rw [← hc.nodes]; exact h.nodes
  node n := by rw [h.node n, hc.node]
  ifs := by rw [← hc.ifs]; exact h.ifs
  ifc i := by rw [h.ifc i, hc.ifc i]
  failed i hi := h.failed i (by rw [hc.ifc i]; exact hi)

/-- **C77** in terms of calls: simulate, fail a circuit with `fail_interface`, simulate again -/
theorem C77_fail_interface {env env' : Env} {s s' t t' : State} (hts : Tidy s)
    (hsc : s.kind = .flex → NoShortcuts s) (hls : s.lsps = [])
    (hrs : updateSimulation env s = .ok () s') (hw : Wired s') (hid : IdsMatch s') {i j : ℕ}
    (hi : i ∈ s'.ifs) (hj : j ∈ s'.ifs) (hij : Opposite s' i j)
    (hf : failInterface (s'.ifc i).name (s'.tail i) s' = .ok () t)
    (hrt : updateSimulation env' t = .ok () t') {d : ℕ} (hd : d ∈ s.dmds) :
    ((s'.dmd d).path = none → (t'.dmd d).path = none) ∧
    ∀ ps, (s'.dmd d).path = some ps →
      ((∀ p ∈ ps, Item.ifc i ∉ p ∧ Item.ifc j ∉ p) → SamePaths (t'.dmd d).path (some ps) ∧
        ∀ k, contribution t' d k = contribution s' d k) ∧
      (∀ surviving, surviving = ps.filter (fun p => Item.ifc i ∉ p ∧ Item.ifc j ∉ p) →
        surviving ≠ [] → SamePaths (t'.dmd d).path (some surviving)) ∧
      ((∀ p ∈ ps, Item.ifc i ∈ p ∨ Item.ifc j ∈ p) → ∀ qs, (t'.dmd d).path = some qs →
        ∀ p ∈ ps, ∀ q ∈ qs, pathCost t' p < pathCost t' q) := by
  obtain ⟨t₀, ht₀, hfo⟩ := C36_fail_interface hw hid hi hj hij
  rw [hf] at ht₀
  cases ht₀
  obtain ⟨s1, Δ, hs⟩ := sim_spec hts.dmds hts.ends hts.ckts hrs
  have htt : Tidy t := hfo.tidy (hts.simulated hrs) fun x hx y hy ho hF => by
    rcases hF with rfl | rfl
    · exact .inr (hw.twin_unique hy hj ho hij)
    · exact .inl (hw.twin_unique hy hi ho (opposite_symm hij))
  have hm : MoreFailures s t := moreFailures_trans hs.cfg hfo.moreFailures
  have e := hfo.2.2.2.2
  have hlt : t.lsps = [] := by rw [e]; exact hs.cfg.lsps.trans hls
  have hb : InBoth s t d := by
    refine ⟨hd, by rw [e]; exact hs.cfg.dmds ▸ hd, ?_⟩
    rw [e]
    exact hs.cfg.dmd d
  obtain ⟨t1, Δ', ht⟩ := sim_spec htt.dmds htt.ends htt.ckts hrt
  have hsurv : ∀ ps, (s'.dmd d).path = some ps → ∀ p ∈ ps,
      (survives t' p = true ↔ Item.ifc i ∉ p ∧ Item.ifc j ∉ p) := by
    intro ps hps p hp
    rcases hs.igp hts hsc hd ((hs.noLsps hls).2 _) with ⟨p1, -⟩ | ⟨l, det, p1, L1⟩
    · rw [hps] at p1; cases p1
    rw [hps] at p1
    cases p1
    obtain ⟨q, hq, rfl⟩ := List.mem_map.1 hp
    rw [survives_ifcs, mem_map_ifc, mem_map_ifc]
    have hup := fun k hk => (Route.mem_ok ((L1.mem q).1 hq).1 k hk).2.1
    constructor
    · intro h
      refine ⟨fun h1 => ?_, fun h1 => ?_⟩
      · have := h i h1
        rw [ht.cfg.ifc i, hfo.1 i (.inl rfl)] at this
        cases this
      · have := h j h1
        rw [ht.cfg.ifc j, hfo.1 j (.inr rfl)] at this
        cases this
    · rintro ⟨h1, h2⟩ k hk
      have : ¬ (k = i ∨ k = j) := by rintro (rfl | rfl) <;> contradiction
      rw [ht.cfg.ifc k, hfo.2.1 k this]
      exact hup k hk
  have himp := C77_failure_impact hts htt hsc hm hls hlt hrs hrt hb
  refine ⟨himp.1, fun ps hps => ⟨fun hun => ?_, fun sv hsv hne => ?_, fun hno => ?_⟩⟩
  · have := C77_unaffected hts htt hsc hm hls hlt hrs hrt hb fun ps' h' p hp => by
      rw [hps] at h'
      cases h'
      exact (hsurv ps hps p hp).2 (hun p hp)
    rw [hps] at this
    exact this
  · have e2 : ps.filter (survives t') = sv := by
      rw [hsv]
      exact List.filter_congr fun p hp => by
        rw [Bool.eq_iff_iff, hsurv ps hps p hp, decide_eq_true_eq]
    have := (himp.2 ps hps).1
    rw [e2] at this
    exact this hne
  · refine (himp.2 ps hps).2 (List.filter_eq_nil_iff.2 fun p hp => ?_)
    rw [hsurv ps hps p hp]
    rintro ⟨h1, h2⟩
    rcases hno p hp with h | h <;> contradiction

/-- the square, simulated -/
def Ex.squareRun (k : Kind) : State := finalState (updateSimulation Env.default) (Ex.square k)

/-- the same after `fail_interface("ab1", "A")` -/
def Ex.squareCut (k : Kind) : State := finalState (failInterface "ab1" "A") (Ex.squareRun k)

/-- the square with circuit A-B failed meets the hypotheses: of the two paths of demand 0 one
survives, and demand 1 is rerouted over three hops -/
example (k : Kind) : Tidy (Ex.square k) ∧ NoShortcuts (Ex.square k) ∧ (Ex.square k).lsps = [] ∧
    raised (updateSimulation Env.default) (Ex.square k) = none ∧ Wired (Ex.squareRun k) ∧
    IdsMatch (Ex.squareRun k) ∧ Opposite (Ex.squareRun k) 0 1 ∧
    raised (failInterface "ab1" "A") (Ex.squareRun k) = none ∧
    raised (updateSimulation Env.default) (Ex.squareCut k) = none ∧
    ((Ex.squareRun k).dmd 0).path = some [[.ifc 0, .ifc 2], [.ifc 4, .ifc 6]] ∧
    ((finalState (updateSimulation Env.default) (Ex.squareCut k)).dmd 0).path =
      some [[.ifc 4, .ifc 6]] ∧
    ((finalState (updateSimulation Env.default) (Ex.squareCut k)).dmd 1).path =
      some [[.ifc 4, .ifc 6, .ifc 3]] := by
  refine ⟨?_, ?_, rfl, ?_, ?_, ?_, ?_, ?_, ?_, ?_, ?_, ?_⟩ <;> cases k <;> decide +kernel

/-- **C78** Superposition.  Without LSPs, if the demands of `u` are those of `s` together with
those of `t`, on the same network, then every demand takes the same paths in `u` as alone, and
the traffic of every interface that is up is the sum of its traffic in `s` and in `t`. -/
theorem C78_superposition {es et eu : Env} {s s' t t' u u' : State} (hts : Tidy s) (htt : Tidy t)
    (htu : Tidy u) (hsc : s.kind = .flex → NoShortcuts s) (hkt : t.kind = s.kind)
    (hku : u.kind = s.kind) (hnt : SameNetwork s t) (hnu : SameNetwork s u)
    (hd : Together s t u) (hls : s.lsps = []) (hlt : t.lsps = []) (hlu : u.lsps = [])
    (hrs : updateSimulation es s = .ok () s') (hrt : updateSimulation et t = .ok () t')
    (hru : updateSimulation eu u = .ok () u') :
    (∀ d ∈ s.dmds, SamePaths (s'.dmd d).path (u'.dmd d).path) ∧
    (∀ d ∈ t.dmds, SamePaths (t'.dmd d).path (u'.dmd d).path) ∧
    ∀ i ∈ s.ifs, ∀ a b, (s'.ifc i).traffic = .val a → (t'.ifc i).traffic = .val b →
      (u'.ifc i).traffic = .val (a + b) := by
  obtain ⟨s1, Δs, hs⟩ := sim_spec hts.dmds hts.ends hts.ckts hrs
  obtain ⟨t1, Δt, ht⟩ := sim_spec htt.dmds htt.ends htt.ckts hrt
  obtain ⟨u1, Δu, hu⟩ := sim_spec htu.dmds htu.ends htu.ckts hru
  have hst : t.kind = .flex → NoShortcuts t := fun h n hm => by
    rw [hnt.node]; exact hsc (hkt ▸ h) n (hnt.nodes.mem_iff.1 hm)
  have hsu : u.kind = .flex → NoShortcuts u := fun h n hm => by
    rw [hnu.node]; exact hsc (hku ▸ h) n (hnu.nodes.mem_iff.1 hm)
  have nu : SameNetwork s' u' := hnu.run hs.cfg hu.cfg
  have ntu : SameNetwork t' u' := (hnt.symm.trans hnu).run ht.cfg hu.cfg
  have r1 := (hs.noLsps hls).1
  have r2 := (ht.noLsps hlt).1
  have r3 := (hu.noLsps hlu).1
  have us := usable_same nu fun i hi => by rw [r1 i hi, r3 i (nu.ifs.mem_iff.2 hi)]
  have ut := usable_same ntu fun i hi => by rw [r2 i hi, r3 i (ntu.ifs.mem_iff.2 hi)]
  have cs := fun d hd' => compare_demand hs hu hts htu hsc hsu hls hlu
    (by rw [hu.cfg.kind, hs.cfg.kind, hku]) nu.tail nu.head (fun n => by rw [hnu.node]) us
    (fun a q b => cheapest_same nu us) (hd.left d hd')
  have ct := fun d hd' => compare_demand ht hu htt htu hst hsu hlt hlu
    (by rw [hu.cfg.kind, ht.cfg.kind, hku, hkt]) ntu.tail ntu.head
    (fun n => by rw [hnu.node, hnt.node]) ut (fun a q b => cheapest_same ntu ut) (hd.right d hd')
  refine ⟨fun d h => (cs d h).1, fun d h => (ct d h).1, fun i hi a b ha hb => ?_⟩
  rw [hs.traffic i hi] at ha
  rw [ht.traffic i (hnt.ifs.mem_iff.2 hi)] at hb
  rw [hu.traffic i (hnu.ifs.mem_iff.2 hi), nu.failed i]
  split at ha
  · cases ha
  split at hb
  · cases hb
  rename_i h1 h2
  cases ha
  cases hb
  rw [if_neg h1, (hd.dmds.map _).sum_eq, List.map_append, List.sum_append,
    List.map_congr_left fun d hd' => (cs d hd').2 i, List.map_congr_left fun d hd' => (ct d hd').2 i]

/-- **C78** Locality: adding demands, on the same network and without LSPs, changes neither the
paths of the other demands nor what they put on any interface; each interface that is up gains
exactly what the added demands put on it. -/
theorem C78_added_demands {env env' : Env} {s s' t t' : State} (hts : Tidy s) (htt : Tidy t)
    (hsc : s.kind = .flex → NoShortcuts s) (hk : t.kind = s.kind) (hn : SameNetwork s t)
    {added : List ℕ} (hd : t.dmds.Perm (s.dmds ++ added)) (hb : ∀ d ∈ s.dmds, InBoth s t d)
    (hls : s.lsps = []) (hlt : t.lsps = []) (hrs : updateSimulation env s = .ok () s')
    (hrt : updateSimulation env' t = .ok () t') :
    (∀ d ∈ s.dmds, SamePaths (s'.dmd d).path (t'.dmd d).path ∧
      ∀ i, contribution t' d i = contribution s' d i) ∧
    ∀ i ∈ s.ifs, ∀ a, (s'.ifc i).traffic = .val a →
      (t'.ifc i).traffic = .val (a + (added.map fun d => contribution t' d i).sum) := by
  obtain ⟨s1, Δs, hs⟩ := sim_spec hts.dmds hts.ends hts.ckts hrs
  obtain ⟨t1, Δt, ht⟩ := sim_spec htt.dmds htt.ends htt.ckts hrt
  have hst : t.kind = .flex → NoShortcuts t := fun h n hm => by
    rw [hn.node]; exact hsc (hk ▸ h) n (hn.nodes.mem_iff.1 hm)
  have nt : SameNetwork s' t' := hn.run hs.cfg ht.cfg
  have r1 := (hs.noLsps hls).1
  have r2 := (ht.noLsps hlt).1
  have us := usable_same nt fun i hi => by rw [r1 i hi, r2 i (nt.ifs.mem_iff.2 hi)]
  have cs := fun d hd' => compare_demand hs ht hts htt hsc hst hls hlt
    (by rw [ht.cfg.kind, hs.cfg.kind, hk]) nt.tail nt.head (fun n => by rw [hn.node]) us
    (fun a q b => cheapest_same nt us) (hb d hd')
  refine ⟨fun d h => ⟨(cs d h).1, fun i => ?_⟩, fun i hi a ha => ?_⟩
  · rw [← hs.delta_eq hts hsc h, ← ht.delta_eq htt hst (hb d h).2.1, (cs d h).2]
  · rw [hs.traffic i hi] at ha
    rw [ht.traffic i (hn.ifs.mem_iff.2 hi), nt.failed i]
    split at ha
    · cases ha
    rename_i h1
    cases ha
    rw [if_neg h1, (hd.map _).sum_eq, List.map_append, List.sum_append,
      List.map_congr_left fun d hd' => (cs d hd').2 i,
      List.map_congr_left fun d hd' => ht.delta_eq htt hst
        (hd.mem_iff.2 (List.mem_append_right _ hd')) i]

/-- the two demands of the square apart and together -/
def Ex.only (k : Kind) (d : List ℕ) : State := { Ex.square k with dmds := d }

example (k : Kind) : (∀ ds ∈ [[0], [1], [0, 1]], Tidy (Ex.only k ds)) ∧
    NoShortcuts (Ex.only k [0]) ∧ SameNetwork (Ex.only k [0]) (Ex.only k [1]) ∧
    SameNetwork (Ex.only k [0]) (Ex.only k [0, 1]) ∧
    Together (Ex.only k [0]) (Ex.only k [1]) (Ex.only k [0, 1]) ∧
    (∀ ds ∈ [[0], [1], [0, 1]],
      raised (updateSimulation Env.default) (Ex.only k ds) = none) ∧
    ((finalState (updateSimulation Env.default) (Ex.only k [0])).ifc 0).traffic = .val 5 ∧
    ((finalState (updateSimulation Env.default) (Ex.only k [1])).ifc 0).traffic = .val 3 ∧
    ((finalState (updateSimulation Env.default) (Ex.only k [0, 1])).ifc 0).traffic = .val 8 := by
  refine ⟨?_, ?_, ⟨rfl, .refl _, .refl _, fun _ => rfl⟩, ⟨rfl, .refl _, .refl _, fun _ => rfl⟩,
    ⟨.refl _, fun d hd => ⟨hd, ?_, rfl⟩, fun d hd => ⟨hd, ?_, rfl⟩⟩, ?_, ?_, ?_, ?_⟩
  · cases k <;> decide +kernel
  · cases k <;> decide +kernel
  · exact List.mem_append_left [1] hd
  · exact List.mem_append_right [0] hd
  all_goals cases k <;> decide +kernel

/-- **C79** Without LSPs only relative costs matter: multiplying all costs by `k ≥ 1`, and
changing interface names, capacities and reservable percentages, changes neither the paths of
any demand nor the traffic of any interface. -/
theorem C79_relative_costs {env env' : Env} {s s' t t' : State} {k : ℕ} (hk1 : 1 ≤ k)
    (hts : Tidy s) (htt : Tidy t) (hsc : s.kind = .flex → NoShortcuts s) (hr : Rerated k s t)
    (hd : t.dmds.Perm s.dmds) (hb : ∀ d ∈ s.dmds, InBoth s t d) (hls : s.lsps = [])
    (hlt : t.lsps = []) (hrs : updateSimulation env s = .ok () s')
    (hrt : updateSimulation env' t = .ok () t') :
    (∀ d ∈ s.dmds, SamePaths (s'.dmd d).path (t'.dmd d).path) ∧
    ∀ i ∈ s.ifs, (t'.ifc i).traffic = (s'.ifc i).traffic := by
  obtain ⟨s1, Δs, hs⟩ := sim_spec hts.dmds hts.ends hts.ckts hrs
  obtain ⟨t1, Δt, ht⟩ := sim_spec htt.dmds htt.ends htt.ckts hrt
  have hst : t.kind = .flex → NoShortcuts t := fun h n hm => by
    rw [hr.node]; exact hsc (hr.kind ▸ h) n (hr.nodes.mem_iff.1 hm)
  have htl : t'.tail = s'.tail := by
    funext i
    rw [ht.cfg.tail, hs.cfg.tail]
    unfold State.tail
    rw [hr.node, (hr.ends i).1]
  have hhd : t'.head = s'.head := by
    funext i
    rw [ht.cfg.head, hs.cfg.head]
    unfold State.head
    rw [hr.node, (hr.ends i).2]
  have hfail : ∀ i, (t'.ifc i).failed = (s'.ifc i).failed := fun i => by
    rw [ht.cfg.ifc i, hs.cfg.ifc i]; exact (hr.up i).1
  have hres : ∀ i ∈ s.ifs, (0 ≤ t'.reservable i ↔ 0 ≤ s'.reservable i) := fun i hi => by
    unfold State.reservable
    rw [(hs.noLsps hls).1 i (hs.cfg.ifs ▸ hi),
      (ht.noLsps hlt).1 i (ht.cfg.ifs ▸ hr.ifs.mem_iff.2 hi), ht.cfg.ifc i, hs.cfg.ifc i]
    simp only [sub_zero]
    rw [(hr.up i).2]
    split
    · exact iff_of_true (pyRound_nonneg 1 (hr.bandwidth i hi).2)
        (pyRound_nonneg 1 (hr.bandwidth i hi).1)
    · exact Iff.rfl
  have us : ∀ i, Usable t' 0 i ↔ Usable s' 0 i := fun i => by
    unfold Usable
    rw [ht.cfg.ifs, hs.cfg.ifs, hr.ifs.mem_iff, hfail]
    exact and_congr_right fun hi => and_congr_right fun _ => hres i hi
  have hc : (fun i => (t'.ifc i).cost) = fun i => k * (s'.ifc i).cost := by
    funext i
    rw [ht.cfg.ifc i, hs.cfg.ifc i]
    exact hr.cost i
  have cs := fun d hd' => compare_demand hs ht hts htt hsc hst hls hlt
    (by rw [ht.cfg.kind, hs.cfg.kind, hr.kind]) htl hhd (fun n => by rw [hr.node]) us
    (fun a q b => by
      rw [CheapestOver.congr us]
      unfold CheapestOver
      rw [htl, hhd, hc]
      exact cheapest_scale hk1) (hb d hd')
  refine ⟨fun d h => (cs d h).1, fun i hi => ?_⟩
  rw [hs.traffic i hi, ht.traffic i (hr.ifs.mem_iff.2 hi), hfail, (hd.map _).sum_eq,
    List.map_congr_left fun d hd' => (cs d hd').2 i]

/-- the square with costs tripled and other capacities -/
def Ex.squareRerated (k : Kind) : State :=
  { Ex.square k with ifc := fun i =>
    { (Ex.square k).ifc i with cost := 3 * ((Ex.square k).ifc i).cost, capacity := if i < 4 then 7 else 50 } }

example (k : Kind) : Tidy (Ex.square k) ∧ Tidy (Ex.squareRerated k) ∧ NoShortcuts (Ex.square k) ∧
    Rerated 3 (Ex.square k) (Ex.squareRerated k) ∧
    (∀ d ∈ (Ex.square k).dmds, InBoth (Ex.square k) (Ex.squareRerated k) d) ∧
    raised (updateSimulation Env.default) (Ex.square k) = none ∧
    raised (updateSimulation Env.default) (Ex.squareRerated k) = none := by
  refine ⟨?_, ?_, ?_, ⟨rfl, .refl _, rfl, .refl _, fun _ => ⟨rfl, rfl⟩, fun _ => rfl,
    fun _ => ⟨rfl, rfl⟩, ?_⟩, fun d hd => ⟨hd, hd, rfl⟩, ?_, ?_⟩ <;> cases k <;> decide +kernel

end NTM
