import Verif.Proof.Symmetry
import Verif.Props.Change
import Verif.Props.Registry

/-!
# C95–C97: symmetric routing, forwarding by destination, added circuits
-/

namespace NTM

open Spec

section
variable {env env' : Env} {s s' t t' : State}

theorem forall₂_items {s : State} {p q : List ℕ} (h : List.Forall₂ (Opposite s) p q.reverse) :
    Mirror s (p.map Item.ifc) (q.map Item.ifc) := by
  unfold Mirror
  rw [← List.map_reverse, List.forall₂_map_left_iff, List.forall₂_map_right_iff]
  exact h.imp fun i j hij => ⟨i, j, rfl, rfl, hij⟩

/-- **C95** Symmetric costs give symmetric routing.  If every circuit is the same in both
directions, then in a model without LSPs two demands between the same two nodes in opposite
directions are both routed or both unrouted, and every path of the one is, over the same circuits
in the opposite direction and order, a path of the other. -/
theorem C95_symmetric (hts : Tidy s) (hsc : s.kind = .flex → NoShortcuts s) (hls : s.lsps = [])
    (hsym : Symmetric s) (hrs : updateSimulation env s = .ok () s') {d e : ℕ} (hd : d ∈ s.dmds)
    (he : e ∈ s.dmds) (h1 : s.dmdSrc e = s.dmdDst d) (h2 : s.dmdDst e = s.dmdSrc d) :
    ((s'.dmd d).path = none ↔ (s'.dmd e).path = none) ∧
    ∀ ps, (s'.dmd d).path = some ps → ∃ qs, (s'.dmd e).path = some qs ∧
      (∀ p ∈ ps, ∃ q ∈ qs, Mirror s p q) ∧ ∀ q ∈ qs, ∃ p ∈ ps, Mirror s q p := by
  obtain ⟨s1, Δ, hs⟩ := sim_spec hts.dmds hts.ends hts.ckts hrs
  obtain ⟨r1, g1⟩ := hs.noLsps hls
  have hR : ∀ i, Usable s' 0 i → ∃ j, Usable s' 0 j ∧ Opposite s i j ∧ s'.tail i = s'.head j ∧
      s'.head i = s'.tail j ∧ (s'.ifc j).cost = (s'.ifc i).cost := by
    rintro i ⟨hi, hf, hb⟩
    have hi' : i ∈ s.ifs := hs.cfg.ifs ▸ hi
    obtain ⟨j, hj, ho, c1, c2, c3, c4⟩ := hsym i hi'
    have hj' : j ∈ s'.ifs := hs.cfg.ifs ▸ hj
    refine ⟨j, ⟨hj', ?_, ?_⟩, ho, ?_, ?_, ?_⟩
    · have := hts.ends i hi' j hj ho
      rw [hs.cfg.ifc i] at hf
      rw [hs.cfg.ifc j]
      exact this.symm.trans hf
    · unfold State.reservable at hb ⊢
      rw [r1 i hi, hs.cfg.ifc i] at hb
      rw [r1 j hj', hs.cfg.ifc j]
      simp only [c2, c3, c4]
      exact hb
    · rw [hs.cfg.tail, hs.cfg.head]; exact ho.1
    · rw [hs.cfg.tail, hs.cfg.head]; exact ho.2.1
    · rw [hs.cfg.ifc i, hs.cfg.ifc j]; exact c1
  have h1' : s'.dmdSrc e = s'.dmdDst d := by rw [hs.cfg.dmdSrc, hs.cfg.dmdDst]; exact h1
  have h2' : s'.dmdDst e = s'.dmdSrc d := by rw [hs.cfg.dmdSrc, hs.cfg.dmdDst]; exact h2
  have hback : ∀ a b, Reachable s'.tail s'.head (Usable s' 0) a b →
      Reachable s'.tail s'.head (Usable s' 0) b a := by
    rintro a b ⟨p, hp⟩
    obtain ⟨q, -, hq, -⟩ := route_mirror hR hp
    exact ⟨q, hq⟩
  rcases hs.igp hts hsc hd (g1 _) with ⟨p1, -, n1⟩ | ⟨l, det, p1, L1⟩ <;>
    rcases hs.igp hts hsc he (g1 _) with ⟨p2, -, n2⟩ | ⟨l', det', p2, L2⟩ <;> rw [p1, p2]
  · exact ⟨Iff.rfl, fun _ h => nomatch h⟩
  · exfalso
    obtain ⟨q, hq⟩ := List.exists_mem_of_ne_nil _ L2.ne
    have := ((L2.mem q).1 hq).1
    rw [hs.cfg.dmdSrc, hs.cfg.dmdDst, h1, h2] at this
    exact n1 (hback _ _ ⟨q, this⟩)
  · exfalso
    obtain ⟨q, hq⟩ := List.exists_mem_of_ne_nil _ L1.ne
    have := ((L1.mem q).1 hq).1
    rw [hs.cfg.dmdSrc, hs.cfg.dmdDst] at this
    rw [h1, h2] at n2
    exact n2 (hback _ _ ⟨q, this⟩)
  · refine ⟨by simp, fun ps h => ?_⟩
    cases h
    refine ⟨_, rfl, fun p hp => ?_, fun q hq => ?_⟩
    · obtain ⟨p, hp', rfl⟩ := List.mem_map.1 hp
      obtain ⟨q, m, hq⟩ := cheapest_mirror hR ((L1.mem p).1 hp')
      refine ⟨_, List.mem_map_of_mem ((L2.mem q).2 ?_), forall₂_items m⟩
      rw [h1', h2']
      exact hq
    · obtain ⟨q, hq', rfl⟩ := List.mem_map.1 hq
      obtain ⟨p, m, hp⟩ := cheapest_mirror hR ((L2.mem q).1 hq')
      refine ⟨_, List.mem_map_of_mem ((L1.mem p).2 ?_), forall₂_items m⟩
      rw [h1', h2'] at hp
      exact hp

/-- the square with demand 1 turned round, from D back to A -/
def Ex.squareBack (k : Kind) : State :=
  { Ex.square k with dmd := fun d =>
    if d = 1 then { (Ex.square k).dmd 0 with
      src := ((Ex.square k).dmd 0).dst, dst := ((Ex.square k).dmd 0).src, name := "back" }
    else (Ex.square k).dmd d }

example (k : Kind) : Tidy (Ex.squareBack k) ∧ NoShortcuts (Ex.squareBack k) ∧
    (Ex.squareBack k).lsps = [] ∧ Symmetric (Ex.squareBack k) ∧
    raised (updateSimulation Env.default) (Ex.squareBack k) = none ∧
    (Ex.squareBack k).dmds = [0, 1] ∧
    (Ex.squareBack k).dmdSrc 1 = (Ex.squareBack k).dmdDst 0 ∧
    (Ex.squareBack k).dmdDst 1 = (Ex.squareBack k).dmdSrc 0 ∧
    ((finalState (updateSimulation Env.default) (Ex.squareBack k)).dmd 0).path =
      some [[.ifc 0, .ifc 2], [.ifc 4, .ifc 6]] ∧
    ((finalState (updateSimulation Env.default) (Ex.squareBack k)).dmd 1).path =
      some [[.ifc 3, .ifc 1], [.ifc 7, .ifc 5]] := by
  refine ⟨?_, ?_, rfl, ?_, ?_, rfl, ?_, ?_, ?_, ?_⟩
  case refine_3 =>
    intro i hi
    have : i = 0 ∨ i = 1 ∨ i = 2 ∨ i = 3 ∨ i = 4 ∨ i = 5 ∨ i = 6 ∨ i = 7 := by
      have : i ∈ [0, 1, 2, 3, 4, 5, 6, 7] := hi
      simpa using this
    rcases this with rfl | rfl | rfl | rfl | rfl | rfl | rfl | rfl
    · refine ⟨1, ?_⟩; cases k <;> decide +kernel
    · refine ⟨0, ?_⟩; cases k <;> decide +kernel
    · refine ⟨3, ?_⟩; cases k <;> decide +kernel
    · refine ⟨2, ?_⟩; cases k <;> decide +kernel
    · refine ⟨5, ?_⟩; cases k <;> decide +kernel
    · refine ⟨4, ?_⟩; cases k <;> decide +kernel
    · refine ⟨7, ?_⟩; cases k <;> decide +kernel
    · refine ⟨6, ?_⟩; cases k <;> decide +kernel
  all_goals cases k <;> decide +kernel

/-- **C96** The rest of a path.  Without LSPs, where a path of demand `d` passes the source of a
demand `e` to the same destination, the rest of the path is a path of `e`, and every path of `e`
completes the first part to a path of `d`. -/
theorem C96_rest_of_path (hts : Tidy s) (hsc : s.kind = .flex → NoShortcuts s) (hls : s.lsps = [])
    (hrs : updateSimulation env s = .ok () s') {d e : ℕ} (hd : d ∈ s.dmds) (he : e ∈ s.dmds)
    (hdst : s.dmdDst e = s.dmdDst d) {ps : List (List Item)} (hps : (s'.dmd d).path = some ps)
    {x y : List Item} {i : ℕ} (hxy : x ++ Item.ifc i :: y ∈ ps) (hi : s.tail i = s.dmdSrc e) :
    ∃ qs, (s'.dmd e).path = some qs ∧ Item.ifc i :: y ∈ qs ∧ ∀ q ∈ qs, x ++ q ∈ ps := by
  obtain ⟨s1, Δ, hs⟩ := sim_spec hts.dmds hts.ends hts.ckts hrs
  obtain ⟨r1, g1⟩ := hs.noLsps hls
  rcases hs.igp hts hsc hd (g1 _) with ⟨p1, -, n1⟩ | ⟨l, det, p1, L1⟩
  · rw [hps] at p1; cases p1
  rw [hps] at p1
  cases p1
  obtain ⟨p, hp, hpe⟩ := List.mem_map.1 hxy
  obtain ⟨x, y', rfl, rfl, hy'⟩ := List.map_eq_append_iff.1 hpe
  obtain ⟨j, y, rfl, hj, rfl⟩ := List.map_eq_cons_iff.1 hy'
  cases hj
  have hc := (L1.mem _).1 hp
  obtain ⟨c1, c2⟩ := route_cut hc.1
  obtain ⟨c3, c4⟩ := cheapest_rest hc c1 c2
  have hsrc : s'.dmdSrc e = s'.tail i := by rw [hs.cfg.dmdSrc, hs.cfg.tail, hi]
  have hdst' : s'.dmdDst e = s'.dmdDst d := by rw [hs.cfg.dmdDst, hs.cfg.dmdDst, hdst]
  rcases hs.igp hts hsc he (g1 _) with ⟨p2, -, n2⟩ | ⟨l', det', p2, L2⟩
  · exfalso
    rw [← hs.cfg.dmdSrc, ← hs.cfg.dmdDst, hsrc, hdst'] at n2
    exact n2 ⟨_, c2⟩
  refine ⟨_, p2, List.mem_map.2 ⟨i :: y, (L2.mem _).2 ?_, rfl⟩, fun q hq => ?_⟩
  · rw [hsrc, hdst']; exact c3
  · obtain ⟨q, hq', rfl⟩ := List.mem_map.1 hq
    have := (L2.mem q).1 hq'
    rw [hsrc, hdst'] at this
    exact List.mem_map.2 ⟨x ++ q, (L1.mem _).2 (c4 q this), by simp⟩

/-- **C96** Forwarding is by destination.  Without LSPs, two demands to the same destination that
both pass a node (one of them leaves it) leave it over the same interfaces. -/
theorem C96_same_next_hops (hts : Tidy s) (hsc : s.kind = .flex → NoShortcuts s)
    (hls : s.lsps = []) (hrs : updateSimulation env s = .ok () s') {d e : ℕ} (hd : d ∈ s.dmds)
    (he : e ∈ s.dmds) (hdst : s.dmdDst e = s.dmdDst d) {u : String} {i j : ℕ}
    (hj : nextHop s' e u j) (hi : nextHop s' d u i) : nextHop s' e u i := by
  obtain ⟨s1, Δ, hs⟩ := sim_spec hts.dmds hts.ends hts.ckts hrs
  obtain ⟨r1, g1⟩ := hs.noLsps hls
  obtain ⟨hti, ps, hps, p, hp, hip⟩ := hi
  obtain ⟨htj, qs, hqs, q, hq, hjq⟩ := hj
  refine ⟨hti, qs, hqs, ?_⟩
  rcases hs.igp hts hsc hd (g1 _) with ⟨p1, -, n1⟩ | ⟨l, det, p1, L1⟩
  · rw [hps] at p1; cases p1
  rcases hs.igp hts hsc he (g1 _) with ⟨p2, -, n2⟩ | ⟨l', det', p2, L2⟩
  · rw [hqs] at p2; cases p2
  rw [hps] at p1
  rw [hqs] at p2
  cases p1
  cases p2
  obtain ⟨p, hp', rfl⟩ := List.mem_map.1 hp
  obtain ⟨q, hq', rfl⟩ := List.mem_map.1 hq
  rw [mem_map_ifc] at hip hjq
  obtain ⟨x, y, rfl⟩ := List.append_of_mem hip
  obtain ⟨x', y', rfl⟩ := List.append_of_mem hjq
  have hdst' : s'.dmdDst e = s'.dmdDst d := by rw [hs.cfg.dmdDst, hs.cfg.dmdDst, hdst]
  have h1 := (L1.mem _).1 hp'
  have h2 := (L2.mem _).1 hq'
  obtain ⟨a1, a2⟩ := route_cut h1.1
  obtain ⟨b1, b2⟩ := route_cut h2.1
  have c1 := (cheapest_rest h1 a1 a2).1
  have c2 := (cheapest_rest h2 b1 b2).2 (i :: y) (by rw [htj, ← hti, hdst']; exact c1)
  exact ⟨_, List.mem_map_of_mem ((L2.mem _).2 c2), by simp⟩

/-- the square with demand 1 from B to D, the destination of demand 0: it takes the rest of the
first path of demand 0 -/
def Ex.squareMerge (k : Kind) : State :=
  { Ex.square k with dmd := fun d =>
    if d = 1 then { (Ex.square k).dmd 1 with src := 1, dst := ((Ex.square k).dmd 0).dst }
    else (Ex.square k).dmd d }

example (k : Kind) : Tidy (Ex.squareMerge k) ∧ NoShortcuts (Ex.squareMerge k) ∧
    (Ex.squareMerge k).lsps = [] ∧
    raised (updateSimulation Env.default) (Ex.squareMerge k) = none ∧
    (Ex.squareMerge k).dmds = [0, 1] ∧
    (Ex.squareMerge k).dmdDst 1 = (Ex.squareMerge k).dmdDst 0 ∧
    (Ex.squareMerge k).tail 2 = (Ex.squareMerge k).dmdSrc 1 ∧
    ((finalState (updateSimulation Env.default) (Ex.squareMerge k)).dmd 0).path =
      some [[.ifc 0, .ifc 2], [.ifc 4, .ifc 6]] ∧
    ((finalState (updateSimulation Env.default) (Ex.squareMerge k)).dmd 1).path =
      some [[.ifc 2]] := by
  refine ⟨?_, ?_, rfl, ?_, rfl, ?_, ?_, ?_, ?_⟩ <;> cases k <;> decide +kernel

/-- **C97** Without LSPs, when interfaces are added: a routed demand stays routed; if one of its
new paths uses only interfaces the model had before, then its old paths are exactly those; if
none does, every new path is cheaper than every old one. -/
theorem C97_added_links (hts : Tidy s) (htt : Tidy t) (hsc : s.kind = .flex → NoShortcuts s)
    (hm : MoreLinks s t) (hls : s.lsps = []) (hlt : t.lsps = [])
    (hrs : updateSimulation env s = .ok () s') (hrt : updateSimulation env' t = .ok () t')
    {d : ℕ} (hb : InBoth s t d) {ps : List (List Item)} (hps : (s'.dmd d).path = some ps) :
    ∃ qs, (t'.dmd d).path = some qs ∧
      (qs.filter (known s) ≠ [] → ps.Perm (qs.filter (known s))) ∧
      (qs.filter (known s) = [] → ∀ p ∈ ps, ∀ q ∈ qs, pathCost t q < pathCost t p) := by
  obtain ⟨s1, Δ, hs⟩ := sim_spec hts.dmds hts.ends hts.ckts hrs
  obtain ⟨t1, Δ', ht⟩ := sim_spec htt.dmds htt.ends htt.ckts hrt
  obtain ⟨r1, g1⟩ := hs.noLsps hls
  obtain ⟨r2, g2⟩ := ht.noLsps hlt
  have hm' := hm.run hs.cfg ht.cfg
  have hu := hm'.usable r1 r2
  have hsub : ∀ i, Usable s' 0 i → Usable t' 0 i := fun i hi => ((hu i).1 hi).1
  obtain ⟨e1, e2, -⟩ := inBoth_ends hb fun n => by rw [hm.node]
  have hends : ∀ i, Usable s' 0 i → s'.tail i = t'.tail i ∧ s'.head i = t'.head i := fun i hi => by
    unfold State.tail State.head
    rw [hm'.ifc i hi.1, hm'.node]
    exact ⟨rfl, rfl⟩
  have hcost : ∀ i, Usable s' 0 i → (s'.ifc i).cost = (t'.ifc i).cost := fun i hi => by
    rw [hm'.ifc i hi.1]
  have ct : (fun i => (t.ifc i).cost) = fun i => (t'.ifc i).cost := by
    funext i; rw [ht.cfg.ifc i]
  rcases hs.igp hts hsc hb.1 (g1 _) with ⟨p1, -, n1⟩ | ⟨l, det, p1, L1⟩
  · rw [hps] at p1; cases p1
  rw [hps] at p1
  cases p1
  have hmem : ∀ q, q ∈ l ↔ Cheapest t'.tail t'.head (fun i => (t'.ifc i).cost)
      (Usable s' 0) (t'.dmdSrc d) q (t'.dmdDst d) := fun q => by
    rw [L1.mem q, ht.cfg.dmdSrc, ht.cfg.dmdDst, e1, e2, hs.cfg.dmdSrc, hs.cfg.dmdDst]
    exact cheapest_congr_on hends hcost
  rcases ht.igp htt (fun hk => hm.noShortcuts (hsc (hm.kind ▸ hk))) hb.2.1 (g2 _) with
      ⟨p2, -, n2⟩ | ⟨l', det', p2, L2⟩
  · exfalso
    obtain ⟨q, hq⟩ := List.exists_mem_of_ne_nil _ L1.ne
    have := ((hmem q).1 hq).1
    rw [ht.cfg.dmdSrc, ht.cfg.dmdDst] at this
    exact n2 ⟨q, this.mono fun i _ => hsub i⟩
  have hknown : ∀ q ∈ l', (∀ i ∈ q, Usable s' 0 i) ↔ known s (q.map Item.ifc) = true :=
    fun q hq => by
      rw [known_ifcs]
      have := Route.mem_ok ((L2.mem q).1 hq).1
      exact ⟨fun h i hi => hs.cfg.ifs ▸ (h i hi).1, fun h i hi =>
        (hu i).2 ⟨this i hi, hs.cfg.ifs.symm ▸ h i hi⟩⟩
  refine ⟨_, p2, fun hne => ?_, fun hno p hp q hq => ?_⟩
  · obtain ⟨p, hp⟩ := List.exists_mem_of_ne_nil _ hne
    obtain ⟨hp1, hp2⟩ := List.mem_filter.1 hp
    obtain ⟨q₀, hq₀, rfl⟩ := List.mem_map.1 hp1
    have key : ∀ q, q ∈ l ↔ q ∈ l' ∧ known s (q.map Item.ifc) = true := fun q => by
      rw [hmem, cheapest_sub hsub ((L2.mem q₀).1 hq₀) ((hknown q₀ hq₀).2 hp2)]
      constructor
      · rintro ⟨h1, h2⟩
        have := (L2.mem q).2 h1
        exact ⟨this, (hknown q this).1 h2⟩
      · rintro ⟨h1, h2⟩
        exact ⟨(L2.mem q).1 h1, (hknown q h1).2 h2⟩
    rw [List.filter_map]
    refine List.Perm.map _ ((List.perm_ext_iff_of_nodup L1.nodup (L2.nodup.filter _)).2 fun q => ?_)
    rw [key, List.mem_filter]
    rfl
  · obtain ⟨p, hp0, rfl⟩ := List.mem_map.1 hp
    obtain ⟨q, hq0, rfl⟩ := List.mem_map.1 hq
    rw [pathCost_ifcs, pathCost_ifcs, ct]
    refine cheapest_dearer hsub ((L2.mem q).1 hq0) ((hmem p).1 hp0) fun r hr hall => ?_
    have hr' := (L2.mem r).2 hr
    have : r.map Item.ifc ∈ (l'.map fun q => q.map Item.ifc).filter (known s) :=
      List.mem_filter.2 ⟨List.mem_map_of_mem hr', (hknown r hr').1 hall⟩
    rw [hno] at this
    cases this

/-- **C97** in terms of calls: simulate, add a circuit with `add_circuit`, simulate again -/
theorem C97_add_circuit (hts : Tidy s) (hsc : s.kind = .flex → NoShortcuts s)
    (hls : s.lsps = []) (hrs : updateSimulation env s = .ok () s') (hk : UniqueKeys s')
    (hg : Grounded s') (hr : RsvpReady s') {a b : ℕ} {nA nB : String} {cA cB : ℤ} {cap : ℚ}
    {f : Bool} {ckt : CktId} {env₁ : Env} (ha : a ∈ s'.nodes) (hb : b ∈ s'.nodes) (hab : a ≠ b)
    (hadd : addCircuit env₁ a b nA nB cA cB cap f ckt s' = .ok () t)
    (hrt : updateSimulation env' t = .ok () t') {d : ℕ} (hd : d ∈ s.dmds)
    {ps : List (List Item)} (hps : (s'.dmd d).path = some ps) :
    ∃ i j qs, CircuitAdded s' t a b nA nB cA cB cap i j ∧ (t'.dmd d).path = some qs ∧
      (∀ old, old = qs.filter (fun q => Item.ifc i ∉ q ∧ Item.ifc j ∉ q) →
        (old ≠ [] → ps.Perm old) ∧
        (old = [] → ∀ p ∈ ps, ∀ q ∈ qs, pathCost t q < pathCost t p)) := by
  obtain ⟨s1, Δ, hs⟩ := sim_spec hts.dmds hts.ends hts.ckts hrs
  have hs' := hts.simulated hrs
  obtain ⟨hc, -, ht1, ht2, ht3, ht4⟩ := addCircuit_ok ⟨hk, hg⟩ hs'.ckts hr hs'.ends ha hb hab hadd
  generalize s'.next = i, s'.next + 1 = j at hc
  have hkind : t.kind = s'.kind := hc.kind
  have htt : Tidy t := {
    nodes := by rw [hc.nodes.1]; exact hs'.nodes
    ifs := by
      rw [hc.ifs]
      refine hs'.ifs.append (by simpa using hc.new.2.2) fun x hx hy => ?_
      simp only [List.mem_cons, List.not_mem_nil, or_false] at hy
      rcases hy with rfl | rfl
      · exact hc.new.1 hx
      · exact hc.new.2.1 hx
    dmds := by rw [hc.dmds.1]; exact hs'.dmds
    lsps := by rw [hc.lsps.1]; exact hs'.lsps
    costs := fun x hx => by
      rw [hc.ifs] at hx
      simp only [List.mem_append, List.mem_cons, List.not_mem_nil, or_false] at hx
      rcases hx with h | rfl | rfl
      · rw [hc.others x h]; exact hs'.costs x h
      · have := hc.first.2.1; omega
      · have := hc.second.2.1; omega
    ends := ht1
    ckts := ht2 }
  have hm : MoreLinks s t := {
    kind := by rw [hkind, hs.cfg.kind]
    nodes := by rw [hc.nodes.1, hs.cfg.nodes]
    node := by rw [hc.nodes.2]; funext n; rw [hs.cfg.node]
    ifs := fun k hk => by rw [hc.ifs, hs.cfg.ifs]; exact List.mem_append_left _ hk
    ifc := fun k hk => by rw [hc.others k (hs.cfg.ifs.symm ▸ hk), hs.cfg.ifc k] }
  have hlt : t.lsps = [] := by rw [hc.lsps.1]; exact hs.cfg.lsps.trans hls
  have hb : InBoth s t d := by
    refine ⟨hd, by rw [hc.dmds.1]; exact hs.cfg.dmds.symm ▸ hd, ?_⟩
    rw [hc.dmds.2]
    exact hs.cfg.dmd d
  obtain ⟨qs, hqs, k1, k2⟩ := C97_added_links hts htt hsc hm hls hlt hrs hrt hb hps
  obtain ⟨t1, Δ', ht⟩ := sim_spec htt.dmds htt.ends htt.ckts hrt
  have hknown : ∀ q ∈ qs, (known s q = true ↔ Item.ifc i ∉ q ∧ Item.ifc j ∉ q) := by
    intro q hq
    rcases ht.igp htt (fun hk => hm.noShortcuts (hsc (hm.kind ▸ hk))) hb.2.1
      ((ht.noLsps hlt).2 _) with ⟨p2, -⟩ | ⟨l', det', p2, L2⟩
    · rw [hqs] at p2; cases p2
    rw [hqs] at p2
    cases p2
    obtain ⟨q, hq', rfl⟩ := List.mem_map.1 hq
    rw [known_ifcs, mem_map_ifc, mem_map_ifc]
    have hin : ∀ x ∈ q, x ∈ t.ifs := fun x hx =>
      ht.cfg.ifs ▸ (Route.mem_ok ((L2.mem q).1 hq').1 x hx).1
    rw [hc.ifs] at hin
    have hnew := hc.new
    rw [hs.cfg.ifs] at hnew hin
    constructor
    · exact fun h => ⟨fun hi => hnew.1 (h i hi), fun hj => hnew.2.1 (h j hj)⟩
    · rintro ⟨h1, h2⟩ x hx
      have := hin x hx
      simp only [List.mem_append, List.mem_cons, List.not_mem_nil, or_false] at this
      rcases this with h | rfl | rfl
      · exact h
      · exact absurd hx h1
      · exact absurd hx h2
  refine ⟨i, j, qs, hc, hqs, fun old hold => ?_⟩
  have e2 : qs.filter (known s) = old := by
    rw [hold]
    exact List.filter_congr fun q hq => by
      rw [Bool.eq_iff_iff, hknown q hq, decide_eq_true_eq]
  rw [← e2]
  exact ⟨k1, k2⟩

end

/-- the square with a circuit A-D of cost 20, as cheap as the two paths of demand 0, or of cost 5 -/
def Ex.squareWider (k : Kind) (c : ℤ) : State :=
  finalState (addCircuit Env.default 0 3 "ad" "da" c c 40 false (.num 9)) (Ex.squareRun k)

example (k : Kind) : Tidy (Ex.square k) ∧ NoShortcuts (Ex.square k) ∧ (Ex.square k).lsps = [] ∧
    raised (updateSimulation Env.default) (Ex.square k) = none ∧ UniqueKeys (Ex.squareRun k) ∧
    Grounded (Ex.squareRun k) ∧ RsvpReady (Ex.squareRun k) ∧ 0 ∈ (Ex.squareRun k).nodes ∧
    3 ∈ (Ex.squareRun k).nodes ∧
    raised (addCircuit Env.default 0 3 "ad" "da" 20 20 40 false (.num 9)) (Ex.squareRun k) = none ∧
    raised (updateSimulation Env.default) (Ex.squareWider k 20) = none ∧
    ((Ex.squareRun k).dmd 0).path = some [[.ifc 0, .ifc 2], [.ifc 4, .ifc 6]] ∧
    ((finalState (updateSimulation Env.default) (Ex.squareWider k 20)).dmd 0).path =
      some [[.ifc 0, .ifc 2], [.ifc 4, .ifc 6], [.ifc (Ex.squareRun k).next]] ∧
    ((finalState (updateSimulation Env.default) (Ex.squareWider k 5)).dmd 0).path =
      some [[.ifc (Ex.squareRun k).next]] := by
  refine ⟨?_, ?_, rfl, ?_, ⟨?_, ?_, ?_, ?_, ?_⟩, ⟨?_, ?_, ?_, ?_, ?_⟩, ?_, ?_, ?_, ?_, ?_, ?_, ?_,
    ?_⟩ <;> cases k <;> decide +kernel

end NTM
