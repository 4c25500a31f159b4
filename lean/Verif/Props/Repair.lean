import Verif.Proof.RestoreNode
import Verif.Proof.Blind
import Verif.Props.Failure
import Verif.Props.Weather
import Verif.Model.Queries

/-!
# Parallel demands, repaired nodes and queries
-/

namespace NTM

open Spec

/-! ## C88: demands between the same nodes take the same paths -/

/-- **C88** After a successful simulation any two demands with the same source and destination
have the same paths: the same LSPs or the same interfaces, or both are unrouted. -/
theorem C88_parallel_demands {env : Env} {s s' : State} (hts : Tidy s)
    (hrun : updateSimulation env s = .ok () s') {d e : ℕ} (hd : d ∈ s.dmds) (he : e ∈ s.dmds)
    (hsrc : s.dmdSrc d = s.dmdSrc e) (hdst : s.dmdDst d = s.dmdDst e) :
    (s'.dmd d).path = (s'.dmd e).path := by
  obtain ⟨s1, Δ, h⟩ := sim_spec hts.dmds hts.ends hts.ckts hrun
  have h1 := h.place d hd
  have h2 := h.place e he
  rw [hsrc, hdst] at h1
  exact h1.unique h2

/-- the diamond with two demands from A to D; each is split over the two branches -/
def Ex.twins (k : Kind) : State := Ex.mk k
  [{ name := "A" }, { name := "B" }, { name := "C" }, { name := "D" }]
  (Ex.link "ab" 0 1 10 100 1 ++ Ex.link "bd" 1 3 10 100 2 ++ Ex.link "ac" 0 2 10 100 3 ++
    Ex.link "cd" 2 3 10 100 4)
  [{ src := 0, dst := 3, traffic := 10, name := "x" }, { src := 0, dst := 3, traffic := 6, name := "y" },
    { src := 0, dst := 1, traffic := 1, name := "z" }]
  [] []

example (k : Kind) : Tidy (Ex.twins k) ∧ updateSimulation Env.default (Ex.twins k) =
      .ok () (finalState (updateSimulation Env.default) (Ex.twins k)) ∧
    0 ∈ (Ex.twins k).dmds ∧ 1 ∈ (Ex.twins k).dmds ∧
    (Ex.twins k).dmdSrc 0 = (Ex.twins k).dmdSrc 1 ∧ (Ex.twins k).dmdDst 0 = (Ex.twins k).dmdDst 1 ∧
    ((finalState (updateSimulation Env.default) (Ex.twins k)).dmd 1).path =
      some [[.ifc 0, .ifc 2], [.ifc 4, .ifc 6]] := by
  cases k <;> exact ⟨⟨by decide +kernel, by decide +kernel, by decide +kernel, by decide +kernel,
    by decide +kernel, by decide +kernel, by decide +kernel⟩, ok_of_raised (by decide +kernel),
    by decide +kernel, by decide +kernel, by decide +kernel, by decide +kernel, by decide +kernel⟩

/-! ## C89: repairing a node -/

/-- **C89** When `unfail_node` returns, the node is up and no other node has changed.  Every
interface from or to it whose other end is up is up.  An interface that does not touch the
node, or whose other end is failed, has the status it had before; nothing has failed. -/
theorem C89_unfail_node {env : Env} {s t : State} (hw : Wired s) (hid : IdsMatch s)
    (hs : SrlgsMatch s) (hr : RsvpReady s) (he : EndsAgree s) (hn : MemberNodesDown s)
    (hi : MemberIfcsDown s) {n : ℕ} (hnm : n ∈ s.nodes)
    (h : unfailNode env (s.node n).name s = .ok () t) :
    (t.node n).failed = false ∧ (∀ m, m ≠ n → t.node m = s.node m) ∧ t.srlg = s.srlg ∧
    (∀ i ∈ s.ifs, (s.ifc i).node = n → (t.node (s.ifc i).remote).failed = false →
      (t.ifc i).failed = false) ∧
    (∀ i ∈ s.ifs, (s.ifc i).remote = n → (t.node (s.ifc i).node).failed = false →
      (t.ifc i).failed = false) ∧
    (∀ i ∈ s.ifs, (s.ifc i).node ≠ n → (s.ifc i).remote ≠ n →
      (t.ifc i).failed = (s.ifc i).failed) ∧
    (∀ i ∈ s.ifs, (t.node (s.ifc i).node).failed = true ∨ (t.node (s.ifc i).remote).failed = true →
      (t.ifc i).failed = (s.ifc i).failed) ∧
    (∀ i ∈ s.ifs, (s.ifc i).failed = false → (t.ifc i).failed = false) := by
  have hh : s.nodeHeld n = false := by
    by_contra hx
    obtain ⟨g, hg, hf⟩ := nodeHeld_iff.1 (by simpa using hx : s.nodeHeld n = true)
    obtain ⟨msg, u, hu, -⟩ := C41_unfail_node (env := env) hw hnm hg hf
    rw [hu] at h
    cases h
  obtain ⟨hb, hc, hnode, haw, hup⟩ :=
    of_wp_ok (unfailNode_spec env ⟨⟨hw, hid, hs, hr⟩, ⟨hw, he, hi, hs⟩, hw, hn, hi⟩ hnm hh) h
  have hnet : SameNet s t := SameNet.frame.trans (upNode_net s n) hc.net
  have fl : ∀ m, (t.node m).failed = if m = n then false else (s.node m).failed := by
    intro m; rw [hnode, upNode_failed]
  refine ⟨by rw [fl, if_pos rfl], ?_, hc.srlg, ?_, ?_, ?_, ?_, ?_⟩
  · intro m hm
    rw [hnode]
    unfold State.upNode State.updNode
    simp [hm]
  · intro i hii hin hir
    exact hup i hii (by unfold State.tail; rw [hin]) hir
  · intro i hii hir hin
    obtain ⟨j, hj, hij⟩ := hw.twin i hii
    have e1 : (s.ifc j).node = n := by
      rw [← hir]; exact hw.node_inj (hw.ends j hj).1 (hw.ends i hii).2 hij.2.1.symm
    have e2 : (s.ifc j).remote = (s.ifc i).node :=
      hw.node_inj (hw.ends j hj).2 (hw.ends i hii).1 hij.1.symm
    have := hup j hj (by unfold State.tail; rw [e1]) (by rw [e2]; exact hin)
    rw [← this]
    refine hb.2.1.2.1 i (by rw [hnet.ifs]; exact hii) j (by rw [hnet.ifs]; exact hj) ?_
    exact ⟨by rw [hnet.tail, hnet.head]; exact hij.1, by rw [hnet.tail, hnet.head]; exact hij.2.1,
      fun hk => by
        rw [hnet.kind] at hk
        rw [hnet.flexId hk, hnet.flexId hk]; exact hij.2.2 hk⟩
  · intro i hii h1 h2
    exact haw i hii (.inl ⟨h1, h2⟩)
  · rintro i hii (h1 | h1)
    · rw [fl] at h1
      split at h1
      · cases h1
      · next hne => exact haw i hii (.inr (.inl ⟨hne, h1⟩))
    · rw [fl] at h1
      split at h1
      · cases h1
      · next hne => exact haw i hii (.inr (.inr ⟨hne, h1⟩))
  · intro i hii hf
    exact hc.up i hii hf

/-- nodes C and D of the example are failed -/
def Ex.dark (k : Kind) : State :=
  finalState (failNode "D") (finalState (failNode "C") (Ex.risk1 k))

example (k : Kind) : Wired (Ex.dark k) ∧ IdsMatch (Ex.dark k) ∧ SrlgsMatch (Ex.dark k) ∧
    RsvpReady (Ex.dark k) ∧ EndsAgree (Ex.dark k) ∧ MemberNodesDown (Ex.dark k) ∧
    MemberIfcsDown (Ex.dark k) ∧ 3 ∈ (Ex.dark k).nodes ∧
    ((Ex.dark k).node 3).name = "D" ∧ unfailNode Env.default "D" (Ex.dark k) =
      .ok () (finalState (unfailNode Env.default "D") (Ex.dark k)) ∧
    ((Ex.dark k).ifc 2).failed = true ∧ ((Ex.dark k).ifc 6).failed = true ∧
    ((finalState (unfailNode Env.default "D") (Ex.dark k)).ifc 2).failed = false ∧
    ((finalState (unfailNode Env.default "D") (Ex.dark k)).ifc 6).failed = true := by
  cases k <;> exact ⟨by decide +kernel, by decide +kernel, by decide +kernel, by decide +kernel,
    by decide +kernel, by decide +kernel, by decide +kernel, by decide +kernel,
    by decide +kernel, ok_of_raised (by decide +kernel), by decide +kernel, by decide +kernel, by decide +kernel,
    by decide +kernel⟩

/-! ## C90: queries -/

/-- **C90** A circuit counts as failed exactly if one of its interfaces is failed. -/
theorem C90_circuit_failed (s : State) (c : ℕ × ℕ) :
    s.circuitFailed c = true ↔ (s.ifc c.1).failed = true ∨ (s.ifc c.2).failed = true := by
  unfold State.circuitFailed
  rw [Bool.or_eq_true]

/-- one end of a circuit failed by hand -/
example (k : Kind) :
    let s := (Ex.square k).updIfc 0 fun x => { x with failed := true }
    (s.ifc 1).failed = false ∧ s.circuitFailed (1, 0) = true := by cases k <;> decide +kernel

/-- **C90** In a validated model a circuit is failed exactly if both its interfaces are, its id is
the id of both its interfaces, and a PerformanceModel uses every circuit id once. -/
theorem C90_circuits {env : Env} {s t : State} (hset : CktIdsSet s)
    (h : validate env s = .ok () t) :
    (∀ c ∈ t.circuits, (t.circuitFailed c = true ↔
        (t.ifc c.1).failed = true ∧ (t.ifc c.2).failed = true) ∧
      t.circuitId c = (t.ifc c.1).cktId ∧ t.circuitId c = (t.ifc c.2).cktId) ∧
    (t.kind = .perf → (t.circuits.map t.circuitId).Nodup) := by
  have hp := C28_circuits_pair hset h
  have hc := (C34_circuits_consistent h).1
  refine ⟨fun c hcm => ⟨?_, rfl, (hp.2.1 c hcm).2.2.2.2⟩, fun hk => ?_⟩
  · obtain ⟨-, e1, e2⟩ := hc c hcm
    unfold State.circuitFailed
    rw [e1, e2]
    simp
  · obtain ⟨u, hu, rfl, -⟩ := validate_ok h
    obtain ⟨B, I, he⟩ := hu.eq
    have hks : s.kind = .perf := by
      have : u.repair.kind = s.kind := by show u.kind = _; rw [he]; rfl
      rw [← this]; exact hk
    have := (hu.numIds hks).2.1
    show List.Pairwise _ _
    rw [List.pairwise_map]
    refine this.imp fun {c d} hne => ?_
    have hrep : ∀ i, (u.repair.ifc i).cktId = (u.ifc i).cktId := by
      intro i; unfold State.repair State.repairOver; simp only []; split <;> rfl
    unfold State.circuitId
    rw [hrep, hrep]
    exact hne

/-- **C90** In a validated model in which every interface has reservable bandwidth of at least 0,
`get_circuit_object` finds the circuit of an interface. -/
theorem C90_circuit_of_interface {env : Env} {s t : State} (hset : CktIdsSet s)
    (h : validate env s = .ok () t) (hw : Wired t) {i : ℕ} (hi : i ∈ t.ifs)
    (hres : 0 ≤ t.reservable i) :
    ∃ c ∈ t.circuits, t.ifcCircuit i = .ok c ∧ (i = c.1 ∨ i = c.2) := by
  have hp := C28_circuits_pair hset h
  obtain ⟨c, ⟨hc, hic⟩, -⟩ := hp.1 i hi hres
  have heq : ∀ j ∈ t.ifs, t.ifcEq i j = true → i = j := by
    intro j hj he
    unfold State.ifcEq at he
    simp only [Bool.or_eq_true, beq_iff_eq, Bool.and_eq_true] at he
    rcases he with he | ⟨⟨⟨⟨h1, -⟩, h3⟩, -⟩, -⟩
    · exact he
    · refine hw.keys i hi j hj ?_
      unfold State.nodeEq at h1
      simp only [Bool.or_eq_true, beq_iff_eq, Bool.and_eq_true] at h1
      unfold State.ifcKey
      rw [h3]
      congr 1
      unfold State.tail
      rcases h1 with h1 | ⟨⟨⟨⟨⟨⟨h1, -⟩, -⟩, -⟩, -⟩, -⟩, -⟩
      · rw [h1]
      · exact h1
  unfold State.ifcCircuit State.getCircuit
  rw [getIfc_eq hw hi]
  simp only []
  cases hf : t.circuits.find? fun c => t.ifcEq i c.1 || t.ifcEq i c.2 with
  | none =>
    exfalso
    have := List.find?_eq_none.1 hf c hc
    refine this ?_
    simp only [Bool.or_eq_true]
    rcases hic with rfl | rfl
    · left; unfold State.ifcEq; simp
    · right; unfold State.ifcEq; simp
  | some d =>
    have hd := List.mem_of_find?_eq_some hf
    have hdt := List.find?_some hf
    simp only [Bool.or_eq_true] at hdt
    refine ⟨d, hd, rfl, ?_⟩
    rcases hdt with hdt | hdt
    · exact .inl (heq _ (hp.2.1 d hd).1 hdt)
    · exact .inr (heq _ (hp.2.1 d hd).2.1 hdt)

/-- **C90** A node of a validated model is an orphan exactly if no circuit ends at it. -/
theorem C90_orphans {env : Env} {s t : State} (hset : CktIdsSet s)
    (h : validate env s = .ok () t) (hres : ∀ i ∈ t.ifs, 0 ≤ t.reservable i) {n : ℕ} (hn : n ∈ t.nodes) :
    t.isOrphan n = true ↔
      ∀ c ∈ t.circuits, t.tail c.1 ≠ (t.node n).name ∧ t.tail c.2 ≠ (t.node n).name := by
  have hp := C28_circuits_pair hset h
  have hmem : t.isOrphan n = true ↔ ∀ i ∈ t.ifs, t.tail i ≠ (t.node n).name := by
    unfold State.isOrphan State.memNode State.orphans
    rw [List.any_eq_true]
    constructor
    · rintro ⟨m, hm, he⟩ i hi
      rw [List.mem_filter] at hm
      have hnm : (t.node n).name = (t.node m).name := by
        unfold State.nodeEq at he
        simp only [Bool.or_eq_true, beq_iff_eq, Bool.and_eq_true] at he
        rcases he with he | ⟨⟨⟨⟨⟨⟨h1, -⟩, -⟩, -⟩, -⟩, -⟩, -⟩
        · rw [he]
        · exact h1
      have hz : t.ifcsOn (t.node m).name = [] := by simpa using hm.2
      intro hx
      have : i ∈ t.ifcsOn (t.node m).name := by
        unfold State.ifcsOn
        rw [List.mem_filter]
        exact ⟨hi, by simp [hx, hnm]⟩
      rw [hz] at this
      cases this
    · intro ha
      refine ⟨n, ?_, by unfold State.nodeEq; simp⟩
      rw [List.mem_filter]
      refine ⟨hn, ?_⟩
      have : t.ifcsOn (t.node n).name = [] := by
        unfold State.ifcsOn
        rw [List.filter_eq_nil_iff]
        intro i hi
        simpa using ha i hi
      simp [this]
  rw [hmem]
  constructor
  · intro ha c hc
    exact ⟨ha _ (hp.2.1 c hc).1, ha _ (hp.2.1 c hc).2.1⟩
  · intro ha i hi
    obtain ⟨c, ⟨hc, rfl | rfl⟩, -⟩ := hp.1 i hi (hres i hi)
    · exact (ha c hc).1
    · exact (ha c hc).2

theorem nodesWith_ok {s : State} (hw : Wired s) (b : Bool) (l : List ℕ) (hl : ∀ n ∈ l, n ∈ s.nodes) :
    s.nodesWith b l = .ok (l.filter fun n => (s.node n).failed = b) := by
  induction l with
  | nil => rfl
  | cons n l ih =>
    have ih' := ih fun m hm => hl m (List.mem_cons_of_mem _ hm)
    unfold State.nodesWith
    by_cases hb : (s.node n).failed = b
    · rw [if_pos hb, getNode_eq hw (hl n (by simp)), ih']
      simp [hb]
      rfl
    · rw [if_neg hb, ih']
      simp [hb]

/-- **C90** `get_failed_node_objects` and `get_non_failed_node_objects` do not raise; together they
list every node of the model once. -/
theorem C90_node_status {s : State} (hw : Wired s) :
    ∃ down up, s.failedNodes = .ok down ∧ s.upNodes = .ok up ∧ (down ++ up).Perm s.nodes ∧
      (∀ n ∈ down, (s.node n).failed = true) ∧ ∀ n ∈ up, (s.node n).failed = false := by
  refine ⟨_, _, nodesWith_ok hw true s.nodes fun _ h => h,
    nodesWith_ok hw false s.nodes fun _ h => h, ?_, ?_, ?_⟩
  · have := List.filter_append_perm (fun n => (s.node n).failed) s.nodes
    refine List.Perm.trans (List.Perm.of_eq ?_) this
    congr 1
    · simp
    · refine List.filter_congr fun n _ => ?_
      cases (s.node n).failed <;> simp
  · intro n hn
    simpa using (List.mem_filter.1 hn).2
  · intro n hn
    simpa using (List.mem_filter.1 hn).2

/-- **C90** (part: node names that do not collide) The parallel demands filed under a pair of end
points are exactly the demands that both `get_demand_objects_source_node` and
`get_demand_objects_dest_node` return. -/
theorem C90_demand_ends_partial {env : Env} {s : State} (hk : KeysDistinct s) {d : ℕ}
    (hd : d ∈ s.dmds) :
    ∃ ds, dictGet (s.demandGroups env) (s.dmdSrc d ++ "-" ++ s.dmdDst d) = some ds ∧
      ∀ e, e ∈ ds ↔ e ∈ s.dmdsFrom (s.dmdSrc d) ∧ e ∈ s.dmdsTo (s.dmdDst d) := by
  have hg := C50_demand_groups_partial (env := env) hk
  obtain ⟨g, hgm, hgk, hgo, -⟩ := hg.one d hd
  refine ⟨g.2, ?_, fun e => ?_⟩
  · rw [← hgk]
    exact dictGet_of_mem hg.keys hgm
  · rw [hgo]
    unfold State.dmdsFrom State.dmdsTo
    rw [List.mem_filter, List.mem_filter, decide_eq_true_eq, decide_eq_true_eq]
    unfold State.dmdSrc State.dmdDst
    tauto

/-- **C90** The part about parallel demands is false when names collide: with demands a → b-c and
a-b → c, the group filed under the first demand's end points does not hold it. -/
theorem C90_demand_ends_false (k : Kind) : ∃ d ∈ (Ex.hyphenated k).dmds,
    ¬ ∃ ds, dictGet ((Ex.hyphenated k).demandGroups Env.default)
        ((Ex.hyphenated k).dmdSrc d ++ "-" ++ (Ex.hyphenated k).dmdDst d) = some ds ∧
      ∀ e, e ∈ ds ↔ e ∈ (Ex.hyphenated k).dmdsFrom ((Ex.hyphenated k).dmdSrc d) ∧
        e ∈ (Ex.hyphenated k).dmdsTo ((Ex.hyphenated k).dmdDst d) := by
  refine ⟨0, by cases k <;> decide +kernel, ?_⟩
  rintro ⟨ds, h1, h2⟩
  have h3 : dictGet ((Ex.hyphenated k).demandGroups Env.default)
      ((Ex.hyphenated k).dmdSrc 0 ++ "-" ++ (Ex.hyphenated k).dmdDst 0) = some [1] := by
    cases k <;> decide +kernel
  rw [h3] at h1
  injection h1 with h1
  subst h1
  have h4 : 0 ∈ (Ex.hyphenated k).dmdsFrom ((Ex.hyphenated k).dmdSrc 0) ∧
      0 ∈ (Ex.hyphenated k).dmdsTo ((Ex.hyphenated k).dmdDst 0) := by
    cases k <;> decide +kernel
  have := (h2 0).2 h4
  simp at this

/-- the network of the C84 example with an isolated node and a failed node -/
def Ex.census (k : Kind) : State := finalState (validate Env.default)
  (finalState (failNode "C") (Ex.mk k
  [{ name := "A" }, { name := "B" }, { name := "C" }, { name := "E" }]
  (Ex.link "ab" 0 1 10 100 1 ++ Ex.link "bc" 1 2 10 100 2)
  [{ src := 0, dst := 1, traffic := 5, name := "x" }, { src := 0, dst := 1, traffic := 5, name := "y" },
    { src := 0, dst := 2, traffic := 5, name := "x" }, { src := 1, dst := 2, traffic := 5, name := "x" }]
  [] []))

example (k : Kind) : let s := Ex.census k
    Wired s ∧ CktIdsSet s ∧ validate Env.default s = .ok () (finalState (validate Env.default) s) ∧
    (∀ i ∈ s.ifs, 0 ≤ s.reservable i) ∧ s.isOrphan 3 = true ∧ s.isOrphan 0 = false ∧
    s.circuits.map s.circuitFailed = [false, true] ∧ s.failedNodes = .ok [2] ∧
    s.upNodes = .ok [0, 1, 3] ∧ s.ifcCircuit 3 = .ok (2, 3) ∧ s.dmdsFrom "A" = [0, 1, 2] ∧
    s.dmdsTo "C" = [2, 3] ∧ s.dmds = [0, 1, 2, 3] := by
  cases k <;> exact ⟨by decide +kernel, by decide +kernel, ok_of_raised (by decide +kernel),
    by decide +kernel, by decide +kernel, by decide +kernel, by decide +kernel, by decide +kernel,
    by decide +kernel, by decide +kernel, by decide +kernel, by decide +kernel, by decide +kernel⟩

example (k : Kind) : KeysDistinct (Ex.census k) :=
  keysDistinct_of_noHyphen (by cases k <;> decide +kernel)

end NTM
