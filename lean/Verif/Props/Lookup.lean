import Verif.Props.Repair
import Verif.Props.Objects
import Verif.Props.Routing
import Verif.Props.Registry
import Verif.Props.Validation

/-!
# C102, C104: lists of interfaces, nodes and demands, and renaming
-/

namespace NTM

open Spec

/-! ### Lists by status -/

theorem filter_split {l : List ℕ} (p : ℕ → Bool) :
    (l.filter p ++ l.filter fun i => !p i).Perm l := List.filter_append_perm p l

/-- **C102** `get_failed_interface_objects` and `get_unfailed_interface_objects` list every
interface of the model exactly once between them, the failed ones in the first. -/
theorem C102_interface_status (s : State) :
    (s.failedIfcs ++ s.unfailedIfcs).Perm s.ifs ∧ (∀ i ∈ s.failedIfcs, (s.ifc i).failed = true) ∧
      ∀ i ∈ s.unfailedIfcs, (s.ifc i).failed = false := by
  refine ⟨filter_split _, fun i hi => ?_, fun i hi => ?_⟩
  · simpa using (List.mem_filter.1 hi).2
  · simpa using (List.mem_filter.1 hi).2

/-- in the square with one circuit failed both lists have members -/
example (k : Kind) :
    let s := finalState (failInterface "ab1" "A") (Ex.square k)
    s.failedIfcs ≠ [] ∧ s.unfailedIfcs ≠ [] := by
  cases k <;> decide +kernel

/-- **C102** After a simulation `get_unrouted_demand_objects` lists exactly the demands that have
no routed LSP and no usable path. -/
theorem C102_unrouted_demands {env : Env} {s s' : State} (ht : Tidy s) (hk : KeysDistinct s)
    (hrun : updateSimulation env s = .ok () s') (d : ℕ) :
    d ∈ s'.unroutedDmds ↔ d ∈ s'.dmds ∧
      (¬ ∃ l, LspBetween s' (s'.dmdSrc d) (s'.dmdDst d) l ∧ IsRouted s' l) ∧
      ¬ Reachable s'.tail s'.head (Usable s' 0) (s'.dmdSrc d) (s'.dmdDst d) := by
  unfold State.unroutedDmds
  rw [List.mem_filter, decide_eq_true_eq]
  exact and_congr_right fun hd => C03_unrouted_iff ht hk hrun hd

/-- the square with A-B and A-C failed: two demands of A cannot be routed -/
example (k : Kind) :
    let s := finalState (failInterface "ac1" "A") (finalState (failInterface "ab1" "A") (Ex.square k))
    Tidy s ∧ KeysDistinct s ∧ raised (updateSimulation Env.default) s = none ∧
      (finalState (updateSimulation Env.default) s).unroutedDmds ≠ [] := by
  cases k <;> exact ⟨by decide +kernel, by decide +kernel, by decide +kernel, by decide +kernel⟩

/-! ### Interfaces by node -/

theorem flatMap_filter_perm {l : List ℕ} {ks : List String} (f : ℕ → String) (hn : ks.Nodup)
    (hm : ∀ i ∈ l, f i ∈ ks) : (ks.flatMap fun k => l.filter fun i => f i = k).Perm l := by
  induction ks generalizing l with
  | nil =>
    cases l with
    | nil => exact List.Perm.refl _
    | cons i l => exact absurd (hm i (by simp)) (by simp)
  | cons k ks ih =>
    rw [List.nodup_cons] at hn
    rw [List.flatMap_cons]
    have h2 : (ks.flatMap fun k' => l.filter fun i => f i = k') =
        ks.flatMap fun k' => (l.filter fun i => !decide (f i = k)).filter fun i => f i = k' := by
      rw [List.flatMap_def, List.flatMap_def]
      congr 1
      refine List.map_congr_left fun k' hk' => ?_
      rw [List.filter_filter]
      refine List.filter_congr fun i _ => ?_
      by_cases he : f i = k'
      · have : f i ≠ k := fun h => hn.1 (h ▸ he ▸ hk')
        simp [he, show k' ≠ k from fun h => this (he.trans h)]
      · simp [he]
    rw [h2]
    refine List.Perm.trans (List.Perm.append_left _ (ih hn.2 ?_)) (filter_split _)
    intro i hi
    rw [List.mem_filter] at hi
    rcases List.mem_cons.1 (hm i hi.1) with h | h
    · simp [h] at hi
    · exact h

/-- **C102** `get_node_interfaces(name)` lists exactly the interfaces that leave the node of that
name; over all nodes every interface of the model is listed exactly once. -/
theorem C102_node_interfaces {s : State} (hn : s.nodeNames.Nodup) (hk : EndsKnown s) :
    (∀ a i, i ∈ s.nodeIfcs a ↔ i ∈ s.ifs ∧ s.tail i = a) ∧
    (s.nodeNames.flatMap s.nodeIfcs).Perm s.ifs := by
  refine ⟨fun a i => ?_, ?_⟩
  · unfold State.nodeIfcs State.ifcsOn
    rw [List.mem_filter, decide_eq_true_eq]
  · exact flatMap_filter_perm s.tail hn fun i hi => (hk i hi).1

/-- every node of the square has interfaces -/
example (k : Kind) : (Ex.square k).nodeNames.Nodup ∧ EndsKnown (Ex.square k) ∧
    ∀ a ∈ (Ex.square k).nodeNames, (Ex.square k).nodeIfcs a ≠ [] := by
  unfold EndsKnown
  cases k <;> exact ⟨by decide +kernel, by decide +kernel, by decide +kernel⟩

/-- **C102** In a validated model whose interfaces all run RSVP, being adjacent is symmetric: a
node of some name is among the adjacent nodes of another exactly when that holds the other way
round. -/
theorem C102_adjacent {env : Env} {s t : State} (hset : CktIdsSet s)
    (h : validate env s = .ok () t) (hres : ∀ i ∈ t.ifs, 0 ≤ t.reservable i) (a b : String) :
    (∃ n ∈ t.adjacentNodes a, (t.node n).name = b) ↔
      ∃ n ∈ t.adjacentNodes b, (t.node n).name = a := by
  have hp := C28_circuits_pair hset h
  have key : ∀ a b : String, (∃ n ∈ t.adjacentNodes a, (t.node n).name = b) →
      ∃ n ∈ t.adjacentNodes b, (t.node n).name = a := by
    rintro a b ⟨n, hn, rfl⟩
    unfold State.adjacentNodes State.ifcsOn at hn
    obtain ⟨i, hi, rfl⟩ := List.mem_map.1 hn
    rw [List.mem_filter, decide_eq_true_eq] at hi
    obtain ⟨c, ⟨hc, hic⟩, -⟩ := hp.1 i hi.1 (hres i hi.1)
    obtain ⟨h1, h2, h3, h4, -⟩ := hp.2.1 c hc
    unfold State.adjacentNodes State.ifcsOn
    have hd : ∀ k, (t.node (t.ifc k).remote).name = t.head k := fun _ => rfl
    rcases hic with rfl | rfl
    · refine ⟨_, List.mem_map.2 ⟨c.2, List.mem_filter.2 ⟨h2, ?_⟩, rfl⟩, ?_⟩
      · rw [decide_eq_true_eq, hd]; exact h4.symm
      · rw [hd]; exact h3.symm.trans hi.2
    · refine ⟨_, List.mem_map.2 ⟨c.1, List.mem_filter.2 ⟨h1, ?_⟩, rfl⟩, ?_⟩
      · rw [decide_eq_true_eq, hd]; exact h3
      · rw [hd]; exact h4.trans hi.2
  exact ⟨key a b, key b a⟩

/-- A and B of the square are adjacent -/
example (k : Kind) :
    let s := Ex.square k
    raised (validate Env.default) s = none ∧ CktIdsSet s ∧
      (∀ i ∈ (finalState (validate Env.default) s).ifs,
        0 ≤ (finalState (validate Env.default) s).reservable i) ∧
      ∃ n ∈ (finalState (validate Env.default) s).adjacentNodes "A",
        ((finalState (validate Env.default) s).node n).name = "B" := by
  cases k <;> exact ⟨by decide +kernel, by unfold CktIdsSet; decide +kernel, by decide +kernel,
    by decide +kernel⟩

/-! ### Circuit ids -/

/-- **C102** In a validated model whose interfaces all run RSVP, `all_interface_circuit_ids`
holds exactly the ids of the model's circuits. -/
theorem C102_circuit_ids {env : Env} {s t : State} (hset : CktIdsSet s)
    (h : validate env s = .ok () t) (hres : ∀ i ∈ t.ifs, 0 ≤ t.reservable i) (k : CktId) :
    k ∈ t.allCktIds ↔ ∃ c ∈ t.circuits, t.circuitId c = k := by
  have hp := C28_circuits_pair hset h
  unfold State.allCktIds State.circuitId
  rw [List.mem_map]
  constructor
  · rintro ⟨i, hi, rfl⟩
    obtain ⟨c, ⟨hc, hic⟩, -⟩ := hp.1 i hi (hres i hi)
    refine ⟨c, hc, ?_⟩
    rcases hic with rfl | rfl
    · rfl
    · exact (hp.2.1 c hc).2.2.2.2
  · rintro ⟨c, hc, rfl⟩
    exact ⟨c.1, (hp.2.1 c hc).1, rfl⟩

/-- Two interfaces that do not run RSVP are in no circuit, and their id is listed all the same. -/
theorem C102_circuit_ids_false (k : Kind) :
    let t := finalState (validate Env.default) (Ex.oneWay k false)
    raised (validate Env.default) (Ex.oneWay k false) = none ∧
      ¬ ∀ x, x ∈ t.allCktIds ↔ ∃ c ∈ t.circuits, t.circuitId c = x := by
  refine ⟨by cases k <;> decide +kernel, fun h => ?_⟩
  have h1 : (finalState (validate Env.default) (Ex.oneWay k false)).circuits = [] := by
    cases k <;> decide +kernel
  have h2 : (finalState (validate Env.default) (Ex.oneWay k false)).allCktIds ≠ [] := by
    cases k <;> decide +kernel
  obtain ⟨x, hx⟩ := List.exists_mem_of_ne_nil _ h2
  obtain ⟨c, hc, -⟩ := (h x).1 hx
  rw [h1] at hc
  cases hc

/-! ### SRLGs -/

/-- **C102** `validate_srlg_nodes` never reports anything, whatever the state of the model. -/
theorem C102_srlg_check (s : State) : s.srlgNodeErrors = [] := by
  unfold State.srlgNodeErrors
  rw [List.flatMap_eq_nil_iff]
  intro g _
  rw [List.map_eq_nil_iff, List.filter_eq_nil_iff]
  intro n hn
  have := (List.mem_filter.1 hn).2
  rw [decide_eq_true_eq] at this
  simpa using this

/-- a model with an SRLG that has a member node -/
example (k : Kind) : ∃ g ∈ (Ex.risk k).srlgs, (Ex.risk k).srlgNodes g ≠ [] := by
  cases k <;> decide +kernel

/-! ### Renaming an interface -/

/-- **C104** `change_interface_name(node, cur, new)` returns the interface with that name on that
node and gives it the new name; nothing else about it and no other interface, node, demand, LSP
or SRLG changes. -/
theorem C104_rename {s t : State} {a cur new : String} {i : ℕ}
    (h : changeIfcName a cur new s = .ok i t) :
    i ∈ s.ifs ∧ (s.ifc i).name = cur ∧ s.tail i = a ∧ t.ifc i = { s.ifc i with name := new } ∧
      (∀ j, j ≠ i → t.ifc j = s.ifc j) ∧
      t = { s with ifc := t.ifc } := by
  unfold changeIfcName at h
  obtain ⟨s1, u1, e1, h⟩ := py_bind_inv h
  cases e1
  obtain ⟨j, u2, e2, h⟩ := py_bind_inv h
  cases hg : s.getIfc cur a with
  | error e => rw [hg] at e2; cases e2
  | ok j' =>
    rw [hg] at e2
    cases e2
    obtain ⟨x, u3, e3, h⟩ := py_bind_inv h
    cases e3
    cases h
    obtain ⟨h1, hkey⟩ := getIfc_ok hg
    unfold State.ifcKey at hkey
    injection hkey with h2 h3
    refine ⟨h1, h2, h3, ?_, fun j hj => ?_, rfl⟩
    · show (if i = i then _ else _) = _
      rw [if_pos rfl]
    · show (if j = i then _ else _) = _
      rw [if_neg hj]

/-- **C104** Renaming an interface that does not exist raises and changes nothing. -/
theorem C104_rename_unknown {s : State} {a cur new : String}
    (hno : ∀ i ∈ s.ifs, ¬ ((s.ifc i).name = cur ∧ s.tail i = a)) :
    ∃ msg, changeIfcName a cur new s = .error (.model msg) s := by
  obtain ⟨-, h2⟩ : LookupExact (s.getIfc cur a)
      (fun i => i ∈ s.ifs ∧ (s.ifc i).name = cur ∧ s.tail i = a) := by
    constructor
    · rintro ⟨i, hi, h⟩; exact absurd h (hno i hi)
    · intro _
      unfold State.getIfc
      rw [if_neg]
      · exact ⟨_, rfl⟩
      · intro hany
        obtain ⟨i, hi, he⟩ := List.any_eq_true.1 hany
        rw [decide_eq_true_eq] at he
        unfold State.ifcKey at he
        injection he with e1 e2
        exact hno i hi ⟨e1, e2⟩
  obtain ⟨msg, hm⟩ := h2 fun ⟨i, hi, h⟩ => hno i hi h
  refine ⟨msg, ?_⟩
  unfold changeIfcName
  rw [py_bind_ok (show (get : Py State) s = .ok s s from rfl)]
  rw [hm]
  rfl

/-- **C104** (partial) If the new name is free on the node, the renamed interface is found under
its new name and no longer under the old one, and keys stay unique.  Missing: a name that is
taken, see `C104_rename_clash_false`. -/
theorem C104_rename_lookup_partial {s t : State} {a cur new : String} {i : ℕ} (hk : EndsKnown s)
    (hu : (s.ifs.map fun j => ((s.ifc j).name, s.tail j)).Nodup) (hne : new ≠ cur)
    (hfree : ∀ j ∈ s.ifs, ¬ ((s.ifc j).name = new ∧ s.tail j = a))
    (h : changeIfcName a cur new s = .ok i t) :
    t.getIfc new a = .ok i ∧ (∃ msg, t.getIfc cur a = .error (.model msg)) ∧
      (t.ifs.map fun j => ((t.ifc j).name, t.tail j)).Nodup := by
  obtain ⟨hi, hn, ht, h1, h2, h3⟩ := C104_rename h
  have hifs : t.ifs = s.ifs := by rw [h3]
  have hnode : t.node = s.node := by rw [h3]
  have hnodes : t.nodes = s.nodes := by rw [h3]
  have hsrlgs : t.srlgs = s.srlgs := by rw [h3]
  have htail : ∀ j, t.tail j = s.tail j := by
    intro j
    unfold State.tail
    rw [hnode]
    by_cases hj : j = i
    · rw [hj, h1]
    · rw [h2 j hj]
  have hhead : ∀ j, t.head j = s.head j := by
    intro j
    unfold State.head
    rw [hnode]
    by_cases hj : j = i
    · rw [hj, h1]
    · rw [h2 j hj]
  have hnames : t.nodeNames = s.nodeNames := by unfold State.nodeNames; rw [hnodes, hnode]
  have hk' : EndsKnown t := by
    intro j hj
    rw [hifs] at hj
    rw [htail, hhead, hnames]
    exact hk j hj
  have hti : (t.ifc i).name = new := by rw [h1]
  have exact' : ∀ nm, LookupExact (t.getIfc nm a)
      (fun j => j ∈ t.ifs ∧ (t.ifc j).name = nm ∧ t.tail j = a) := by
    intro nm
    constructor
    · rintro ⟨j, hj, hj1, hj2⟩
      have hany : (t.ifs.any fun i => t.ifcKey i = (nm, a)) = true := by
        rw [List.any_eq_true]
        exact ⟨j, hj, by simp [State.ifcKey, hj1, hj2]⟩
      have hnm : a ∈ t.nodeNames := hj2 ▸ (hk' j hj).1
      obtain ⟨n, hn, hna⟩ := List.mem_map.1 hnm
      obtain ⟨m, hm, -, hma⟩ := (getNode_exact t a).1 ⟨n, hn, hna⟩
      cases hf : (t.ifcsOn a).find? fun i => (t.ifc i).name = nm with
      | none =>
        exact absurd hj1 (by simpa using List.find?_eq_none.1 hf j (List.mem_filter.2 ⟨hj, by simpa using hj2⟩))
      | some x =>
        have hx := List.mem_of_find?_eq_some hf
        have hx2 := List.find?_some hf
        refine ⟨x, ?_, (List.mem_filter.1 hx).1, by simpa using hx2, by simpa using (List.mem_filter.1 hx).2⟩
        unfold State.getIfc
        rw [if_pos hany, hm]
        simp only [hma, hf]
    · intro hno
      unfold State.getIfc
      rw [if_neg]
      · exact ⟨_, rfl⟩
      · intro hany
        obtain ⟨j, hj, he⟩ := List.any_eq_true.1 hany
        rw [decide_eq_true_eq] at he
        unfold State.ifcKey at he
        injection he with e1 e2
        exact hno ⟨j, hj, e1, e2⟩
  refine ⟨?_, ?_, ?_⟩
  · obtain ⟨x, hx, hx1, hx2, hx3⟩ := (exact' new).1 ⟨i, by rw [hifs]; exact hi, hti, (htail i).trans ht⟩
    rw [hx]
    by_cases he : x = i
    · rw [he]
    · rw [h2 x he] at hx2
      rw [htail] at hx3
      exact absurd ⟨hx2, hx3⟩ (hfree x (hifs ▸ hx1))
  · refine (exact' cur).2 ?_
    rintro ⟨x, hx1, hx2, hx3⟩
    by_cases he : x = i
    · rw [he, hti] at hx2; exact hne hx2
    · rw [h2 x he] at hx2
      rw [htail] at hx3
      rw [hifs] at hx1
      exact he (List.inj_on_of_nodup_map hu hx1 hi (by simp [hx2, hx3, hn, ht]))
  · rw [hifs]
    have hnd := List.Nodup.of_map _ hu
    refine List.Nodup.map_on ?_ hnd
    intro x hx y hy hxy
    simp only [Prod.mk.injEq, htail] at hxy
    by_cases ex : x = i
    · by_cases ey : y = i
      · rw [ex, ey]
      · rw [ex, hti, h2 y ey, ht] at hxy
        exact absurd ⟨hxy.1.symm, hxy.2.symm⟩ (hfree y hy)
    · by_cases ey : y = i
      · rw [ey, hti, h2 x ex, ht] at hxy
        exact absurd ⟨hxy.1, hxy.2⟩ (hfree x hx)
      · rw [h2 x ex, h2 y ey] at hxy
        exact List.inj_on_of_nodup_map hu hx hy (by simp [hxy.1, hxy.2])

/-- an interface of the square renamed -/
example (k : Kind) :
    let s := Ex.square k
    let i := s.ifs.headD 0
    changeIfcName (s.tail i) (s.ifc i).name "core" s =
        .ok i (finalState (changeIfcName (s.tail i) (s.ifc i).name "core") s) ∧ EndsKnown s ∧
      (∀ j ∈ s.ifs, ¬ ((s.ifc j).name = "core" ∧ s.tail j = s.tail i)) := by
  unfold EndsKnown
  cases k <;> exact ⟨rfl, by decide +kernel, by decide +kernel⟩

/-- **C104** is false when the new name is taken: two interfaces of one node then have the same
name, nothing is raised, and the second one can no longer be looked up. -/
theorem C104_rename_clash_false (k : Kind) :
    let s := Ex.square k
    ∃ i j, i ∈ s.ifs ∧ j ∈ s.ifs ∧ i ≠ j ∧ s.tail i = s.tail j ∧
      (let x := changeIfcName (s.tail j) (s.ifc j).name (s.ifc i).name
       raised x s = none ∧ (finalState x s).ifcKey i = (finalState x s).ifcKey j ∧
        (finalState x s).getIfc (s.ifc i).name (s.tail j) ≠ .ok j) := by
  refine ⟨(Ex.square k).ifs.headD 0, (((Ex.square k).ifcsOn ((Ex.square k).tail
    ((Ex.square k).ifs.headD 0))).getLastD 0), ?_⟩
  cases k <;> exact ⟨by decide +kernel, by decide +kernel, by decide +kernel, by decide +kernel,
    by decide +kernel, by decide +kernel, by decide +kernel⟩

/-! ### Exceptions of `unfail_srlg`, circuit ids given to `add_circuit` -/

theorem memNode_none {s : State} (hn : s.nodeNames.Nodup) {m g : ℕ} (hm : m ∈ s.nodes)
    (h : g ∉ (s.node m).srlgs) : s.memNode m (s.srlgNodes g) = false := by
  by_contra hx
  obtain ⟨x, hx1, hx2⟩ := List.any_eq_true.1 (by simpa using hx : s.memNode m (s.srlgNodes g) = true)
  unfold State.srlgNodes at hx1
  rw [List.mem_filter, decide_eq_true_eq] at hx1
  have : m = x := by
    unfold State.nodeEq at hx2
    rw [Bool.or_eq_true] at hx2
    rcases hx2 with h | h
    · exact eq_of_beq h
    · simp only [Bool.and_eq_true, beq_iff_eq] at h
      exact List.inj_on_of_nodup_map hn hm hx1.1 h.1.1.1.1.1.1
  exact h (this ▸ hx1.2)

theorem memNode_some {s : State} {n g : ℕ} (hn : n ∈ s.nodes) (h : g ∈ (s.node n).srlgs) :
    s.memNode n (s.srlgNodes g) = true := by
  refine List.any_eq_true.2 ⟨n, List.mem_filter.2 ⟨hn, by simpa using h⟩, ?_⟩
  unfold State.nodeEq
  simp

/-- **C45** `unfail_srlg` ignores only `ModelException`: any other exception that restoring its
first member node raises reaches the caller. -/
theorem C45_other_exceptions {env : Env} {s t : State} {name : String} {g n : ℕ}
    {pre post : List ℕ} {e : Exn} (hn : s.nodeNames.Nodup) (hg : s.getSrlg name = .ok g)
    (hs : s.nodes = pre ++ n :: post) (hpre : ∀ m ∈ pre, g ∉ (s.node m).srlgs)
    (hm : g ∈ (s.node n).srlgs) (he : ∀ msg, e ≠ .model msg)
    (h : unfailNode env (s.node n).name (s.updSrlg g fun x => { x with failed := false }) =
      .error e t) :
    unfailSrlg env name s = .error e t := by
  unfold unfailSrlg
  rw [py_bind_ok (show (get : Py State) s = .ok s s from rfl), hg,
    py_bind_ok (show liftE (.ok g) s = .ok g s from rfl)]
  set u := s.updSrlg g fun x => { x with failed := false } with hu
  rw [py_bind_ok (show (modify fun s => s.updSrlg g fun x => { x with failed := false } : Py Unit) s =
    .ok () u from rfl)]
  have hun : u.nodes = s.nodes := rfl
  have hnode : u.node = s.node := rfl
  have hnn : u.nodeNames.Nodup := hn
  refine py_bind_error ?_
  rw [hs]
  have hmem : ∀ m ∈ pre, m ∈ s.nodes := fun m hm => by rw [hs]; simp [hm]
  have hnm : n ∈ u.nodes := by rw [hun, hs]; simp
  clear hs hun
  induction pre with
  | nil =>
    show (_ >>= _ : Py Unit) u = _
    refine py_bind_error ?_
    beta_reduce
    rw [py_bind_ok (show (get : Py State) u = .ok u u from rfl)]
    rw [if_pos (memNode_some hnm hm)]
    unfold ignoreModelExn pyTry
    rw [hnode, h]
    cases e with
    | model msg => exact absurd rfl (he msg)
    | _ => rfl
  | cons m pre ih =>
    show (_ >>= _ : Py Unit) u = _
    rw [py_bind_ok (s := u) (t := u) (a := ())]
    · exact ih (fun x hx => hpre x (by simp [hx])) fun x hx => hmem x (by simp [hx])
    · beta_reduce
      rw [py_bind_ok (show (get : Py State) u = .ok u u from rfl)]
      rw [memNode_none hnn (hmem m (by simp)) (hpre m (by simp))]
      rfl

/-- a node in an SRLG whose interface has no counterpart -/
def Ex.halfRisk (k : Kind) : State := Ex.mk k
  [{ name := "Z" }, { name := "A", srlgs := [0] }, { name := "B" }]
  [{ name := "x", cost := 1, capacity := 1, node := 1, remote := 2, cktId := .num 1 }] [] []
  [{ name := "g", failed := true }]

example (k : Kind) :
    let s := Ex.halfRisk k
    let u := s.updSrlg 0 fun x => { x with failed := false }
    s.nodeNames.Nodup ∧ s.getSrlg "g" = .ok 0 ∧ s.nodes = [0] ++ 1 :: [2] ∧
      (∀ m ∈ [0], 0 ∉ (s.node m).srlgs) ∧ 0 ∈ (s.node 1).srlgs ∧
      unfailNode Env.default (s.node 1).name u =
        .error .unboundLocal (finalState (unfailNode Env.default "A") u) := by
  cases k <;> exact ⟨by decide +kernel, by decide +kernel, by decide +kernel, by decide +kernel,
    by decide +kernel, rfl⟩

/-- **C54** In a PerformanceModel the circuit id given to `add_circuit` is not kept: validation
numbers all circuits afresh.  (That the ids of the other interfaces are text does not matter,
because a given id is not compared with them.) -/
theorem C54_perf_circuit_id_false :
    let s := Ex.mk .perf [{ name := "A" }, { name := "B" }, { name := "C" }]
      ((Ex.link "ab" 0 1 10 100 1).map fun i => { i with cktId := .str "one" }) [] [] []
    let x := addCircuit Env.default 1 2 "bc" "cb" 5 5 40 false (.num 9)
    raised x s = none ∧ ∀ i ∈ (finalState x s).ifs, ((finalState x s).ifc i).cktId ≠ .num 9 :=
  ⟨by decide +kernel, by decide +kernel⟩

end NTM
