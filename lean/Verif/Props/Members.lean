import Verif.Props.WhatIf

/-!
# C107: failures add up

The order of failures does not matter, and failing an SRLG is failing its members.
-/

namespace NTM

open Spec

namespace Spec

/-- a thing to fail: a node or an interface -/
inductive Target where
  | node (n : ℕ)
  | ifc (i : ℕ)
  deriving DecidableEq

/-- it belongs to the model -/
def Target.OnModel (s : State) : Target → Prop
  | .node n => n ∈ s.nodes
  | .ifc i => i ∈ s.ifs

/-- `fail_node` or `fail_interface` with the names of the object in `s` -/
def Target.fail (s : State) : Target → Py Unit
  | .node n => failNode (s.node n).name
  | .ifc i => failInterface (s.ifc i).name (s.tail i)

/-- it is a member of SRLG `g` -/
def Target.InSrlg (s : State) (g : ℕ) : Target → Prop
  | .node n => NodeIn s g n
  | .ifc i => IfcIn s g i

end Spec

/-- the interfaces that fail with it -/
def Spec.Target.reach (s : State) : Target → ℕ → Bool
  | .node n => atNode s (s.node n).name
  | .ifc i => circuitsOf s [i]

/-- the node that fails with it -/
def Spec.Target.hit : Target → ℕ → Bool
  | .node n => fun k => k = n
  | .ifc _ => fun _ => false

theorem Target.fail_eq {s t : State} (hw : Wired t) (hid : IdsMatch t) (hn : SameNet s t)
    {x : Target} (hx : x.OnModel s) : x.fail s t = .ok () (t.fell (x.reach s) x.hit) := by
  cases x with
  | node n =>
    have hx' : n ∈ t.nodes := by rw [hn.nodes]; exact hx
    show failNode (s.node n).name t = _
    rw [← hn.name n, failNode_eq hw hid hx']
    congr 1
    refine fell_congr t (fun i => ?_) (fun _ => rfl)
    rw [atNode_congr hn, hn.name n]
    rfl
  | ifc i =>
    have hx' : i ∈ t.ifs := by rw [hn.ifs]; exact hx
    obtain ⟨j, hj, hij⟩ := hw.twin i hx'
    show failInterface (s.ifc i).name (s.tail i) t = _
    rw [← hn.ifcName i, ← hn.tail i, failInterface_eq hw hid hx' hj hij]
    congr 1
    refine fell_congr t (fun k => ?_) (fun _ => rfl)
    have := circuitsOf_snoc hw (l := []) hj hij k
    rw [show circuitsOf t [] k = false by unfold circuitsOf; simp, Bool.false_or] at this
    rw [this]
    show circuitsOf t [i] k = circuitsOf s [i] k
    unfold circuitsOf
    simp only [hn.ifs, hn.opposite]

theorem failTargets_eq {s : State} (hw : Wired s) (xs : List Target) :
    ∀ (t : State), SameNet s t → IdsMatch t → (∀ x ∈ xs, x.OnModel s) →
    forEach xs (fun x => x.fail s) t = .ok ()
      (t.fell (fun k => xs.any fun x => x.reach s k) (fun k => xs.any fun x => x.hit k)) := by
  induction xs with
  | nil => intro t _ _ _; rfl
  | cons x xs ih =>
    intro t hn hid' hx
    show (x.fail s >>= fun _ => forEach xs fun x => x.fail s) t = _
    rw [py_bind_ok (Target.fail_eq (hw.congr hn) hid' hn (hx x (by simp))),
      ih _ (SameNet.frame.trans hn (fell_sameNet t _ _))
        (hid'.congr (fell_sameNet t _ _) (fell_cktId t _ _)) (fun y hy => hx y (by simp [hy])),
      fell_fell]
    congr 1

/-- **C107** Failing nodes and interfaces of a valid model always succeeds, and the order of the
failures, and whether some are repeated, make no difference to the model. -/
theorem C107_failures_commute {s : State} (hw : Wired s) (hid : IdsMatch s) {xs ys : List Target}
    (hx : ∀ x ∈ xs, x.OnModel s) (hy : ∀ x, x ∈ ys ↔ x ∈ xs) :
    ∃ t, forEach xs (fun x => x.fail s) s = .ok () t ∧
      forEach ys (fun x => x.fail s) s = .ok () t := by
  refine ⟨_, failTargets_eq hw xs s (SameNet.frame.refl s) hid hx, ?_⟩
  rw [failTargets_eq hw ys s (SameNet.frame.refl s) hid fun x h => hx x ((hy x).1 h)]
  congr 1
  refine fell_congr s (fun k => ?_) (fun k => ?_) <;>
  · rw [Bool.eq_iff_iff, List.any_eq_true, List.any_eq_true]
    simp only [hy]

/-- **C107** `fail_srlg` leaves the model exactly as failing every member of the SRLG one by one,
in any order, except that the SRLG itself is marked failed. -/
theorem C107_srlg_is_its_members {s : State} (hw : Wired s) (hid : IdsMatch s) {g : ℕ}
    (hg : g ∈ s.srlgs) {xs : List Target} (hx : ∀ x, x ∈ xs ↔ x.InSrlg s g) :
    ∃ u, forEach xs (fun x => x.fail s) s = .ok () u ∧
      failSrlg (s.srlg g).name s = .ok ()
        { u with srlg := fun h => if h = g then { s.srlg g with failed := true } else s.srlg h } := by
  have hon : ∀ x ∈ xs, x.OnModel s := by
    intro x h
    have := (hx x).1 h
    cases x with
    | node n => exact this.1
    | ifc i => exact this.1
  refine ⟨_, failTargets_eq hw xs s (SameNet.frame.refl s) hid hon, ?_⟩
  rw [failSrlg_eq hw hid hg]
  have e : s.fell (srlgReach s g) (srlgMembers s g) =
      s.fell (fun k => xs.any fun x => x.reach s k) (fun k => xs.any fun x => x.hit k) := by
    refine fell_congr s (fun k => ?_) (fun k => ?_)
    · rw [Bool.eq_iff_iff]
      unfold srlgReach atNodes
      rw [Bool.or_eq_true, List.any_eq_true, List.any_eq_true]
      constructor
      · rintro (⟨n, hn, h⟩ | h)
        · rw [Bool.and_eq_true, decide_eq_true_eq] at h
          exact ⟨.node n, (hx _).2 ⟨hn, h.1⟩, h.2⟩
        · unfold circuitsOf at h
          rw [decide_eq_true_eq] at h
          obtain ⟨i, hi, h⟩ := h
          rw [List.mem_filter, decide_eq_true_eq] at hi
          refine ⟨.ifc i, (hx _).2 hi, ?_⟩
          show circuitsOf s [i] k = true
          unfold circuitsOf
          rw [decide_eq_true_eq]
          exact ⟨i, by simp, h⟩
      · rintro ⟨x, hm, h⟩
        have hin := (hx x).1 hm
        cases x with
        | node n =>
          refine .inl ⟨n, hin.1, ?_⟩
          rw [Bool.and_eq_true, decide_eq_true_eq]
          exact ⟨hin.2, h⟩
        | ifc i =>
          right
          change circuitsOf s [i] k = true at h
          unfold circuitsOf at h ⊢
          rw [decide_eq_true_eq] at h ⊢
          obtain ⟨j, hj, h⟩ := h
          rw [List.mem_singleton] at hj
          subst hj
          exact ⟨j, by rw [List.mem_filter, decide_eq_true_eq]; exact hin, h⟩
    · rw [Bool.eq_iff_iff]
      unfold srlgMembers
      rw [Bool.and_eq_true, decide_eq_true_eq, decide_eq_true_eq, List.any_eq_true]
      constructor
      · intro h
        exact ⟨.node k, (hx _).2 h, by show decide (k = k) = true; simp⟩
      · rintro ⟨x, hm, h⟩
        have hin := (hx x).1 hm
        cases x with
        | node n =>
          change decide (k = n) = true at h
          rw [decide_eq_true_eq] at h
          subst h
          exact hin
        | ifc i => cases h
  rw [e]
  unfold State.setSrlg State.updSrlg
  congr 1
  simp only []
  congr 1
  funext h
  split
  · next e => subst e; rfl
  · rfl

/-- **C107** A simulation therefore does the same after either. -/
theorem C107_same_simulation {env : Env} {s t u : State} (hw : Wired s) (hid : IdsMatch s) {g : ℕ}
    (hg : g ∈ s.srlgs) {xs : List Target} (hx : ∀ x, x ∈ xs ↔ x.InSrlg s g)
    (ht : failSrlg (s.srlg g).name s = .ok () t)
    (hu : forEach xs (fun x => x.fail s) s = .ok () u) :
    SameOutcome (updateSimulation env u) (updateSimulation env t) := by
  obtain ⟨u', h1, h2⟩ := C107_srlg_is_its_members hw hid hg hx
  rw [hu] at h1
  rw [ht] at h2
  cases h1
  cases h2
  have hn : SameNet s u := by
    have := failTargets_eq hw xs s (SameNet.frame.refl s) hid fun x h => by
      have := (hx x).1 h
      cases x with
      | node n => exact this.1
      | ifc i => exact this.1
    rw [hu] at this
    cases this
    exact fell_sameNet s _ _
  exact C55_no_carry_over env (hw.congr hn).keys
    ⟨rfl, fun _ _ => rfl, fun _ _ _ => rfl, fun _ _ => rfl, fun _ _ => rfl, fun _ _ => rfl,
      fun _ _ => rfl, fun _ _ => rfl⟩

/-- the SRLG with a node and both directions of a circuit -/
example (k : Kind) : Wired (Ex.risk k) ∧ IdsMatch (Ex.risk k) ∧ 0 ∈ (Ex.risk k).srlgs ∧
    (∀ x, x ∈ [Target.ifc 1, .node 2, .ifc 0] ↔ x.InSrlg (Ex.risk k) 0) ∧
    (∀ x, x ∈ [Target.node 2, .ifc 0, .ifc 1, .node 2] ↔ x ∈ [Target.ifc 1, .node 2, .ifc 0]) := by
  refine ⟨by cases k <;> decide +kernel, by cases k <;> decide +kernel,
    by cases k <;> decide +kernel, ?_, ?_⟩
  · have h1 : ∀ n ∈ (Ex.risk k).nodes, (0 ∈ ((Ex.risk k).node n).srlgs ↔ n = 2) := by
      cases k <;> decide +kernel
    have h2 : ∀ i ∈ (Ex.risk k).ifs, (0 ∈ ((Ex.risk k).ifc i).srlgs ↔ i = 0 ∨ i = 1) := by
      cases k <;> decide +kernel
    have h3 : 2 ∈ (Ex.risk k).nodes ∧ 0 ∈ (Ex.risk k).ifs ∧ 1 ∈ (Ex.risk k).ifs := by
      cases k <;> decide +kernel
    intro x
    cases x with
    | node n =>
      show _ ↔ NodeIn (Ex.risk k) 0 n
      unfold NodeIn
      simp only [List.mem_cons, Target.node.injEq, reduceCtorEq, List.not_mem_nil, false_or, or_false]
      exact ⟨fun h => h ▸ ⟨h3.1, (h1 2 h3.1).2 rfl⟩, fun h => (h1 n h.1).1 h.2⟩
    | ifc i =>
      show _ ↔ IfcIn (Ex.risk k) 0 i
      unfold IfcIn
      simp only [List.mem_cons, Target.ifc.injEq, reduceCtorEq, List.not_mem_nil, false_or, or_false]
      constructor
      · rintro (rfl | rfl)
        · exact ⟨h3.2.2, (h2 1 h3.2.2).2 (.inr rfl)⟩
        · exact ⟨h3.2.1, (h2 0 h3.2.1).2 (.inl rfl)⟩
      · intro h
        rcases (h2 i h.1).1 h.2 with h | h
        · exact .inr h
        · exact .inl h
  · intro x
    simp only [List.mem_cons, List.not_mem_nil, or_false]
    tauto

end NTM
