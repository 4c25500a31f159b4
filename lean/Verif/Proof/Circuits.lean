import Verif.Proof.Simulation

/-!
# Consequences of a successful validation
-/

namespace NTM

open Spec

theorem opposite_symm {s : State} {i j : ℕ} (h : Opposite s i j) : Opposite s j i :=
  ⟨h.2.1.symm, h.1.symm, fun hk => (h.2.2 hk).symm⟩

/-- what `Paired` provides when circuits are determined by their ends -/
structure PairedWell (s u : State) : Prop extends Paired s u where
  single : s.kind = .perf → SingleLinks s
  set : CktIdsSet s

theorem PairedWell.first {s u : State} (h : PairedWell s u) {c : ℕ × ℕ} (hc : c ∈ u.circuits) :
    c.1 ∈ s.matchable := by
  obtain ⟨e, he, h1, h2, h3⟩ := h.src c hc
  have hi := (h.ends c hc).1
  have hei := (mem_matchable.1 he).1
  cases hk : s.kind with
  | perf => rw [h.single hk c.1 hi e hei h1 h2]; exact he
  | flex => rw [h3 hk (h.set hk e hei)]; exact he

theorem PairedWell.opposite {s u : State} (h : PairedWell s u) {c : ℕ × ℕ} (hc : c ∈ u.circuits) :
    Opposite s c.1 c.2 := by
  obtain ⟨-, -, h1, h2⟩ := h.ends c hc
  refine ⟨h1, h2, fun hk => ?_⟩
  have := h.sameId h.set c hc
  rwa [h.flexIds hk, h.flexIds hk] at this

theorem PairedWell.unique {s u : State} (h : PairedWell s u) {i j k : ℕ} (hi : i ∈ s.matchable)
    (hj : j ∈ s.ifs) (hk : k ∈ s.ifs) (h1 : Opposite s i j) (h2 : Opposite s i k) : j = k := by
  cases hkd : s.kind with
  | perf => exact h.single hkd j hj k hk (by rw [← h1.2.1, ← h2.2.1]) (by rw [← h1.1, ← h2.1])
  | flex =>
    obtain ⟨-, b, l, hb⟩ := h.found hkd i hi
    have hset := h.set hkd i (mem_matchable.1 hi).1
    have hu := (ifcsFromNodes_some hb).2.2.2 hset
    rw [hu.2 j hj h1.2.1.symm h1.1.symm (h1.2.2 hkd).symm,
      hu.2 k hk h2.2.1.symm h2.1.symm (h2.2.2 hkd).symm]

/-- interfaces `i` and `j` make up a circuit of the model -/
def Spec.Linked (s : State) (i j : ℕ) : Prop := (i, j) ∈ s.circuits ∨ (j, i) ∈ s.circuits

theorem linked_determined {s u v : State} (hu : PairedWell s u)
    (hfirst : ∀ c ∈ v.circuits, c.1 ∈ s.matchable ∧ c.2 ∈ s.ifs ∧ Opposite s c.1 c.2)
    {c : ℕ × ℕ} (hc : c ∈ v.circuits) : c ∈ u.circuits ∨ c.swap ∈ u.circuits := by
  obtain ⟨h1, h2, h3⟩ := hfirst c hc
  obtain ⟨d, hd, he⟩ := hu.cover hu.single hu.set c.1 h1
  have hend := hu.ends d hd
  rcases he with he | he
  · left
    have : c.2 = d.2 := hu.unique h1 h2 hend.2.1 h3 (by rw [he]; exact hu.opposite hd)
    have : c = d := Prod.ext he this
    rw [this]; exact hd
  · right
    have : c.2 = d.1 := hu.unique h1 h2 hend.1 h3 (by rw [he]; exact opposite_symm (hu.opposite hd))
    have : c.swap = d := Prod.ext this he
    rw [this]; exact hd

/-- the checks of `validate_model` that do not involve circuits -/
structure ValidCore (u : State) : Prop where
  hops : ∃ info, u.lspHops = .ok info ∧ ∀ i ∈ u.ifs,
    pyRound 1 (u.reservedBw i) = pyRound 1 (u.infoReserved info i)
  cap : ∀ i ∈ u.ifs, u.reservedBw i ≤ (u.ifc i).capacity
  shortcuts : u.kind = .perf → NoShortcuts u
  links : u.kind = .perf → u.multipleLinks = []
  names : u.nodes.length = u.nodeNames.dedup.length

theorem ValidOk.core {u : State} (h : ValidOk u) : ValidCore u :=
  ⟨h.hops, h.cap, h.shortcuts, h.links, h.names⟩

theorem ValidCore.ok {u : State} (h : ValidCore u)
    (hc : ∀ c ∈ u.circuits, (u.ifc c.1).capacity = (u.ifc c.2).capacity) : ValidOk u :=
  ⟨h.hops, h.cap, h.shortcuts, hc, h.links, h.names⟩

theorem ValidCore.withCkt {s : State} {C : List (ℕ × ℕ)} {B : ℕ → Bool} {I : ℕ → CktId} :
    ValidCore (s.withCkt C B I) ↔ ValidCore s :=
  ⟨fun h => ⟨h.hops, h.cap, h.shortcuts, h.links, h.names⟩,
   fun h => ⟨h.hops, h.cap, h.shortcuts, h.links, h.names⟩⟩

theorem Paired.core {s u : State} (h : Paired s u) : ValidCore u ↔ ValidCore s := by
  obtain ⟨B, I, hu⟩ := h.eq
  rw [hu]
  exact ValidCore.withCkt

/-- what a successful validation establishes -/
theorem validate_ok {env : Env} {s t : State} (h : validate env s = .ok () t) :
    ∃ u, Paired s u ∧ t = u.repair ∧ ValidOk u := of_wp_ok (validate_spec env s) h

theorem validate_well {env : Env} {s t : State} (hset : CktIdsSet s)
    (h : validate env s = .ok () t) : ∃ u, PairedWell s u ∧ t = u.repair ∧ ValidOk u := by
  obtain ⟨u, h1, h2, h3⟩ := validate_ok h
  refine ⟨u, { h1 with single := ?_, set := hset }, h2, h3⟩
  intro hk
  exact single_of_multipleLinks ((h1.core.1 h3.core).links hk)

/-- conditions under which validation succeeds -/
theorem validate_complete (env : Env) {s : State} (hm : ¬ Unmatched s)
    (hf : s.kind = .flex → ∀ e ∈ s.matchable, FlexFound s e)
    (hv : ∀ u, Paired s u → ValidOk u) : ∃ u, Paired s u ∧ validate env s = .ok () u.repair := by
  have hw := validate_spec env s
  cases h : validate env s with
  | ok _ t =>
    obtain ⟨u, h1, h2, h3⟩ := validate_ok h
    exact ⟨u, h1, by rw [h2]⟩
  | error e t =>
    obtain ⟨B, I, ⟨C, -, -, h1⟩ | ⟨u, h1, -, h3⟩⟩ := of_wp_error hw h
    · exfalso
      rcases h1 with ⟨-, h1⟩ | ⟨hk, h1 | ⟨e, he, h1⟩⟩
      · exact hm h1
      · exact hm h1
      · exact h1 (hf hk e he)
    · exact absurd (hv u h1) h3

theorem repair_failed {u : State} (h : u.circuits.Pairwise Apart) {c : ℕ × ℕ}
    (hc : c ∈ u.circuits) : (u.repair.ifc c.1).failed = ((u.ifc c.1).failed || (u.ifc c.2).failed) ∧
      (u.repair.ifc c.2).failed = ((u.ifc c.1).failed || (u.ifc c.2).failed) := by
  have key : ∀ i, IsEnd i c → (u.misIn u.circuits i = true ↔
      (u.ifc c.1).failed ≠ (u.ifc c.2).failed) := by
    intro i hi
    rw [misIn_iff]
    constructor
    · rintro ⟨d, hd, he, hne⟩
      rw [pairwise_unique h hc hd hi he]
      exact hne
    · intro hne
      exact ⟨c, hc, hi, hne⟩
  unfold State.repair State.repairOver
  simp only []
  by_cases hne : (u.ifc c.1).failed ≠ (u.ifc c.2).failed
  · rw [(key c.1 (.inl rfl)).2 hne, (key c.2 (.inr rfl)).2 hne]
    simp only [if_true]
    cases h1 : (u.ifc c.1).failed <;> cases h2 : (u.ifc c.2).failed <;> simp_all
  · have e1 : u.misIn u.circuits c.1 = false := by
      by_contra hm
      exact hne ((key c.1 (.inl rfl)).1 (by simpa using hm))
    have e2 : u.misIn u.circuits c.2 = false := by
      by_contra hm
      exact hne ((key c.2 (.inr rfl)).1 (by simpa using hm))
    rw [e1, e2]
    simp only [Bool.false_eq_true, if_false]
    push Not at hne
    rw [hne]; simp

theorem ifcEq_refl (s : State) (i : ℕ) : s.ifcEq i i = true := by
  unfold State.ifcEq; simp

theorem ifcListEq_refl (s : State) (l : List ℕ) : s.ifcListEq l l = true := by
  induction l with
  | nil => rfl
  | cons i l ih => unfold State.ifcListEq; rw [ifcEq_refl, ih]; rfl

/-- the remote interface, when only one candidate exists -/
theorem remoteIfc_eq {s : State} {i j : ℕ} (hj : j ∈ s.ifs) (h1 : s.tail j = s.head i)
    (h2 : s.head j = s.tail i) (h3 : (s.ifc j).cktId = (s.ifc i).cktId)
    (hu : ∀ k ∈ s.ifs, s.tail k = s.head i → (s.ifc k).cktId = (s.ifc i).cktId → k = j) :
    s.remoteIfc i = .ok j := by
  unfold State.remoteIfc
  cases hf : s.ifs.find? fun j => s.tail j = s.head i && decide ((s.ifc j).cktId = (s.ifc i).cktId) with
  | none =>
    rw [List.find?_eq_none] at hf
    exact absurd (by simp [h1, h3]) (hf j hj)
  | some k =>
    have hk := List.find?_some hf
    have hkm := List.mem_of_find?_eq_some hf
    simp only [Bool.and_eq_true, decide_eq_true_eq] at hk
    have : k = j := hu k hkm hk.1 hk.2
    subst this
    simp only [h2]
    rw [if_pos (ifcListEq_refl s _)]

end NTM
