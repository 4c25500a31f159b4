import Verif.Proof.Additions
import Verif.Proof.Order
import Verif.Spec.Examples
import Verif.Props.Failure

/-!
# C47–C54: adding objects, identity keys, parallel groups and diagnostics
-/

namespace NTM

open Spec

/-! ### C48 -/

/-- **C48** However a model is built and used, starting from an empty one: no two nodes share a
name, no two interfaces (name, node), no two demands or LSPs (source, destination, name) and no
two SRLGs a name — also after calls that raised. -/
theorem C48_unique_keys {env : Env} {k : Kind} {t : State} (h : Edited env (emptyState k) t) :
    UniqueKeys t := (keyed_edited h (keyed_empty k)).1

/-- **C48**, from any model whose keys are unique and whose objects refer to its own nodes, such
as a loaded one (C64). -/
theorem C48_unique_keys_kept {env : Env} {s t : State} (h : Edited env s t) (hu : UniqueKeys s)
    (hg : Grounded s) : UniqueKeys t ∧ Grounded t := keyed_edited h ⟨hu, hg⟩

/-- A history with two nodes, a circuit, a demand, an LSP, a simulation and three rejected
duplicates. -/
def Ex.history : List Edit :=
  [.addNode "A" 0 0, .addNode "B" 0 0, .addCircuit 0 1 "ab" "ba" 10 10 100 true (.num 1),
   .addNode "A" 5 5, .addDemand "A" "B" 7 "x", .addLsp "A" "B" "l", .call (.addSrlg "g"),
   .call .simulate, .addDemand "A" "B" 9 "x",
   .addCircuit 1 0 "ba" "zz" 10 10 100 false (.num 2)]

/-- the state after a list of edits -/
def editAll (env : Env) (s : State) (es : List Edit) : State :=
  es.foldl (fun s e => finalState (e.run env) s) s

/-- every edit of the list is given objects of the model -/
def AllOnModel (env : Env) : State → List Edit → Prop
  | _, [] => True
  | s, e :: es => e.OnModel s ∧ AllOnModel env (finalState (e.run env) s) es

theorem editAll_edited {env : Env} {s t : State} (h : Edited env s t) {es : List Edit}
    (he : AllOnModel env t es) : Edited env s (editAll env t es) := by
  induction es generalizing t with
  | nil => exact h
  | cons e es ih => exact ih (.edit e h he.1) he.2

/-- the state reached, and the objects it holds -/
example (k : Kind) :
    let t := editAll Env.default (emptyState k) Ex.history
    Edited Env.default (emptyState k) t ∧ t.nodes.length = 2 ∧ t.ifs.length = 2 ∧
      t.dmds.length = 1 ∧ t.lsps.length = 1 ∧ t.srlgs.length = 1 := by
  refine ⟨editAll_edited (.start _) ⟨trivial, trivial, ⟨?_, ?_⟩, trivial, trivial, trivial, trivial,
    trivial, trivial, ⟨?_, ?_⟩, trivial⟩, ?_⟩
  · show 0 ∈ State.nodes _
    cases k <;> decide +kernel
  · show 1 ∈ State.nodes _
    cases k <;> decide +kernel
  · show 1 ∈ State.nodes _
    cases k <;> decide +kernel
  · show 0 ∈ State.nodes _
    cases k <;> decide +kernel
  · cases k <;> decide +kernel

/-- A method outside the list of **C48**: `add_network_interfaces_from_list` does not look at the
interfaces the model already has, so it can add a second interface with the same name on the
same node, without raising. -/
theorem C48_from_list_false (k : Kind) :
    let s := Ex.mk k [{ name := "A" }, { name := "B" }] (Ex.link "ab" 0 1 10 100 1) [] [] []
    let xs : List IfcSpec := match k with
      | .perf => [⟨"ab1", 10, 70, "A", "C", .num 2⟩, ⟨"ca", 10, 70, "C", "A", .num 2⟩]
      | .flex => [⟨"ab1", 10, 70, "A", "B", .num 2⟩, ⟨"ab3", 10, 70, "B", "A", .num 2⟩]
    UniqueKeys s ∧ raised (addIfcsFromList Env.default xs) s = none ∧
      ¬ UniqueKeys (finalState (addIfcsFromList Env.default xs) s) := by
  cases k <;> exact ⟨⟨by decide +kernel, by decide +kernel, by decide +kernel, by decide +kernel,
    by decide +kernel⟩, by decide +kernel, fun h => absurd h.ifs (by decide +kernel)⟩

/-! ### C47 -/

theorem unchanged_of_error {α : Type} {x : Py α} {e : Exn} {s t : State} (h : x s = .error e t)
    (hs : SameModel s t) : raised x s ≠ none ∧ SameModel s (finalState x s) := by
  unfold raised finalState
  rw [h]
  exact ⟨by simp, hs⟩

theorem getNode_error_of {s : State} {a : String} (h : a ∉ s.nodeNames) :
    ∃ e, s.getNode a = .error e := by
  cases hg : s.getNode a with
  | error e => exact ⟨e, rfl⟩
  | ok n =>
    have := getNode_ok hg
    exact absurd (List.mem_map.2 ⟨n, this.1, this.2⟩) h

/-- **C47** (part) `add_node` rejects a name that is taken, and leaves the model as it was.
Missing here and in the next four theorems: additions rejected by the validation of the extended
model, for which the claim is false (`C47_rejected_false`); see `C47_only_validation_partial`
and `C47_valid_model_partial`. -/
theorem C47_add_node_partial (env : Env) {s : State} (hg : Grounded s) {a : String}
    (ha : ∃ n ∈ s.nodes, (s.node n).name = a) (lat lon : ℚ) :
    raised (Edit.run env (.addNode a lat lon)) s ≠ none ∧
      SameModel s (finalState (Edit.run env (.addNode a lat lon)) s) := by
  refine unchanged_of_error (e := .model "A node with name already exists in the model")
    ((addNode_eq env _ lat lon s).trans ?_) (sameModel_withNode s { name := a, lat := lat, lon := lon })
  obtain ⟨n, hn, hna⟩ := ha
  simp only []
  rw [if_pos]
  refine List.mem_map.2 ⟨n, hn, ?_⟩
  rw [(sameModel_withNode s _).node n (hg.nodes n hn)]
  exact hna

/-- **C47** (part) `add_demand` rejects unknown nodes, negative traffic and a (source,
destination, name) that is taken. -/
theorem C47_add_demand_partial (env : Env) {s : State} (hg : Grounded s) {a b nm : String} {q : ℚ}
    (h : (∀ n ∈ s.nodes, (s.node n).name ≠ a) ∨ (∀ n ∈ s.nodes, (s.node n).name ≠ b) ∨ q < 0 ∨
      ∃ d ∈ s.dmds, s.dmdSrc d = a ∧ s.dmdDst d = b ∧ (s.dmd d).name = nm) :
    raised (addDemand env a b q nm) s ≠ none ∧
      SameModel s (finalState (addDemand env a b q nm) s) := by
  have heq := addDemand_eq env a b q nm s
  cases h1 : s.getNode a with
  | error e => rw [h1] at heq; exact unchanged_of_error heq (sameModel_refl s)
  | ok src =>
    rw [h1] at heq
    cases h2 : s.getNode b with
    | error e => rw [h2] at heq; exact unchanged_of_error heq (sameModel_refl s)
    | ok dst =>
      rw [h2] at heq
      simp only [] at heq
      by_cases hq : q < 0
      · rw [if_pos hq] at heq; exact unchanged_of_error heq (sameModel_refl s)
      · rw [if_neg hq, if_pos] at heq
        · exact unchanged_of_error heq (sameModel_withDmd s _)
        · rcases h with h | h | h | ⟨d, hd, k1, k2, k3⟩
          · exact absurd (getNode_ok h1).2 (h _ (getNode_ok h1).1)
          · exact absurd (getNode_ok h2).2 (h _ (getNode_ok h2).1)
          · exact absurd h hq
          · refine List.any_eq_true.2 ⟨d, hd, ?_⟩
            have hlt := (hg.dmds d hd).1
            have e1 : ¬ d = s.next := Nat.ne_of_lt hlt
            unfold State.dmdSrc at k1
            unfold State.dmdDst at k2
            simp [State.dmdKey, State.withDmd, e1, k1, k2, k3, (getNode_ok h1).2, (getNode_ok h2).2]

/-- **C47** (part) `add_rsvp_lsp` rejects unknown nodes and a (source, destination, name) that is
taken. -/
theorem C47_add_rsvp_lsp_partial (env : Env) {s : State} (hg : Grounded s) {a b nm : String}
    (h : (∀ n ∈ s.nodes, (s.node n).name ≠ a) ∨ (∀ n ∈ s.nodes, (s.node n).name ≠ b) ∨
      ∃ l ∈ s.lsps, s.lspSrc l = a ∧ s.lspDst l = b ∧ (s.lsp l).name = nm) :
    raised (addLsp env a b nm) s ≠ none ∧ SameModel s (finalState (addLsp env a b nm) s) := by
  have heq := addLsp_eq env a b nm s
  cases h1 : s.getNode a with
  | error e => rw [h1] at heq; exact unchanged_of_error heq (sameModel_refl s)
  | ok src =>
    rw [h1] at heq
    cases h2 : s.getNode b with
    | error e => rw [h2] at heq; exact unchanged_of_error heq (sameModel_refl s)
    | ok dst =>
      rw [h2] at heq
      simp only [] at heq
      rw [if_pos] at heq
      · exact unchanged_of_error heq (sameModel_withLsp s _)
      · rcases h with h | h | ⟨d, hd, k1, k2, k3⟩
        · exact absurd (getNode_ok h1).2 (h _ (getNode_ok h1).1)
        · exact absurd (getNode_ok h2).2 (h _ (getNode_ok h2).1)
        · refine List.any_eq_true.2 ⟨d, hd, ?_⟩
          have hlt := (hg.lsps d hd).1
          have e1 : ¬ d = s.next := Nat.ne_of_lt hlt
          unfold State.lspSrc at k1
          unfold State.lspDst at k2
          simp [State.lspKey, State.withLsp, e1, k1, k2, k3, (getNode_ok h1).2, (getNode_ok h2).2]

/-- **C47** (part) `add_srlg` rejects a name that is taken; nothing else can make it raise. -/
theorem C47_add_srlg_partial (s : State) (a : String) :
    (raised (addSrlg a) s ≠ none ↔ ∃ g ∈ s.srlgs, (s.srlg g).name = a) ∧
    (raised (addSrlg a) s ≠ none → finalState (addSrlg a) s = s) := by
  have heq : addSrlg a s = if s.srlgs.any fun g => (s.srlg g).name = a then
      .error (.model "SRLG with name already exists in Model") s
    else (newSrlg a >>= fun _ => pure ()) s := by
    unfold addSrlg
    rw [py_bind_ok (show (get : Py State) s = .ok s s from rfl)]
    split <;> rfl
  by_cases h : (s.srlgs.any fun g => (s.srlg g).name = a) = true
  · rw [if_pos h] at heq
    have h' := h
    rw [List.any_eq_true] at h
    simp only [decide_eq_true_eq] at h
    unfold raised finalState
    rw [heq]
    exact ⟨by simpa using h, fun _ => rfl⟩
  · rw [if_neg h] at heq
    have hnew : ∃ u, newSrlg a s = .ok s.next u := by
      unfold newSrlg
      rw [py_bind_ok (show (get : Py State) s = .ok s s from rfl)]
      rw [if_neg h]
      exact ⟨_, rfl⟩
    obtain ⟨u, hu⟩ := hnew
    have hok : raised (addSrlg a) s = none := by
      unfold raised
      rw [heq, py_bind_ok hu]
      rfl
    rw [hok]
    refine ⟨⟨fun h => absurd rfl h, ?_⟩, fun h => absurd rfl h⟩
    rintro ⟨g, hg, hga⟩
    exact absurd (List.any_eq_true.2 ⟨g, hg, by simpa using hga⟩) h

/-- **C47** (part) `add_circuit` rejects costs below 1, a capacity that is not positive, an
interface name that is taken on its node and, in a FlexModel, a circuit id that is missing or
taken. -/
theorem C47_add_circuit_partial (env : Env) {s : State} (hg : Grounded s) {a b : ℕ}
    {nA nB : String} {cA cB : ℤ} {cap : ℚ} {f : Bool} {ckt : CktId}
    (h : cA < 1 ∨ cB < 1 ∨ cap ≤ 0 ∨
      (s.kind = .flex ∧ (ckt = .none ∨ ∃ i ∈ s.ifs, (s.ifc i).cktId = ckt)) ∨
      (∃ i ∈ s.ifs, (s.ifc i).name = nA ∧ s.tail i = (s.node a).name) ∨
      (∃ i ∈ s.ifs, (s.ifc i).name = nB ∧ s.tail i = (s.node b).name)) :
    raised (addCircuit env a b nA nB cA cB cap f ckt) s ≠ none ∧
      SameModel s (finalState (addCircuit env a b nA nB cA cB cap f ckt) s) := by
  have heq := addCircuit_eq env a b nA nB cA cB cap f ckt s
  cases h1 : s.pickCktId ckt with
  | error e => rw [h1] at heq; exact unchanged_of_error heq (sameModel_refl s)
  | ok id =>
  rw [h1] at heq
  simp only [] at heq
  by_cases c1 : cA < 1
  · rw [if_pos c1] at heq; exact unchanged_of_error heq (sameModel_refl s)
  rw [if_neg c1] at heq
  by_cases c2 : 0 < cap
  swap
  · rw [if_pos c2] at heq; exact unchanged_of_error heq (sameModel_refl s)
  rw [if_neg (not_not.2 c2)] at heq
  have m1 := sameModel_withIfc s (newEnd nA cA cap a b id)
  by_cases c3 : cB < 1
  · rw [if_pos c3] at heq; exact unchanged_of_error heq m1
  rw [if_neg c3] at heq
  have m2 := SameModel.trans m1 (sameModel_withIfc (s.withIfc (newEnd nA cA cap a b id))
    (newEnd nB cB cap b a id)) (Nat.le_succ _)
  have hkey : ∀ e ∈ s.ifs, ((s.withIfc (newEnd nA cA cap a b id)).withIfc
      (newEnd nB cB cap b a id)).ifcKey e = ((s.ifc e).name, s.tail e) := by
    intro e he
    unfold State.ifcKey State.tail
    rw [m2.ifc e (hg.ifs e he).1]
    rfl
  have ki : ((s.withIfc (newEnd nA cA cap a b id)).withIfc (newEnd nB cB cap b a id)).ifcKey s.next =
      (nA, (s.node a).name) := by
    simp [State.ifcKey, State.tail, State.withIfc, newEnd]
  have kj : ((s.withIfc (newEnd nA cA cap a b id)).withIfc (newEnd nB cB cap b a id)).ifcKey
      (s.next + 1) = (nB, (s.node b).name) := by
    simp [State.ifcKey, State.tail, State.withIfc, newEnd]
  by_cases c4 : (((s.withIfc (newEnd nA cA cap a b id)).withIfc
      (newEnd nB cB cap b a id)).ifs.any fun x => ((s.withIfc (newEnd nA cA cap a b id)).withIfc
        (newEnd nB cB cap b a id)).ifcKey x = ((s.withIfc (newEnd nA cA cap a b id)).withIfc
          (newEnd nB cB cap b a id)).ifcKey s.next) = true
  · rw [if_pos c4] at heq
    exact unchanged_of_error heq m2
  rw [if_neg c4, if_pos] at heq
  · exact unchanged_of_error heq m2
  · rcases h with h | h | h | ⟨hk, h⟩ | ⟨i, hi, n1, n2⟩ | ⟨i, hi, n1, n2⟩
    · exact absurd h c1
    · exact absurd h c3
    · exact absurd c2 (not_lt.2 h)
    · exfalso
      obtain ⟨-, e2, e3⟩ := pickCktId_flex hk h1
      rcases h with h | ⟨i, hi, h⟩
      · exact e2 h
      · exact e3 i hi h
    · exact absurd (List.any_eq_true.2 ⟨i, hi, by rw [decide_eq_true_eq, hkey i hi, ki, n1, n2]⟩) c4
    · exact List.any_eq_true.2 ⟨i, hi, by rw [decide_eq_true_eq, hkey i hi, kj, n1, n2]⟩

/-- the hypotheses are met by the square model -/
example (k : Kind) : Grounded (Ex.square k) ∧
    (∃ n ∈ (Ex.square k).nodes, ((Ex.square k).node n).name = "C") ∧
    (∃ d ∈ (Ex.square k).dmds, (Ex.square k).dmdSrc d = "A" ∧ (Ex.square k).dmdDst d = "D" ∧
      ((Ex.square k).dmd d).name = "x") ∧
    (∃ i ∈ (Ex.square k).ifs, ((Ex.square k).ifc i).name = "bd1" ∧ (Ex.square k).tail i = "B") ∧
    (∃ g ∈ (Ex.risk k).srlgs, ((Ex.risk k).srlg g).name = "g") := by
  cases k <;> exact ⟨⟨by decide +kernel, by decide +kernel, by decide +kernel, by decide +kernel,
    by decide +kernel⟩, by decide +kernel, by decide +kernel, by decide +kernel, by decide +kernel⟩

/-- **C47** (part) An addition that raises and does not leave the model as it was has passed all
its own checks: it was the validation of the extended model that raised. -/
theorem C47_only_validation_partial (env : Env) {s : State} (hg : Grounded s) (hu : UniqueKeys s)
    {e : Edit} (he : e.OnModel s) (hadd : ∀ c, e ≠ .call c) (hr : raised (e.run env) s ≠ none)
    (hne : ¬ SameModel s (finalState (e.run env) s)) :
    ∃ u, Extends s u ∧ raised (validate env) u = raised (e.run env) s ∧
      finalState (validate env) u = finalState (e.run env) s := by
  have fin : ∀ {x : Py Unit} {u : State}, x s = validate env u → Extends s u →
      ∃ u, Extends s u ∧ raised (validate env) u = raised x s ∧
        finalState (validate env) u = finalState x s := by
    intro x u hx hext
    refine ⟨u, hext, ?_, ?_⟩
    · unfold raised; rw [hx]
    · unfold finalState; rw [hx]
  cases e with
  | call c => exact absurd rfl (hadd c)
  | addNode a lat lon =>
    have heq := addNode_eq env a lat lon s
    simp only [] at heq
    have hsm := sameModel_withNode s { name := a, lat := lat, lon := lon }
    split at heq
    · exact absurd (unchanged_of_error heq hsm).2 hne
    · refine fin heq ⟨⟨[s.next], rfl, by simp⟩, ⟨[], by simp [hsm.ifs], by simp⟩,
        ⟨[], by simp [hsm.dmds], by simp⟩, ⟨[], by simp [hsm.lsps], by simp⟩, rfl, ?_⟩
      exact fun r hr => ⟨hsm.node r hr, hsm.ifc r hr, hsm.dmd r hr, hsm.lsp r hr, hsm.srlg r hr⟩
  | addDemand a b q nm =>
    have heq := addDemand_eq env a b q nm s
    cases h1 : s.getNode a with
    | error x => rw [h1] at heq; exact absurd (unchanged_of_error heq (sameModel_refl s)).2 hne
    | ok src =>
      rw [h1] at heq
      cases h2 : s.getNode b with
      | error x => rw [h2] at heq; exact absurd (unchanged_of_error heq (sameModel_refl s)).2 hne
      | ok dst =>
        rw [h2] at heq
        simp only [] at heq
        have hsm := sameModel_withDmd s { src := src, dst := dst, traffic := q, name := nm }
        split at heq
        · exact absurd (unchanged_of_error heq (sameModel_refl s)).2 hne
        split at heq
        · exact absurd (unchanged_of_error heq hsm).2 hne
        · refine fin heq ⟨⟨[], by simp [hsm.nodes], by simp⟩, ⟨[], by simp [hsm.ifs], by simp⟩,
            ⟨[s.next], rfl, by simp⟩, ⟨[], by simp [hsm.lsps], by simp⟩, rfl, ?_⟩
          exact fun r hr => ⟨hsm.node r hr, hsm.ifc r hr, hsm.dmd r hr, hsm.lsp r hr, hsm.srlg r hr⟩
  | addLsp a b nm =>
    have heq := addLsp_eq env a b nm s
    cases h1 : s.getNode a with
    | error x => rw [h1] at heq; exact absurd (unchanged_of_error heq (sameModel_refl s)).2 hne
    | ok src =>
      rw [h1] at heq
      cases h2 : s.getNode b with
      | error x => rw [h2] at heq; exact absurd (unchanged_of_error heq (sameModel_refl s)).2 hne
      | ok dst =>
        rw [h2] at heq
        simp only [] at heq
        have hsm := sameModel_withLsp s { src := src, dst := dst, name := nm }
        split at heq
        · exact absurd (unchanged_of_error heq hsm).2 hne
        · refine fin heq ⟨⟨[], by simp [hsm.nodes], by simp⟩, ⟨[], by simp [hsm.ifs], by simp⟩,
            ⟨[], by simp [hsm.dmds], by simp⟩, ⟨[s.next], rfl, by simp⟩, rfl, ?_⟩
          exact fun r hr => ⟨hsm.node r hr, hsm.ifc r hr, hsm.dmd r hr, hsm.lsp r hr, hsm.srlg r hr⟩
  | addCircuit a b nA nB cA cB cap f ckt =>
    have heq := addCircuit_eq env a b nA nB cA cB cap f ckt s
    cases h1 : s.pickCktId ckt with
    | error x => rw [h1] at heq; exact absurd (unchanged_of_error heq (sameModel_refl s)).2 hne
    | ok id =>
    rw [h1] at heq
    simp only [] at heq
    by_cases c1 : cA < 1
    · rw [if_pos c1] at heq; exact absurd (unchanged_of_error heq (sameModel_refl s)).2 hne
    rw [if_neg c1] at heq
    by_cases c2 : 0 < cap
    swap
    · rw [if_pos c2] at heq; exact absurd (unchanged_of_error heq (sameModel_refl s)).2 hne
    rw [if_neg (not_not.2 c2)] at heq
    have m1 := sameModel_withIfc s (newEnd nA cA cap a b id)
    by_cases c3 : cB < 1
    · rw [if_pos c3] at heq; exact absurd (unchanged_of_error heq m1).2 hne
    rw [if_neg c3] at heq
    have m2 := SameModel.trans m1 (sameModel_withIfc (s.withIfc (newEnd nA cA cap a b id))
      (newEnd nB cB cap b a id)) (Nat.le_succ _)
    split at heq
    · exact absurd (unchanged_of_error heq m2).2 hne
    next n1 =>
    split at heq
    · exact absurd (unchanged_of_error heq m2).2 hne
    next n2 =>
    have hkey : ∀ e ∈ s.ifs, ((s.withIfc (newEnd nA cA cap a b id)).withIfc
        (newEnd nB cB cap b a id)).ifcKey e = s.ifcKey e := by
      intro e he
      unfold State.ifcKey State.tail
      rw [m2.ifc e (hg.ifs e he).1]
      rfl
    have ki : ((s.withIfc (newEnd nA cA cap a b id)).withIfc (newEnd nB cB cap b a id)).ifcKey s.next =
        (nA, (s.node a).name) := by
      simp [State.ifcKey, State.tail, State.withIfc, newEnd]
    have kj : ((s.withIfc (newEnd nA cA cap a b id)).withIfc (newEnd nB cB cap b a id)).ifcKey
        (s.next + 1) = (nB, (s.node b).name) := by
      simp [State.ifcKey, State.tail, State.withIfc, newEnd]
    have q1 : ∀ e ∈ s.ifs, s.ifcKey e ≠ (nA, (s.node a).name) := fun e he hke =>
      n1 (List.any_eq_true.2 ⟨e, he, by rw [decide_eq_true_eq, hkey e he, ki, hke]⟩)
    have q2 : ∀ e ∈ s.ifs, s.ifcKey e ≠ (nB, (s.node b).name) := fun e he hke =>
      n2 (List.any_eq_true.2 ⟨e, he, by rw [decide_eq_true_eq, hkey e he, kj, hke]⟩)
    rw [addCircuit_insert ⟨hu, hg⟩ he.1 he.2 q1 q2] at heq
    refine fin heq ⟨⟨[], by simp; rfl, by simp⟩, ?_,
      ⟨[], by simp; rfl, by simp⟩, ⟨[], by simp; rfl, by simp⟩, rfl, ?_⟩
    · simp only []
      split
      · exact ⟨[s.next], rfl, by simp⟩
      · exact ⟨[s.next, s.next + 1], rfl, by simp⟩
    · exact fun r hr => ⟨m2.node r hr, m2.ifc r hr, m2.dmd r hr, m2.lsp r hr, m2.srlg r hr⟩

/-- **C47** (part) On a model that passes `validate_model`, `add_node`, `add_demand` and
`add_rsvp_lsp` that raise leave the model as it was. -/
theorem C47_valid_model_partial (env env' : Env) {s t : State} (hg : Grounded s)
    (hh : HopsInModel s) (hset : CktIdsSet s) (hv : validate env' s = .ok () t) {e : Edit}
    (hadd : (∃ a lat lon, e = .addNode a lat lon) ∨ (∃ a b q nm, e = .addDemand a b q nm) ∨
      ∃ a b nm, e = .addLsp a b nm)
    (hr : raised (e.run env) s ≠ none) : SameModel s (finalState (e.run env) s) := by
  have stuck : ∀ {x : Py Unit} {u v : State}, x s = validate env u → validate env u = .ok () v →
      raised x s = none := by
    intro x u v h1 h2
    unfold raised
    rw [h1, h2]
  rcases hadd with ⟨a, lat, lon, rfl⟩ | ⟨a, b, q, nm, rfl⟩ | ⟨a, b, nm, rfl⟩
  · have heq := addNode_eq env a lat lon s
    simp only [] at heq
    have hsm := sameModel_withNode s { name := a, lat := lat, lon := lon }
    have hnode : ∀ n ∈ s.nodes, (s.withNode { name := a, lat := lat, lon := lon }).node n = s.node n :=
      fun n hn => hsm.node n (hg.nodes n hn)
    split at heq
    · exact (unchanged_of_error heq hsm).2
    · next hn =>
      exfalso
      have hsi : SameIfcs s { s.withNode { name := a, lat := lat, lon := lon } with
          nodes := (s.withNode { name := a, lat := lat, lon := lon }).nodes ++ [s.next] } := by
        refine ⟨rfl, rfl, fun _ _ => rfl, fun i hi => ?_, fun i hi => ?_⟩
        · exact congrArg Node.name (hnode _ (hg.ifs i hi).2.1)
        · exact congrArg Node.name (hnode _ (hg.ifs i hi).2.2)
      obtain ⟨v, hv'⟩ := validate_transfer (env' := env) hv hset hsi fun hc => by
        refine hc.congr hsi hh rfl (fun _ _ => rfl) ?_ ?_
        · intro hns n hn
          rcases List.mem_append.1 hn with h | h
          · show (State.node _ n).shortcuts = false
            rw [hnode n h]
            exact hns n h
          · rw [List.mem_singleton] at h
            subst h
            simp [State.withNode]
        · have hold : (s.nodes.map fun n => ((s.withNode { name := a, lat := lat, lon := lon }).node n).name)
              = s.nodeNames := List.map_congr_left fun n hn => by rw [hnode n hn]
          have hnames := hc.names
          have hnd : s.nodeNames.Nodup := by
            rw [← List.dedup_eq_self]
            refine (List.dedup_sublist _).eq_of_length ?_
            rw [← hnames]; simp [State.nodeNames]
          have hall : State.nodeNames { s.withNode { name := a, lat := lat, lon := lon } with
              nodes := (s.withNode { name := a, lat := lat, lon := lon }).nodes ++ [s.next] } =
              s.nodeNames ++ [a] := by
            show (List.map _ (s.nodes ++ [s.next])) = _
            rw [List.map_append]
            congr 1
            simp [State.withNode]
          have hnn : a ∉ s.nodeNames := by
            intro hm
            apply hn
            show a ∈ List.map _ s.nodes
            rw [hold]; exact hm
          have : (s.nodeNames ++ [a]).Nodup := by
            rw [List.nodup_append]
            refine ⟨hnd, by simp, ?_⟩
            intro x hx y hy hxy
            rw [List.mem_singleton] at hy
            exact hnn (hy ▸ hxy ▸ hx)
          rw [hall, List.dedup_eq_self.2 this, ← hall]
          simp [State.nodeNames]
      exact hr (stuck heq hv')
  · have heq := addDemand_eq env a b q nm s
    cases h1 : s.getNode a with
    | error x => rw [h1] at heq; exact (unchanged_of_error heq (sameModel_refl s)).2
    | ok src =>
      rw [h1] at heq
      cases h2 : s.getNode b with
      | error x => rw [h2] at heq; exact (unchanged_of_error heq (sameModel_refl s)).2
      | ok dst =>
        rw [h2] at heq
        simp only [] at heq
        have hsm := sameModel_withDmd s { src := src, dst := dst, traffic := q, name := nm }
        split at heq
        · exact (unchanged_of_error heq (sameModel_refl s)).2
        split at heq
        · exact (unchanged_of_error heq hsm).2
        · exfalso
          have hsi : SameIfcs s { s.withDmd { src := src, dst := dst, traffic := q, name := nm } with
              dmds := (s.withDmd { src := src, dst := dst, traffic := q, name := nm }).dmds ++
                [s.next] } :=
            ⟨rfl, rfl, fun _ _ => rfl, fun _ _ => rfl, fun _ _ => rfl⟩
          obtain ⟨v, hv'⟩ := validate_transfer (env' := env) hv hset hsi fun hc =>
            hc.congr hsi hh rfl (fun _ _ => rfl) (fun h => h) hc.names
          exact hr (stuck heq hv')
  · have heq := addLsp_eq env a b nm s
    cases h1 : s.getNode a with
    | error x => rw [h1] at heq; exact (unchanged_of_error heq (sameModel_refl s)).2
    | ok src =>
      rw [h1] at heq
      cases h2 : s.getNode b with
      | error x => rw [h2] at heq; exact (unchanged_of_error heq (sameModel_refl s)).2
      | ok dst =>
        rw [h2] at heq
        simp only [] at heq
        have hsm := sameModel_withLsp s { src := src, dst := dst, name := nm }
        have hlsp : ∀ l ∈ s.lsps, (s.withLsp { src := src, dst := dst, name := nm }).lsp l = s.lsp l :=
          fun l hl => hsm.lsp l (hg.lsps l hl).1
        split at heq
        · exact (unchanged_of_error heq hsm).2
        · exfalso
          have hsi : SameIfcs s { s.withLsp { src := src, dst := dst, name := nm } with
              lsps := (s.withLsp { src := src, dst := dst, name := nm }).lsps ++ [s.next] } :=
            ⟨rfl, rfl, fun _ _ => rfl, fun _ _ => rfl, fun _ _ => rfl⟩
          obtain ⟨v, hv'⟩ := validate_transfer (env' := env) hv hset hsi fun hc => by
            refine hc.congr hsi hh ?_ hlsp (fun h => h) hc.names
            show List.filter _ (s.lsps ++ [s.next]) = _
            rw [List.filter_append]
            have hnew : (List.filter (fun l =>
                !((s.withLsp { src := src, dst := dst, name := nm }).lsp l).path.saysUnrouted)
                [s.next]) = [] := by
              simp [State.withLsp, LspPath.saysUnrouted]
            refine (congrArg _ hnew).trans ?_
            rw [List.append_nil]
            exact List.filter_congr fun l hl => by rw [← hlsp l hl]
          exact hr (stuck heq hv')

/-- the LSP of `Ex.ridden` has the path A→B -/
theorem Ex.ridden_hops (k : Kind) : HopsInModel (Ex.ridden k) := by
  intro l hl is c b hp i hi
  have h0 : l = 0 := by
    have : ∀ l ∈ (Ex.ridden k).lsps, l = 0 := by cases k <;> decide +kernel
    exact this l hl
  subst h0
  have h1 : ((Ex.ridden k).lsp 0).path = .routed [0] 1 10 := by cases k <;> decide +kernel
  rw [h1] at hp
  injection hp with hp
  subst hp
  have h2 : ∀ i ∈ [0], i ∈ (Ex.ridden k).ifs := by cases k <;> decide +kernel
  exact h2 i hi

/-- a model with a routed LSP passes validation and meets the hypotheses; `add_node("A")` raises -/
example (k : Kind) : Grounded (Ex.ridden k) ∧ CktIdsSet (Ex.ridden k) ∧ HopsInModel (Ex.ridden k) ∧
    raised (validate Env.default) (Ex.ridden k) = none ∧
    raised (Edit.run Env.default (.addNode "A" 0 0)) (Ex.ridden k) ≠ none := by
  cases k <;> exact ⟨⟨by decide +kernel, by decide +kernel, by decide +kernel, by decide +kernel,
    by decide +kernel⟩, by decide +kernel, Ex.ridden_hops _, by decide +kernel, by decide +kernel⟩

/-- **C47** is false in general.  On a valid PerformanceModel, `add_circuit` of a second circuit
between two nodes raises, but both interfaces stay in the model.  In both classes, after
`fail_interface` on a circuit an LSP is routed over (C43), `add_node` of a new node raises, but
the node stays in the model. -/
theorem C47_rejected_false :
    (let s := Ex.square .perf
     let x := addCircuit Env.default 0 1 "p" "q" 10 10 100 false .none
     raised (validate Env.default) s = none ∧
     raised x s = some (.model "network interface validation failed, see returned data") ∧
     s.ifs.length = 8 ∧ (finalState x s).ifs.length = 10) ∧
    ∀ k, let s := finalState (failInterface "ab1" "A") (Ex.ridden k)
      let x := Edit.run Env.default (.addNode "N" 0 0)
      raised x s = some (.model "network interface validation failed, see returned data") ∧
      s.nodeNames = ["A", "B"] ∧ (finalState x s).nodeNames = ["A", "B", "N"] := by
  refine ⟨by decide +kernel, ?_⟩
  intro k
  cases k <;> decide +kernel

/-! ### C54 -/

/-- **C54** A successful `add_circuit` between two different nodes adds exactly two interfaces, in
opposite directions between the two nodes, with the given names, costs and capacity, both up
(also when `failed=True` is given), idle, and with a circuit id of their own; every other
interface keeps everything but possibly its circuit id, and nothing else changes. -/
theorem C54_add_circuit {env : Env} {s t : State} {a b : ℕ} {nA nB : String} {cA cB : ℤ} {cap : ℚ}
    {f : Bool} {ckt : CktId} (hu : UniqueKeys s) (hg : Grounded s) (hset : CktIdsSet s)
    (hr : RsvpReady s) (he : EndsAgree s) (ha : a ∈ s.nodes) (hb : b ∈ s.nodes) (hab : a ≠ b)
    (h : addCircuit env a b nA nB cA cB cap f ckt s = .ok () t) :
    ∃ i j, CircuitAdded s t a b nA nB cA cB cap i j :=
  ⟨_, _, (addCircuit_ok ⟨hu, hg⟩ hset hr he ha hb hab h).1⟩

/-- **C54** In a FlexModel the new interfaces have the circuit id that was given and all others
keep theirs. -/
theorem C54_flex_circuit_id {env : Env} {s t : State} {a b : ℕ} {nA nB : String} {cA cB : ℤ}
    {cap : ℚ} {f : Bool} {ckt : CktId} (hu : UniqueKeys s) (hg : Grounded s) (hset : CktIdsSet s)
    (hr : RsvpReady s) (he : EndsAgree s) (ha : a ∈ s.nodes) (hb : b ∈ s.nodes) (hab : a ≠ b)
    (hk : s.kind = .flex) (h : addCircuit env a b nA nB cA cB cap f ckt s = .ok () t) :
    ∃ i j, CircuitAdded s t a b nA nB cA cB cap i j ∧ (t.ifc i).cktId = ckt ∧
      ∀ k ∈ s.ifs, (t.ifc k).cktId = (s.ifc k).cktId := by
  have := addCircuit_ok ⟨hu, hg⟩ hset hr he ha hb hab h
  exact ⟨_, _, this.1, this.2.1 hk⟩

/-- a new circuit B–C in the square, asked for as failed -/
example (k : Kind) :
    let x := addCircuit Env.default 1 2 "bc" "cb" 5 6 40 true (.num 9)
    UniqueKeys (Ex.square k) ∧ Grounded (Ex.square k) ∧ CktIdsSet (Ex.square k) ∧
      RsvpReady (Ex.square k) ∧ EndsAgree (Ex.square k) ∧
      x (Ex.square k) = .ok () (finalState x (Ex.square k)) := by
  cases k <;> exact ⟨⟨by decide +kernel, by decide +kernel, by decide +kernel, by decide +kernel,
    by decide +kernel⟩, ⟨by decide +kernel, by decide +kernel, by decide +kernel, by decide +kernel,
    by decide +kernel⟩, by decide +kernel, by decide +kernel, by decide +kernel,
    ok_of_raised (by decide +kernel)⟩

/-- **C54**, the case left out above: both ends on the same node with the same name, both classes
add a single interface, which is a circuit with itself. -/
theorem C54_self_circuit_false (k : Kind) :
    let s := Ex.square k
    let x := addCircuit Env.default 0 0 "aa" "aa" 5 5 40 false (.num 9)
    raised x s = none ∧ (finalState x s).ifs.length = s.ifs.length + 1 := by
  cases k <;> decide +kernel

/-! ### C50, C51 -/

theorem lspGroups_empty {env : Env} {s : State} (hc : s.groups = []) :
    lspGroups env s = .ok (buildGroups env s.lsps s.lspSrc s.lspDst)
      { s with groups := buildGroups env s.lsps s.lspSrc s.lspDst } := by
  unfold lspGroups
  rw [if_neg (not_not.2 hc)]

theorem lspGroups_held {env : Env} {s : State} {g : List (String × List ℕ)} (hc : s.groups = g)
    (hg : g ≠ []) : lspGroups env s = .ok g s := by
  subst hc
  unfold lspGroups
  rw [if_pos hg]

theorem grouped_buildGroups {env : Env} {objs : List ℕ} {src dst : ℕ → String}
    (hinj : ∀ a ∈ objs.map src, ∀ b ∈ objs.map dst, ∀ a' ∈ objs.map src, ∀ b' ∈ objs.map dst,
      pairKey a b = pairKey a' b' → a = a' ∧ b = b') :
    Grouped (buildGroups env objs src dst) objs src dst := by
  refine ⟨nodup_buildGroups env objs src dst, ?_, ?_⟩
  · rintro ⟨k, l⟩ hg
    obtain ⟨a, b, -, -, -, h1, h2⟩ :=
      dictGet_buildGroups_some (dictGet_of_mem (nodup_buildGroups env objs src dst) hg)
    obtain ⟨o, ho⟩ := List.exists_mem_of_ne_nil _ h2
    exact ⟨o, ho, (mem_between.1 (h1 ▸ ho)).1⟩
  · intro o ho
    have hs : src o ∈ objs.map src := List.mem_map.2 ⟨o, ho, rfl⟩
    have hd : dst o ∈ objs.map dst := List.mem_map.2 ⟨o, ho, rfl⟩
    have hm : o ∈ between objs src dst (src o) (dst o) := mem_between.2 ⟨ho, rfl, rfl⟩
    have hne : between objs src dst (src o) (dst o) ≠ [] := fun e => by rw [e] at hm; cases hm
    have hget : dictGet (buildGroups env objs src dst) (pairKey (src o) (dst o)) =
        some (between objs src dst (src o) (dst o)) := by
      rw [dictGet_buildGroups, if_neg hne]
      exact fun a' ha' b' hb' e => hinj a' ha' b' hb' _ hs _ hd e
    refine ⟨_, mem_of_dictGet hget, rfl, fun o' => mem_between, ?_⟩
    rintro ⟨k, l⟩ hg hol
    have hgk := dictGet_of_mem (nodup_buildGroups env objs src dst) hg
    obtain ⟨a, b, hk, ha, hb, h1, -⟩ := dictGet_buildGroups_some hgk
    have := mem_between.1 (h1 ▸ hol)
    rw [h1, hk, ← this.2.1, ← this.2.2]

/-- **C50** (part: node names that do not collide when joined with a hyphen)
`parallel_demand_groups` holds every demand in exactly one group, with exactly the demands that
share its end points. -/
theorem C50_demand_groups_partial {env : Env} {s : State} (hk : KeysDistinct s) :
    Grouped (s.demandGroups env) s.dmds s.dmdSrc s.dmdDst := by
  refine grouped_buildGroups fun a ha b hb a' ha' b' hb' e => hk a ?_ b ?_ a' ?_ b' ?_ e <;>
    · unfold endNames; simp only [List.mem_append]; tauto

/-- **C50** (part: node names that do not collide) `parallel_lsp_groups`, when nothing is cached,
holds every LSP in exactly one group, with exactly the LSPs that share its end points. -/
theorem C50_lsp_groups_partial {env : Env} {s : State} (hk : KeysDistinct s) (hc : s.groups = []) :
    ∃ groups t, lspGroups env s = .ok groups t ∧ Grouped groups s.lsps s.lspSrc s.lspDst := by
  have key : Grouped (buildGroups env s.lsps s.lspSrc s.lspDst) s.lsps s.lspSrc s.lspDst := by
    refine grouped_buildGroups fun a ha b hb a' ha' b' hb' e => hk a ?_ b ?_ a' ?_ b' ?_ e <;>
    · unfold endNames; simp only [List.mem_append]; tauto
  exact ⟨_, _, lspGroups_empty hc, key⟩

/-- **C31** (part) `add_circuit` does reject the names: if an interface of the model already has
one of the two names on the node it is asked for, the call raises. -/
theorem C31_add_circuit_rejects_partial {env : Env} {s : State} {a b : ℕ} {nA nB : String}
    {cA cB : ℤ} {cap : ℚ} {f : Bool} {ckt : CktId} (hg : Grounded s) {x : ℕ} (hx : x ∈ s.ifs)
    (hsame : ((s.ifc x).name = nA ∧ s.tail x = (s.node a).name) ∨
      ((s.ifc x).name = nB ∧ s.tail x = (s.node b).name)) :
    ∃ e, raised (addCircuit env a b nA nB cA cB cap f ckt) s = some e := by
  have key : ∀ t, addCircuit env a b nA nB cA cB cap f ckt s ≠ .ok () t := by
    intro t h
    rw [addCircuit_eq] at h
    cases h1 : s.pickCktId ckt with
    | error e => rw [h1] at h; cases h
    | ok id =>
    rw [h1] at h
    simp only [] at h
    by_cases c1 : cA < 1
    · rw [if_pos c1] at h; cases h
    rw [if_neg c1] at h
    by_cases c2 : 0 < cap
    swap
    · rw [if_pos c2] at h; cases h
    rw [if_neg (not_not.2 c2)] at h
    by_cases c3 : cB < 1
    · rw [if_pos c3] at h; cases h
    rw [if_neg c3] at h
    set v := (s.withIfc (newEnd nA cA cap a b id)).withIfc (newEnd nB cB cap b a id) with hv
    have hi : v.ifc s.next = newEnd nA cA cap a b id := by simp [hv, State.withIfc]
    have hj : v.ifc (s.next + 1) = newEnd nB cB cap b a id := by simp [hv, State.withIfc]
    have hkey : v.ifcKey x = ((s.ifc x).name, s.tail x) := by
      have := (hg.ifs x hx).1
      have e1 : x ≠ s.next + 1 := by omega
      have e2 : x ≠ s.next := by omega
      simp [State.ifcKey, State.tail, hv, State.withIfc, e1, e2]
    have ki : v.ifcKey s.next = (nA, (s.node a).name) := by
      unfold State.ifcKey State.tail; rw [hi]; rfl
    have kj : v.ifcKey (s.next + 1) = (nB, (s.node b).name) := by
      unfold State.ifcKey State.tail; rw [hj]; rfl
    have hvx : x ∈ v.ifs := hx
    split at h
    · cases h
    next n1 =>
    split at h
    · cases h
    next n2 =>
    rcases hsame with ⟨q1, q2⟩ | ⟨q1, q2⟩
    · exact n1 (List.any_eq_true.2 ⟨x, hvx, by rw [hkey, ki, q1, q2]; simp⟩)
    · exact n2 (List.any_eq_true.2 ⟨x, hvx, by rw [hkey, kj, q1, q2]; simp⟩)
  unfold raised
  cases h : addCircuit env a b nA nB cA cB cap f ckt s with
  | ok u t => exact absurd h (key t)
  | error e t => exact ⟨e, rfl⟩

example (k : Kind) : Grounded (Ex.square k) ∧ 0 ∈ (Ex.square k).ifs ∧
    (((Ex.square k).ifc 0).name, (Ex.square k).tail 0) = ("ab1", "A") ∧
    ((Ex.square k).node 0).name = "A" ∧
    raised (addCircuit Env.default 0 3 "ab1" "new" 1 1 1 false (.num 9)) (Ex.square k) ≠ none ∧
    raised (addCircuit Env.default 0 3 "ab2" "new" 1 1 1 false (.num 9)) (Ex.square k) = none := by
  cases k <;> exact ⟨⟨by decide +kernel, by decide +kernel, by decide +kernel, by decide +kernel,
    by decide +kernel⟩, by decide +kernel, by decide +kernel, by decide +kernel, by decide +kernel,
    by decide +kernel⟩

/-- **C50** The names do not collide if no end point has a hyphen in its name. -/
theorem C50_no_hyphen_partial {s : State} (h : ∀ a ∈ endNames s, '-' ∉ a.toList) : KeysDistinct s :=
  keysDistinct_of_noHyphen h

example (k : Kind) : KeysDistinct (Ex.square k) ∧ (Ex.square k).groups = [] ∧
    (Ex.square k).demandGroups Env.default = [("A-D", [0]), ("A-B", [1])] := by
  cases k <;> exact ⟨by decide +kernel, by decide +kernel, by decide +kernel⟩

/-- three nodes "a", "a-b", "b-c", "c" and LSPs a→b-c and a-b→c: both pairs spell "a-b-c" -/
def Ex.hyphenated (k : Kind) : State := Ex.mk k
  [{ name := "a" }, { name := "a-b" }, { name := "b-c" }, { name := "c" }]
  (Ex.link "p" 0 2 1 10 1 ++ Ex.link "q" 1 3 1 10 2)
  [{ src := 0, dst := 2, traffic := 1, name := "x" }, { src := 1, dst := 3, traffic := 1, name := "y" }]
  [{ src := 0, dst := 2, name := "l" }, { src := 1, dst := 3, name := "m" }] []

/-- **C50** is false when names contain hyphenated: an LSP and a demand are in no group. -/
theorem C50_hyphen_false (k : Kind) :
    (∃ l ∈ (Ex.hyphenated k).lsps, ∀ g ∈ buildGroups Env.default (Ex.hyphenated k).lsps
      (Ex.hyphenated k).lspSrc (Ex.hyphenated k).lspDst, l ∉ g.2) ∧
    ∃ d ∈ (Ex.hyphenated k).dmds, ∀ g ∈ (Ex.hyphenated k).demandGroups Env.default, d ∉ g.2 := by
  cases k <;> decide +kernel

/-- **C51** (part) After a successful `update_simulation`, and however the sets were iterated,
`parallel_lsp_groups` returns groups that hold every LSP of the model. -/
theorem C51_after_simulation_partial {env env' : Env} {s s' : State} (ht : Tidy s)
    (hk : KeysDistinct s) (hrun : updateSimulation env s = .ok () s') :
    ∃ groups t, lspGroups env' s' = .ok groups t ∧ Grouped groups s'.lsps s'.lspSrc s'.lspDst := by
  obtain ⟨s1, Δ, h⟩ := sim_spec ht.dmds ht.ends ht.ckts hrun
  have hg : s'.groups = buildGroups env s.lsps s.lspSrc s.lspDst := by
    rw [h.net.2.2.2.1, h.frame.groups]
  have hk' := h.cfg.keysDistinct hk
  have hsrc : s'.lspSrc = s.lspSrc := funext h.cfg.lspSrc
  have hdst : s'.lspDst = s.lspDst := funext h.cfg.lspDst
  have key : ∀ env, Grouped (buildGroups env s'.lsps s'.lspSrc s'.lspDst) s'.lsps s'.lspSrc
      s'.lspDst := fun env => by
    refine grouped_buildGroups fun a ha b hb a' ha' b' hb' e => hk' a ?_ b ?_ a' ?_ b' ?_ e <;>
    · unfold endNames; simp only [List.mem_append]; tauto
  by_cases hc : s'.groups = []
  · exact ⟨_, _, lspGroups_empty hc, key env'⟩
  · refine ⟨s'.groups, s', lspGroups_held rfl hc, ?_⟩
    · rw [hg, ← hsrc, ← hdst, ← h.cfg.lsps]
      exact key env

/-- **C51** is false: after `update_simulation` and `add_rsvp_lsp`, the groups lack the new LSP. -/
theorem C51_stale_false (k : Kind) :
    let s := finalState (addLsp Env.default "A" "B" "m") (Ex.ridden k)
    raised (addLsp Env.default "A" "B" "m") (Ex.ridden k) = none ∧
      (s.lsps.map fun l => (s.lsp l).name) = ["l", "m"] ∧
      ∃ t, lspGroups Env.default s = .ok [("A-B", [0])] t := by
  have hc : (finalState (addLsp Env.default "A" "B" "m") (Ex.ridden k)).groups = [("A-B", [0])] := by
    cases k <;> decide +kernel
  exact ⟨by cases k <;> decide +kernel, by cases k <;> decide +kernel, _,
    lspGroups_held hc (by simp)⟩

/-! ### C52 -/

theorem length_filter_split {α : Type} (l : List α) (p q : α → Bool) :
    (l.filter fun x => p x && q x).length + (l.filter fun x => p x && !q x).length +
      (l.filter fun x => !p x).length = l.length := by
  induction l with
  | nil => rfl
  | cons x l ih =>
    cases hp : p x <;> cases hq : q x <;> simp [hp, hq] <;> omega

theorem mem_dmdsOnLsp {s : State} {l d : ℕ} : d ∈ s.dmdsOnLsp l ↔ d ∈ s.dmds ∧ RidesThe s d l := by
  unfold State.dmdsOnLsp RidesThe
  rw [List.mem_filter]
  refine and_congr_right fun _ => ?_
  cases h : (s.dmd d).path with
  | none => simp
  | some ps => simp [List.any_eq_true]

theorem dmdsOnLsp_isEmpty {s : State} {l : ℕ} :
    (s.dmdsOnLsp l).isEmpty = true ↔ ¬ ∃ d ∈ s.dmds, RidesThe s d l := by
  rw [List.isEmpty_iff, List.eq_nil_iff_forall_not_mem]
  constructor
  · rintro h ⟨d, hd, hr⟩
    exact h d (mem_dmdsOnLsp.2 ⟨hd, hr⟩)
  · intro h d hd
    exact h ⟨d, mem_dmdsOnLsp.1 hd⟩

/-- **C52** After a successful `update_simulation`, the diagnostics report: the routed LSPs with
and without demands, and the demands riding LSPs, exactly; and the counts add up to the number
of LSPs and of demands. -/
theorem C52_diagnostics {env : Env} {s s' : State} (ht : Tidy s)
    (hrun : updateSimulation env s = .ok () s') :
    let r := s'.diagnostics
    (∀ l, l ∈ r.lspsWithDemands ↔ l ∈ s'.lsps ∧ IsRouted s' l ∧ ∃ d ∈ s'.dmds, RidesThe s' d l) ∧
    (∀ l, l ∈ r.lspsNoDemands ↔ l ∈ s'.lsps ∧ IsRouted s' l ∧ ¬ ∃ d ∈ s'.dmds, RidesThe s' d l) ∧
    (∀ d, d ∈ r.dmdsOnLsps ↔ d ∈ s'.dmds ∧ ∃ l, RidesThe s' d l) ∧
    r.nLspsWithDemands = r.lspsWithDemands.length ∧ r.nLspsNoDemands = r.lspsNoDemands.length ∧
    r.nDmdsOnLsps = r.dmdsOnLsps.length ∧
    r.lspsWithDemands.Nodup ∧ r.lspsNoDemands.Nodup ∧ r.dmdsOnLsps.Nodup ∧
    r.nLspsWithDemands + r.nLspsNoDemands + r.nUnroutedLsps = s'.lsps.length ∧
    r.nDmdsOnLsps + r.nDmdsNotOnLsps = s'.dmds.length ∧
    r.nUnroutedDmds = (s'.dmds.filter fun d => (s'.dmd d).path.isNone).length := by
  obtain ⟨s1, Δ, h⟩ := sim_spec ht.dmds ht.ends ht.ckts hrun
  have hl : s'.lsps = s.lsps := h.cfg.lsps
  have hrt : ∀ l ∈ s'.lsps, ((s'.lsp l).path ≠ .unrouted ↔ IsRouted s' l) := by
    intro l hm
    rw [hl] at hm
    rcases h.basic ht hm with h1 | ⟨p, c, hd, b, h1, -⟩
    · rw [h1]
      simp only [ne_eq, not_true_eq_false, false_iff]
      rintro ⟨_, _, _, h2⟩
      rw [h1] at h2
      cases h2
    · rw [h1]
      simp only [ne_eq, reduceCtorEq, not_false_eq_true, true_iff]
      exact ⟨_, _, _, h1⟩
  have hln : s'.lsps.Nodup := hl ▸ ht.lsps
  have hdn : s'.dmds.Nodup := h.cfg.dmds ▸ ht.dmds
  intro r
  refine ⟨?_, ?_, ?_, rfl, rfl, rfl, hln.filter _, hln.filter _, hdn.filter _, ?_, ?_, ?_⟩
  · intro l
    show l ∈ s'.lsps.filter _ ↔ _
    rw [List.mem_filter]
    refine and_congr_right fun hm => ?_
    rw [Bool.and_eq_true, decide_eq_true_eq, hrt l hm, Bool.not_eq_true', Bool.eq_false_iff, ne_eq,
      dmdsOnLsp_isEmpty, not_not]
  · intro l
    show l ∈ s'.lsps.filter _ ↔ _
    rw [List.mem_filter]
    refine and_congr_right fun hm => ?_
    rw [Bool.and_eq_true, decide_eq_true_eq, hrt l hm, dmdsOnLsp_isEmpty]
  · intro d
    show d ∈ s'.dmds.filter _ ↔ _
    rw [List.mem_filter]
    refine and_congr_right fun hm => ?_
    unfold RidesThe
    cases hp : (s'.dmd d).path with
    | none => simp
    | some ps =>
      simp only [List.any_eq_true, Option.some.injEq, existsAndEq, true_and]
      constructor
      · rintro ⟨p, hp, x, hx, hxl⟩
        cases x with
        | ifc i => cases hxl
        | lsp l => exact ⟨l, p, hp, hx⟩
      · rintro ⟨l, p, hp, hx⟩
        exact ⟨p, hp, _, hx, rfl⟩
  · have := length_filter_split s'.lsps (fun l => decide ((s'.lsp l).path ≠ .unrouted))
      (fun l => !(s'.dmdsOnLsp l).isEmpty)
    have e1 : (s'.lsps.filter fun l => !decide ((s'.lsp l).path ≠ .unrouted)) =
        s'.lsps.filter fun l => (s'.lsp l).path = .unrouted := by
      refine List.filter_congr fun l _ => ?_
      simp
    simp only [Bool.not_not] at this
    rw [e1] at this
    exact this
  · show (s'.dmds.filter _).length + (s'.dmds.length - (s'.dmds.filter _).length) = _
    have := List.length_filter_le (fun d => match (s'.dmd d).path with
      | none => false
      | some ps => ps.any fun p => p.any fun x => match x with
        | .lsp _ => true
        | .ifc _ => false) s'.dmds
    exact Nat.add_sub_cancel' this
  · show (s'.dmds.filter _).length = _
    congr 1
    refine List.filter_congr fun d _ => ?_
    cases (s'.dmd d).path <;> simp

/-- one LSP with a demand on it, one without, one unrouted, and a demand on no LSP -/
def Ex.mixture (k : Kind) : State := Ex.mk k [{ name := "A" }, { name := "B" }, { name := "C" }]
  (Ex.link "ab" 0 1 1 10 1)
  [{ src := 0, dst := 1, traffic := 4, name := "x" }, { src := 1, dst := 2, traffic := 1, name := "y" }]
  [{ src := 0, dst := 1, name := "l" }, { src := 1, dst := 0, name := "m" },
   { src := 0, dst := 2, name := "n" }] []

example (k : Kind) : Tidy (Ex.mixture k) ∧ updateSimulation Env.default (Ex.mixture k) =
      .ok () (finalState (updateSimulation Env.default) (Ex.mixture k)) ∧
    let r := (finalState (updateSimulation Env.default) (Ex.mixture k)).diagnostics
    r.lspsWithDemands = [0] ∧ r.lspsNoDemands = [1] ∧ r.nUnroutedLsps = 1 ∧ r.dmdsOnLsps = [0] ∧
      r.nDmdsNotOnLsps = 1 ∧ r.nUnroutedDmds = 1 := by
  cases k <;> exact ⟨⟨by decide +kernel, by decide +kernel, by decide +kernel, by decide +kernel,
    by decide +kernel, by decide +kernel, by decide +kernel⟩, ok_of_raised (by decide +kernel),
    by decide +kernel⟩

/-- Before any simulation the diagnostics count LSPs that were never routed as routed. -/
theorem C52_before_simulation_false (k : Kind) :
    (Ex.mixture k).diagnostics.nLspsNoDemands = 3 ∧ (Ex.mixture k).diagnostics.nUnroutedLsps = 0 ∧
      ∀ l ∈ (Ex.mixture k).lsps, ¬ IsRouted (Ex.mixture k) l := by
  have hp : ∀ l ∈ (Ex.mixture k).lsps, ((Ex.mixture k).lsp l).path = .initial := by
    cases k <;> decide +kernel
  refine ⟨by cases k <;> decide +kernel, by cases k <;> decide +kernel, ?_⟩
  rintro l hl ⟨_, _, _, h⟩
  rw [hp l hl] at h
  cases h

end NTM
