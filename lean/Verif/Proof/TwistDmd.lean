import Verif.Proof.Twist
import Verif.Proof.DmdPhase

/-!
# Metrics and riding decisions of states that agree but for an overlay
-/

namespace NTM

open Spec

theorem Plain.convertFlex {s : State} (h : Plain s) {needed : ℚ} {x : Bool}
    {nodes : List String}
    (hnodes : ∀ i ∈ s.considered false needed x, s.tail i ∈ nodes ∧ s.head i ∈ nodes)
    {a b : String} {ps : List (List String)}
    (hp : NxG.allShortestPaths
      ⟨nodes, weightDi s.tail s.head s.costOf (s.considered false needed x)⟩ a b = .ok ps) :
    allSome (ps.map fun p => (s.convertPerf p).toOption) =
      some (State.normalize (ps.map (s.convertFlex needed))) := by
  unfold State.normalize
  rw [List.flatMap_map]
  refine allSome_flatMap fun np hnp => ?_
  obtain ⟨e, hh⟩ := h.hop (considered_sub s _ _ _) (h.nodup.filter _) hnodes hp hnp
  rw [convertPerf_toOption, e]
  have key : ∀ x ∈ hops np, ∃ y, s.ifcFromNodes x.1 x.2 = some y ∧
      ((s.ifs.filter fun i => s.tail i = x.1 && s.head i = x.2).filter fun i =>
        decide (needed ≤ s.reservable i)) = [y] := by
    intro hop hx
    obtain ⟨i, hi, h1, h2, h3, -⟩ := hh hop hx
    refine ⟨i, h3, ?_⟩
    have hc := List.mem_filter.1 hi
    have hm : i ∈ (s.ifs.filter fun i => s.tail i = hop.1 && s.head i = hop.2).filter fun i =>
        decide (needed ≤ s.reservable i) := by
      rw [List.mem_filter, List.mem_filter]
      refine ⟨⟨hc.1, by simp [h1, h2]⟩, ?_⟩
      have := hc.2
      simp only [Bool.and_eq_true] at this
      exact this.1.2
    have hnd : ((s.ifs.filter fun i => s.tail i = hop.1 && s.head i = hop.2).filter fun i =>
        decide (needed ≤ s.reservable i)).Nodup := (h.nodup.filter _).filter _
    have hall : ∀ j ∈ (s.ifs.filter fun i => s.tail i = hop.1 && s.head i = hop.2).filter fun i =>
        decide (needed ≤ s.reservable i), j = i := by
      intro j hj
      rw [List.mem_filter, List.mem_filter] at hj
      obtain ⟨⟨g1, g2⟩, -⟩ := hj
      simp only [Bool.and_eq_true, decide_eq_true_eq] at g2
      exact h.single j g1 i hc.1 (g2.1.trans h1.symm) (g2.2.trans h2.symm)
    generalize ((s.ifs.filter fun i => s.tail i = hop.1 && s.head i = hop.2).filter fun i =>
        decide (needed ≤ s.reservable i)) = L at hm hnd hall
    cases L with
    | nil => cases hm
    | cons j L =>
      have := hall j (by simp)
      subst this
      cases L with
      | nil => rfl
      | cons k L =>
        have := hall k (by simp)
        subst this
        simp at hnd
  refine ⟨_, allSome_flatMap key, ?_⟩
  unfold State.convertFlex
  rw [e, map_singletons key, pyProduct_singletons]

section
variable {s : State} {o : Ov}

theorem twist_getShortestPath (hk : o.kind = s.kind ∨ Plain s) (a b : String) (needed : ℚ) :
    (s.twist o).getShortestPath a b needed = s.getShortestPath a b needed := by
  have hc : Plain s → ({ s with kind := .perf } : State).getShortestPath a b needed =
      ({ s with kind := .flex } : State).getShortestPath a b needed := by
    intro h
    show (match (s.graphPerf false needed false).allShortestPaths a b with
      | .error _ => (⟨[], none⟩ : State.PathResult)
      | .ok ps =>
        match allSome (ps.map fun p => (s.convertPerf p).toOption) with
        | some l => ⟨l, (s.graphPerf false needed false).shortestLength a b⟩
        | none => ⟨[], none⟩) =
      match (s.graphFlex false needed false).allShortestPaths a b with
      | .error _ => (⟨[], none⟩ : State.PathResult)
      | .ok ps => ⟨State.normalize (ps.map (s.convertFlex needed)),
          (s.graphFlex false needed false).shortestLength a b⟩
    have hg : s.graphFlex false needed false = s.graphPerf false needed false := by
      unfold State.graphFlex State.graphPerf
      simp only []
      rw [weightMulti_eq (h.single_sub (considered_sub s _ _ _)) (h.nodup.filter _)]
    rw [hg]
    cases hr : (s.graphPerf false needed false).allShortestPaths a b with
    | error e => rfl
    | ok ps =>
      simp only []
      rw [h.convertFlex (mem_graphNodes s _) hr]
  have e1 : (s.twist o).getShortestPath a b needed =
      ({ s with kind := o.kind } : State).getShortestPath a b needed := rfl
  have e2 : s.getShortestPath a b needed =
      ({ s with kind := s.kind } : State).getShortestPath a b needed := rfl
  rcases hk with h | h
  · rw [e1, h]
  · have e3 : ∀ k k' : Kind, ({ s with kind := k } : State).getShortestPath a b needed =
        ({ s with kind := k' } : State).getShortestPath a b needed := by
      intro k k'
      cases k <;> cases k'
      exacts [rfl, hc h, (hc h).symm, rfl]
    exact e1.trans ((e3 _ _).trans e2.symm)

theorem manualView_res (x : Lsp) (r : Bw) (u : Option ℚ) :
    Lsp.manualView { x with reserved := r, setup := u } = x.manualView := by
  unfold Lsp.manualView Lsp.readMetric
  cases x.initialMetric with
  | none => rfl
  | some m =>
    simp only []
    split
    · rfl
    · split <;> rfl

theorem twist_effMetric (hk : o.kind = s.kind ∨ Plain s) (l : ℕ) :
    (s.twist o).effMetric l = s.effMetric l := by
  unfold State.effMetric
  have e : ((s.twist o).lsp l).manualView = (s.lsp l).manualView :=
    manualView_res (s.lsp l) (o.res l) (o.setup l)
  rw [twist_getShortestPath hk, e]
  rfl

theorem twist_effMetrics (hk : o.kind = s.kind ∨ Plain s) (ls : List ℕ) :
    (s.twist o).effMetrics ls = s.effMetrics ls := by
  induction ls with
  | nil => rfl
  | cons l ls ih =>
    unfold State.effMetrics
    rw [ih, twist_effMetric hk]

theorem twist_withMetric (hk : o.kind = s.kind ∨ Plain s) (m : Metric) (ls : List ℕ) :
    (s.twist o).withMetric m ls = s.withMetric m ls := by
  unfold State.withMetric
  refine List.filter_congr fun l _ => ?_
  rw [twist_effMetric hk]

theorem RidingOf.twist (hk : o.kind = s.kind ∨ Plain s) {key : String} {ls : List ℕ} :
    RidingOf (s.twist o) key ls ↔ RidingOf s key ls := by
  unfold RidingOf
  simp only [twist_effMetrics hk, twist_withMetric hk]
  exact Iff.rfl

end

end NTM
