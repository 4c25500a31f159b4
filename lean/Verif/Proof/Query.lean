import Verif.Proof.Frames

/-!
# Path queries of the model in terms of routes
-/

namespace NTM

open Spec

variable {s : State} {es : List ℕ}

/-- the graph with the given edges, as the model's class builds it -/
def State.graphOf (s : State) (es : List ℕ) : NxG :=
  match s.kind with
  | .perf => { nodes := s.graphNodes es, w := weightDi s.tail s.head s.costOf es }
  | .flex => { nodes := s.graphNodes es, w := weightMulti s.tail s.head s.costOf es }

/-- what the theory needs of a model: set semantics, positive costs, and no parallel links
in a PerformanceModel -/
structure Sane (s : State) : Prop where
  nodup : s.ifs.Nodup
  costs : PosCosts s
  single : s.kind = .perf → SingleLinks s

theorem mem_graphNodes (s : State) (es : List ℕ) :
    ∀ i ∈ es, s.tail i ∈ s.graphNodes es ∧ s.head i ∈ s.graphNodes es := by
  intro i hi
  unfold State.graphNodes
  constructor <;>
  · rw [List.mem_append]; left
    rw [List.mem_flatMap]
    exact ⟨i, hi, by simp⟩

theorem nodeNames_subset_graphNodes (s : State) (es : List ℕ) : s.nodeNames ⊆ s.graphNodes es := by
  intro x hx; unfold State.graphNodes; rw [List.mem_append]; exact .inr hx

theorem Sane.single_sub (h : Sane s) (hk : s.kind = .perf) (hes : es ⊆ s.ifs) :
    Single s.tail s.head es :=
  fun i hi j hj h1 h2 => h.single hk i (hes hi) j (hes hj) h1 h2

theorem graphOf_eq (s : State) (es : List ℕ) :
    s.graphOf es = ⟨s.graphNodes es, (s.graphOf es).w⟩ := by
  unfold State.graphOf; cases s.kind <;> rfl

theorem graphOf_min (h : Sane s) (hes : es ⊆ s.ifs) :
    MinWeight s.tail s.head s.costOf es (s.graphOf es).w := by
  unfold State.graphOf
  cases hk : s.kind with
  | perf => exact weightDi_min (h.single_sub hk hes)
  | flex => exact weightMulti_min

theorem graphOf_closed (h : Sane s) (hes : es ⊆ s.ifs) : (s.graphOf es).Closed := by
  rw [graphOf_eq]
  exact closed_of_min (graphOf_min h hes) (mem_graphNodes s es)

theorem graphOf_pos (h : Sane s) (hes : es ⊆ s.ifs) : (s.graphOf es).Pos := by
  rw [graphOf_eq]
  exact pos_of_min (graphOf_min h hes) (fun i hi => h.costs i (hes hi))

theorem convertPerf_toOption (s : State) (p : List String) :
    (s.convertPerf p).toOption =
      allSome ((hopsByIndex p).map fun h => s.ifcFromNodes h.1 h.2) := by
  unfold State.convertPerf
  cases allSome ((hopsByIndex p).map fun h => s.ifcFromNodes h.1 h.2) <;> rfl

theorem ifcFromNodes_single (hs : SingleLinks s) {i : ℕ} (hi : i ∈ s.ifs) :
    s.ifcFromNodes (s.tail i) (s.head i) = some i := by
  unfold State.ifcFromNodes
  cases hf : s.ifs.find? fun j => s.tail j = s.tail i && s.head j = s.head i with
  | none =>
    rw [List.find?_eq_none] at hf
    have := hf i hi
    simp at this
  | some j =>
    have h1 := List.mem_of_find?_eq_some hf
    have h2 := List.find?_some hf
    simp only [Bool.and_eq_true, decide_eq_true_eq] at h2
    rw [hs j h1 i hi h2.1 h2.2]

/-- PerformanceModel conversion: exactly the cheapest routes over the graph's edges -/
theorem perf_paths (h : Sane s) (hk : s.kind = .perf) (hes : es ⊆ s.ifs) {a b : String}
    {ps : List (List String)} (hp : (s.graphOf es).allShortestPaths a b = .ok ps) :
    ∃ l, allSome (ps.map fun p => (s.convertPerf p).toOption) = some l ∧ l.Nodup ∧
      ∀ p, p ∈ l ↔ CheapestOver s (· ∈ es) a p b := by
  rw [graphOf_eq] at hp
  simp only [convertPerf_toOption]
  exact expand_single (graphOf_min h hes) (h.single_sub hk hes) (mem_graphNodes s es)
    (fun i hi => h.costs i (hes hi))
    (pick := fun h => s.ifcFromNodes h.1 h.2)
    (fun i hi => ifcFromNodes_single (h.single hk) (hes hi)) hp

theorem convertMdg_choice (s : State) (es : List ℕ) :
    HopChoice s.tail s.head s.costOf es (weightMulti s.tail s.head s.costOf es)
      (fun h => (edgesBetween s.tail s.head es h.1 h.2).filter fun i =>
        ((edgesBetween s.tail s.head es h.1 h.2).map s.costOf).min? = some (s.costOf i)) := by
  intro x y i
  simp only [List.mem_filter, mem_edgesBetween, decide_eq_true_eq, weightMulti, and_assoc]

/-- FlexModel conversion with the graph's cheapest parallel links: exactly the cheapest
routes over the graph's edges -/
theorem flex_paths (h : Sane s) (hk : s.kind = .flex) (hes : es ⊆ s.ifs) (hnd : es.Nodup)
    {a b : String} {ps : List (List String)}
    (hp : (s.graphOf es).allShortestPaths a b = .ok ps) :
    (State.normalize (ps.map (s.convertMdg es))).Nodup ∧
      ∀ p, p ∈ State.normalize (ps.map (s.convertMdg es)) ↔ CheapestOver s (· ∈ es) a p b := by
  rw [graphOf_eq] at hp
  have hw : (s.graphOf es).w = weightMulti s.tail s.head s.costOf es := by
    unfold State.graphOf; rw [hk]
  have := expand_multi (graphOf_min h hes) (mem_graphNodes s es)
    (fun i hi => h.costs i (hes hi)) (by rw [hw]; exact convertMdg_choice s es)
    (fun hp => (hnd.filter _).filter _) hp
  unfold State.normalize
  rw [List.flatMap_map]
  exact this

theorem noPath_iff (h : Sane s) (hes : es ⊆ s.ifs) {a b : String}
    (hp : (s.graphOf es).allShortestPaths a b = .error .noPath) :
    ¬ Reachable s.tail s.head (· ∈ es) a b := by
  rw [reachable_iff_walk (graphOf_min h hes)]
  exact allShortestPaths_noPath (graphOf_closed h hes) (graphOf_pos h hes) hp

theorem ok_reachable (h : Sane s) (hes : es ⊆ s.ifs) {a b : String} {ps : List (List String)}
    (hp : (s.graphOf es).allShortestPaths a b = .ok ps) :
    Reachable s.tail s.head (· ∈ es) a b := by
  rw [reachable_iff_walk (graphOf_min h hes)]
  obtain ⟨-, h2, h3⟩ := allShortestPaths_ok (graphOf_closed h hes) (graphOf_pos h hes) hp
  obtain ⟨q, hq⟩ := List.exists_mem_of_ne_nil _ h2
  obtain ⟨r, -, hr⟩ := (h3 q).1 hq
  exact ⟨r, hr.1⟩

/-- in a graph that contains the source, unreachability is reported and nothing else -/
theorem allShortestPaths_total (h : Sane s) (hes : es ⊆ s.ifs) {a b : String}
    (ha : a ∈ s.nodeNames) :
    ((∃ ps, (s.graphOf es).allShortestPaths a b = .ok ps) ∧
      Reachable s.tail s.head (· ∈ es) a b) ∨
    ((s.graphOf es).allShortestPaths a b = .error .noPath ∧
      ¬ Reachable s.tail s.head (· ∈ es) a b) := by
  rcases allShortestPaths_cases (s.graphOf es) a b with ⟨ps, hp⟩ | hp | ⟨hp, hn⟩
  · exact .inl ⟨⟨ps, hp⟩, ok_reachable h hes hp⟩
  · exact .inr ⟨hp, noPath_iff h hes hp⟩
  · exfalso
    apply hn
    rw [graphOf_eq]
    exact nodeNames_subset_graphNodes s es ha

theorem mem_considered {inclFailed : Bool} {bw : ℚ} {rsvp : Bool} {i : ℕ} :
    i ∈ s.considered inclFailed bw rsvp ↔
      i ∈ s.ifs ∧ (inclFailed = true ∨ (s.ifc i).failed = false) ∧ bw ≤ s.reservable i ∧
        (rsvp = false ∨ (s.ifc i).rsvpEnabled = true) := by
  simp [State.considered, and_assoc]

theorem considered_sub (s : State) (a : Bool) (bw : ℚ) (b : Bool) :
    s.considered a bw b ⊆ s.ifs := fun _ hi => (mem_considered.1 hi).1

theorem mem_considered_usable {bw : ℚ} {i : ℕ} :
    i ∈ s.considered false bw false ↔ Usable s bw i := by
  rw [mem_considered]; simp [Usable]

theorem mem_considered_rsvp {bw : ℚ} {i : ℕ} :
    i ∈ s.considered false bw true ↔ RsvpUsable s bw i := by
  rw [mem_considered]; simp [RsvpUsable, Usable, and_assoc]

theorem Route.congr {tail head : ℕ → String} {ok ok' : ℕ → Prop} (h : ∀ i, ok i ↔ ok' i)
    {a b : String} {p : List ℕ} : Route tail head ok a p b ↔ Route tail head ok' a p b := by
  have : ok = ok' := funext fun i => propext (h i)
  rw [this]

theorem CheapestOver.congr {ok ok' : ℕ → Prop} (h : ∀ i, ok i ↔ ok' i) {a b : String}
    {p : List ℕ} : CheapestOver s ok a p b ↔ CheapestOver s ok' a p b := by
  have : ok = ok' := funext fun i => propext (h i)
  rw [this]

/-- a cheapest route exists as soon as some route does -/
theorem exists_cheapest {tail head : ℕ → String} {cost : ℕ → ℕ} {ok : ℕ → Prop} {a b : String}
    (h : Reachable tail head ok a b) : ∃ p, Cheapest tail head cost ok a p b := by
  obtain ⟨p, hp⟩ := h
  have : ∃ n, ∃ q, Route tail head ok a q b ∧ totalCost cost q = n := ⟨_, p, hp, rfl⟩
  classical
  obtain ⟨q, h1, h2⟩ := Nat.find_spec this
  refine ⟨q, h1, fun r hr => ?_⟩
  rw [h2]
  exact Nat.find_min' this ⟨r, hr, rfl⟩

theorem shortestLength_cheapest (h : Sane s) (hes : es ⊆ s.ifs) {a b : String} {p : List ℕ}
    (hp : CheapestOver s (· ∈ es) a p b) :
    (s.graphOf es).shortestLength a b = some (totalCost s.costOf p) := by
  have hp' := (cheapest_iff (graphOf_min h hes)).1 hp
  rw [shortestLength_eq (graphOf_closed h hes) (graphOf_pos h hes) hp'.2.1]
  exact congrArg some hp'.2.2.symm

end NTM
