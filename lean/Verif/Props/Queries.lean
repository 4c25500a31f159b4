import Verif.Proof.Enumerate
import Verif.Props.Routing
import Verif.Model.Load

/-!
# C57–C60, C23, C24: path queries and LSP metrics
-/

namespace NTM

open Spec

/-- the answer `r` to "the cheapest paths from `a` to `b` with bandwidth `bw`" is right: all of
them, nothing else, each once, and their common cost; no cost if there is no path -/
structure Spec.AllCheapest (s : State) (bw : ℚ) (a b : String) (paths : List (List ℕ))
    (cost : Option ℕ) : Prop where
  once : paths.Nodup
  exact : ∀ p, p ∈ paths ↔ CheapestOver s (Usable s bw) a p b
  value : ∀ p ∈ paths, cost = some (totalCost (fun i => (s.ifc i).cost) p)
  nothing : paths = [] → cost = none

theorem graphPerf_graphOf {s : State} (hk : s.kind = .perf) (x : Bool) (bw : ℚ) (y : Bool) :
    s.graphPerf x bw y = s.graphOf (s.considered x bw y) := by
  unfold State.graphPerf State.graphOf; rw [hk]

theorem graphFlex_graphOf {s : State} (hk : s.kind = .flex) (x : Bool) (bw : ℚ) (y : Bool) :
    s.graphFlex x bw y = s.graphOf (s.considered x bw y) := by
  unfold State.graphFlex State.graphOf; rw [hk]

theorem cheapestOver_considered {s : State} {bw : ℚ} {a b : String} {p : List ℕ} :
    CheapestOver s (· ∈ s.considered false bw false) a p b ↔ CheapestOver s (Usable s bw) a p b :=
  CheapestOver.congr fun _ => mem_considered_usable

theorem reachable_considered {s : State} {bw : ℚ} {a b : String} :
    Reachable s.tail s.head (· ∈ s.considered false bw false) a b ↔
      Reachable s.tail s.head (Usable s bw) a b :=
  exists_congr fun _ => Route.congr fun _ => mem_considered_usable

/-- the reported cost is right in both classes -/
theorem shortest_cost {s : State} (hs : Sane s) {a b : String} (ha : a ∈ s.nodeNames) (bw : ℚ) :
    (∀ p, CheapestOver s (Usable s bw) a p b →
      (s.getShortestPath a b bw).cost = some (totalCost (fun i => (s.ifc i).cost) p)) ∧
    (¬ Reachable s.tail s.head (Usable s bw) a b → s.getShortestPath a b bw = ⟨[], none⟩) := by
  have hes := considered_sub s false bw false
  unfold State.getShortestPath
  cases hk : s.kind with
  | perf =>
    simp only [graphPerf_graphOf hk]
    rcases allShortestPaths_total hs hes (b := b) ha with ⟨⟨ps, hp⟩, hr⟩ | ⟨hp, hr⟩
    · obtain ⟨l, h1, h2, h3⟩ := perf_paths hs hk hes hp
      rw [hp]
      simp only [h1]
      refine ⟨fun p hc => ?_, fun hn => absurd (reachable_considered.1 hr) hn⟩
      exact shortestLength_cheapest hs hes (cheapestOver_considered.2 hc)
    · rw [hp]
      exact ⟨fun p hc => absurd (reachable_considered.2 ⟨p, hc.1⟩) hr, fun _ => rfl⟩
  | flex =>
    simp only [graphFlex_graphOf hk]
    rcases allShortestPaths_total hs hes (b := b) ha with ⟨⟨ps, hp⟩, hr⟩ | ⟨hp, hr⟩
    · rw [hp]
      refine ⟨fun p hc => ?_, fun hn => absurd (reachable_considered.1 hr) hn⟩
      exact shortestLength_cheapest hs hes (cheapestOver_considered.2 hc)
    · rw [hp]
      exact ⟨fun p hc => absurd (reachable_considered.2 ⟨p, hc.1⟩) hr, fun _ => rfl⟩

theorem allCheapest_of {s : State} (hs : Sane s) {a b : String} (ha : a ∈ s.nodeNames) (bw : ℚ)
    (h : Reachable s.tail s.head (Usable s bw) a b →
      (s.getShortestPath a b bw).paths.Nodup ∧ ∀ p, p ∈ (s.getShortestPath a b bw).paths ↔
        CheapestOver s (Usable s bw) a p b) :
    AllCheapest s bw a b (s.getShortestPath a b bw).paths (s.getShortestPath a b bw).cost := by
  obtain ⟨h1, h2⟩ := shortest_cost hs (b := b) ha bw
  by_cases hr : Reachable s.tail s.head (Usable s bw) a b
  · obtain ⟨h3, h4⟩ := h hr
    refine ⟨h3, h4, fun p hp => h1 p ((h4 p).1 hp), fun he => ?_⟩
    obtain ⟨p, hp⟩ := exists_cheapest (cost := fun i => (s.ifc i).cost) hr
    rw [he] at h4
    exact absurd ((h4 p).2 hp) (by simp)
  · rw [h2 hr]
    exact ⟨List.nodup_nil, fun p => ⟨fun h => by simp at h, fun h => absurd ⟨p, h.1⟩ hr⟩,
      fun p hp => by simp at hp, fun _ => rfl⟩

/-- **C57** In a PerformanceModel without parallel links, `get_shortest_path(a, b, bw)` from a
node of the model returns all cheapest paths over non-failed interfaces with at least `bw`
reservable bandwidth, nothing else, each once, with their cost; `{'path': [], 'cost': None}` if
there is none. -/
theorem C57_shortest_path_perf {s : State} (hk : s.kind = .perf) (hnd : s.ifs.Nodup)
    (hc : PosCosts s) (hs : SingleLinks s) {a b : String} (ha : a ∈ s.nodeNames) (bw : ℚ) :
    AllCheapest s bw a b (s.getShortestPath a b bw).paths (s.getShortestPath a b bw).cost := by
  have hsane : Sane s := ⟨hnd, hc, fun _ => hs⟩
  apply allCheapest_of hsane ha
  intro hr
  have hes := considered_sub s false bw false
  unfold State.getShortestPath
  simp only [hk, graphPerf_graphOf hk]
  rcases allShortestPaths_total hsane hes (b := b) ha with ⟨⟨ps, hp⟩, -⟩ | ⟨hp, hr'⟩
  · obtain ⟨l, h1, h2, h3⟩ := perf_paths hsane hk hes hp
    rw [hp]
    simp only [h1]
    exact ⟨h2, fun p => (h3 p).trans cheapestOver_considered⟩
  · exact absurd (reachable_considered.2 hr) hr'

/-- every interface joins two nodes of the model -/
def Spec.EndsKnown (s : State) : Prop :=
  ∀ i ∈ s.ifs, s.tail i ∈ s.nodeNames ∧ s.head i ∈ s.nodeNames

theorem Route.end_known {s : State} {bw : ℚ} (hk : EndsKnown s) {a b : String} {p : List ℕ}
    (h : Route s.tail s.head (Usable s bw) a p b) : b = a ∨ b ∈ s.nodeNames := by
  have := Route.last h
  cases p with
  | nil => simp at this; exact .inl this.symm
  | cons i p =>
    right
    rw [List.map_cons, List.getLast?_cons_cons] at this
    have hm := List.mem_of_getLast? this
    rw [← List.map_cons, List.mem_map] at hm
    obtain ⟨j, hj, rfl⟩ := hm
    exact (hk j (Route.mem_ok h j hj).1).2

/-- **C57** / **C58** If either end is not a node of the model the answer is
`{'path': [], 'cost': None}`. -/
theorem C57_unknown_node {s : State} (hnd : s.ifs.Nodup) (hc : PosCosts s)
    (hs : s.kind = .perf → SingleLinks s) (hek : EndsKnown s) {a b : String}
    (h : a ∉ s.nodeNames ∨ b ∉ s.nodeNames) (bw : ℚ) :
    s.getShortestPath a b bw = ⟨[], none⟩ := by
  by_cases ha : a ∈ s.nodeNames
  · have hb := h.resolve_left (fun h => h ha)
    apply (shortest_cost ⟨hnd, hc, hs⟩ ha bw).2
    rintro ⟨p, hp⟩
    rcases Route.end_known hek hp with rfl | h'
    · exact hb ha
    · exact hb h'
  · have hg : ∀ es ⊆ s.ifs, a ∉ s.graphNodes es := by
      intro es hes hm
      unfold State.graphNodes at hm
      rw [List.mem_append, List.mem_flatMap] at hm
      rcases hm with ⟨i, hi, hm⟩ | hm
      · have := hek i (hes hi)
        simp only [List.mem_cons, List.not_mem_nil, or_false] at hm
        rcases hm with rfl | rfl
        · exact ha this.1
        · exact ha this.2
      · exact ha hm
    have hnf : ∀ w, NxG.allShortestPaths ⟨s.graphNodes (s.considered false bw false), w⟩ a b =
        .error .nodeNotFound := by
      intro w
      unfold NxG.allShortestPaths
      rw [if_neg (hg _ (considered_sub s _ _ _))]
    unfold State.getShortestPath State.graphPerf State.graphFlex
    cases s.kind <;> simp [hnf]

/-- **C58** (FlexModel, partial) Without parallel links `get_shortest_path` of a FlexModel is as
in C57. -/
theorem C58_shortest_path_flex_partial {s : State} (hk : s.kind = .flex) (hnd : s.ifs.Nodup)
    (hc : PosCosts s) (hs : SingleLinks s) {a b : String} (ha : a ∈ s.nodeNames) (bw : ℚ) :
    AllCheapest s bw a b (s.getShortestPath a b bw).paths (s.getShortestPath a b bw).cost := by
  have hsane : Sane s := ⟨hnd, hc, fun _ => hs⟩
  apply allCheapest_of hsane ha
  intro hr
  have hes := considered_sub s false bw false
  unfold State.getShortestPath
  simp only [hk, graphFlex_graphOf hk]
  rcases allShortestPaths_total hsane hes (b := b) ha with ⟨⟨ps, hp⟩, -⟩ | ⟨hp, hr'⟩
  · rw [hp]
    obtain ⟨h2, h3⟩ := flex_single hsane hs hk hes (hnd.filter _)
      (fun i hi => (mem_considered_usable.1 hi).2.2) hp
    exact ⟨h2, fun p => (h3 p).trans cheapestOver_considered⟩
  · exact absurd (reachable_considered.2 hr) hr'

/-- **C58** (FlexModel, partial) With parallel links, too, every cheapest path is returned and
the cost is right, and without a path the answer is empty; missing is that nothing else is
returned, which is false (`C58_flex_false`). -/
theorem C58_shortest_path_complete_partial {s : State} (hk : s.kind = .flex) (hnd : s.ifs.Nodup)
    (hc : PosCosts s) {a b : String} (ha : a ∈ s.nodeNames) (bw : ℚ) :
    (∀ p, CheapestOver s (Usable s bw) a p b → p ∈ (s.getShortestPath a b bw).paths ∧
      (s.getShortestPath a b bw).cost = some (totalCost (fun i => (s.ifc i).cost) p)) ∧
    (¬ Reachable s.tail s.head (Usable s bw) a b →
      (s.getShortestPath a b bw).paths = [] ∧ (s.getShortestPath a b bw).cost = none) := by
  have hsane : Sane s := ⟨hnd, hc, by rw [hk]; intro e; cases e⟩
  obtain ⟨h1, h2⟩ := shortest_cost hsane (b := b) ha bw
  refine ⟨fun p hp => ⟨?_, h1 p hp⟩, fun hn => by rw [h2 hn]; exact ⟨rfl, rfl⟩⟩
  have hes := considered_sub s false bw false
  unfold State.getShortestPath
  simp only [hk, graphFlex_graphOf hk]
  rcases allShortestPaths_total hsane hes (b := b) ha with ⟨⟨ps, hps⟩, -⟩ | ⟨hps, hr'⟩
  · rw [hps]
    exact flex_cheapest_mem hsane hk hes (hnd.filter _)
      (fun i hi => (mem_considered_usable.1 hi).2.2) hps (cheapestOver_considered.2 hp)
  · exact absurd (reachable_considered.2 ⟨p, hp.1⟩) hr'

/-- Three parallel A–B circuits: the usual one, a more expensive one and a failed one. -/
def Ex.costly : State := Ex.mk .flex
  [{ name := "A" }, { name := "B" }]
  (Ex.link "p" 0 1 10 100 1 ++ Ex.link "q" 0 1 20 100 2 ++
    (Ex.link "r" 0 1 10 100 3).map (fun i => { i with failed := true }))
  [] [] []

/-- **C58** is false with parallel links: the answer contains the more expensive and the failed
link. -/
theorem C58_flex_false : (Ex.costly.getShortestPath "A" "B" 0).paths = [[0], [2], [4]] ∧
    ¬ ∀ (s : State) (bw : ℚ) (a b : String), s.kind = .flex → Tidy s → a ∈ s.nodeNames →
      AllCheapest s bw a b (s.getShortestPath a b bw).paths (s.getShortestPath a b bw).cost := by
  refine ⟨by decide +kernel, fun h => ?_⟩
  have hr := h Ex.costly 0 "A" "B" rfl (by decide +kernel) (by decide +kernel)
  have h1 := (hr.exact [4]).1 (by decide +kernel)
  have h2 := Route.mem_ok h1.1 4 (by simp)
  revert h2
  decide +kernel

/-- C57, C58: the square, from A to D -/
example (k : Kind) : (Ex.square k).kind = k ∧ (Ex.square k).ifs.Nodup ∧ PosCosts (Ex.square k) ∧
    SingleLinks (Ex.square k) ∧ "A" ∈ (Ex.square k).nodeNames ∧
    ((Ex.square k).getShortestPath "A" "D" 50).paths = [[0, 2], [4, 6]] ∧
    ((Ex.square k).getShortestPath "A" "D" 50).cost = some 20 ∧
    ((Ex.square k).getShortestPath "A" "D" 150).paths = [] ∧
    ((Ex.square k).getShortestPath "A" "Z" 50).paths = [] := by
  cases k <;> decide +kernel

/-- interface `i` may be used by a path of `get_all_paths_reservable_bw` -/
def Spec.Allowed (s : State) (inclFailed : Bool) (bw : ℚ) (i : ℕ) : Prop :=
  i ∈ s.ifs ∧ (inclFailed = true ∨ (s.ifc i).failed = false) ∧ bw ≤ s.reservable i

theorem mem_considered_allowed {s : State} {x : Bool} {bw : ℚ} {i : ℕ} :
    i ∈ s.considered x bw false ↔ Allowed s x bw i := by
  rw [mem_considered]; simp [Allowed]

theorem simpleRoute_allowed {s : State} {x : Bool} {bw : ℚ} {a b : String} {p : List ℕ} :
    SimpleRoute s.tail s.head (· ∈ s.considered x bw false) a p b ↔
      SimpleRoute s.tail s.head (Allowed s x bw) a p b :=
  and_congr_left' (Route.congr fun _ => mem_considered_allowed)

/-- **C59** `get_all_paths_reservable_bw` between two different nodes of the model returns
exactly the contiguous paths that visit no node twice, have at most `cutoff` hops and use only
interfaces with enough reservable bandwidth (non-failed ones unless failed ones are asked for),
each once: in a model without parallel links, and in a FlexModel with parallel links when failed
interfaces are included.  (For equal end points networkx yields nothing.) -/
theorem C59_all_paths {s : State} (hnd : s.ifs.Nodup) (hc : PosCosts s) {inclFailed : Bool}
    (hs : SingleLinks s ∨ s.kind = .flex ∧ inclFailed = true) {a b : String}
    (ha : a ∈ s.nodeNames) (hb : b ∈ s.nodeNames) (hab : a ≠ b) (cutoff : ℕ) (bw : ℚ) :
    ∃ l, s.getAllPaths a b inclFailed cutoff bw = .ok l ∧ l.Nodup ∧
      ∀ p, p ∈ l ↔ SimpleRoute s.tail s.head (Allowed s inclFailed bw) a p b ∧
        p.length ≤ cutoff := by
  have hsane : Sane s := ⟨hnd, hc, fun hk => hs.resolve_right fun h => by
    rw [hk] at h; cases h.1⟩
  have hes := considered_sub s inclFailed bw false
  have hsp : ∀ w, NxG.allSimplePaths ⟨s.graphNodes (s.considered inclFailed bw false), w⟩ a b
      cutoff = .ok ((NxG.simplePaths ⟨s.graphNodes (s.considered inclFailed bw false), w⟩ a
        b).filter fun p => p.length ≤ cutoff + 1) := by
    intro w
    unfold NxG.allSimplePaths
    rw [if_pos ⟨nodeNames_subset_graphNodes s _ ha, nodeNames_subset_graphNodes s _ hb⟩,
      if_neg hab]
  unfold State.getAllPaths
  cases hk : s.kind with
  | perf =>
    simp only [graphPerf_graphOf hk]
    have hg := graphOf_eq s (s.considered inclFailed bw false)
    obtain ⟨l, h1, h2, h3⟩ := perf_simple hsane hk hes a b cutoff
    rw [hg] at h1 ⊢
    rw [hsp]
    simp only [h1]
    exact ⟨l, rfl, h2, fun p => (h3 p).trans (and_congr_left' simpleRoute_allowed)⟩
  | flex =>
    simp only [graphFlex_graphOf hk]
    have hg := graphOf_eq s (s.considered inclFailed bw false)
    have hfl := flex_simple hsane hes a b cutoff (needed := bw)
      (fun i hi => (mem_considered_allowed.1 hi).2.2) (fun i hi hbw => by
        rintro ⟨j, hj, e1, e2⟩
        rcases hs with hs | ⟨-, hx⟩
        · have := hs j (hes hj) i hi e1 e2
          rw [← this]; exact hj
        · exact mem_considered_allowed.2 ⟨hi, .inl hx, hbw⟩)
    rw [hg] at hfl ⊢
    rw [hsp]
    exact ⟨_, rfl, hfl.1, fun p => (hfl.2 p).trans (and_congr_left' simpleRoute_allowed)⟩

/-- the square with a cutoff of two hops and of one -/
example (k : Kind) : (Ex.square k).ifs.Nodup ∧ PosCosts (Ex.square k) ∧
    SingleLinks (Ex.square k) ∧ "A" ∈ (Ex.square k).nodeNames ∧ "D" ∈ (Ex.square k).nodeNames ∧
    (Ex.square k).getAllPaths "A" "D" false 2 0 = .ok [[0, 2], [4, 6]] ∧
    (Ex.square k).getAllPaths "A" "B" false 10 0 = .ok [[0], [4, 6, 3]] ∧
    (Ex.square k).getAllPaths "A" "B" false 2 0 = .ok [[0]] := by
  cases k <;> decide +kernel

/-- **C59** is false for a FlexModel with parallel links when failed interfaces are not asked
for: the answer contains the failed parallel link. -/
theorem C59_flex_parallel_false : Tidy Ex.costly ∧
    Ex.costly.getAllPaths "A" "B" false 5 0 = .ok [[0], [2], [4]] ∧
    (Ex.costly.ifc 4).failed = true := by decide +kernel

/-- **C60** Normalising hop-choice lists yields exactly the sequences that pick one interface
per hop, in order, of one of the lists ... -/
theorem C60_normalize_mem (paths : List (List (List ℕ))) (p : List ℕ) :
    p ∈ State.normalize paths ↔
      ∃ hs ∈ paths, p.length = hs.length ∧ ∀ (k : ℕ) (h1 : k < p.length) (h2 : k < hs.length),
        p[k] ∈ hs[k] := by
  unfold State.normalize
  rw [List.mem_flatMap]
  refine exists_congr fun hs => and_congr_right fun _ => ?_
  rw [mem_pyProduct, List.forall₂_iff_get]
  simp

/-- **C60** ... in as many elements as there are combinations, so that no combination is lost or
duplicated: each one occurs as often as its choices do. -/
theorem C60_normalize_length (paths : List (List (List ℕ))) :
    (State.normalize paths).length = (paths.map fun hs => (hs.map List.length).prod).sum := by
  have h1 : ∀ hs : List (List ℕ), (pyProduct hs).length = (hs.map List.length).prod := by
    intro hs
    induction hs with
    | nil => rfl
    | cons l hs ih =>
      simp only [pyProduct, List.length_flatMap, List.length_map, ih, List.map_cons,
        List.prod_cons]
      rw [List.map_const', List.sum_replicate]
      simp
  unfold State.normalize
  induction paths with
  | nil => rfl
  | cons hs paths ih => simp [ih, h1]

/-- **C60** If every hop lists distinct interfaces, each combination of a path occurs once. -/
theorem C60_normalize_nodup (hs : List (List ℕ)) (h : ∀ l ∈ hs, l.Nodup) :
    (State.normalize [hs]).Nodup := by
  simpa [State.normalize] using nodup_pyProduct h

/-- the documented example: `[[1], [2, 3], [4, 5]]` -/
example : State.normalize [[[1], [2, 3], [4, 5]]] = [[1, 2, 4], [1, 2, 5], [1, 3, 4], [1, 3, 5]] :=
  by decide +kernel

/-! ### LSP metrics -/

/-- reading `manual_metric` does not change what it reads as -/
theorem Lsp.manualView_readMetric {l l' : Lsp} {m : Option ℕ} (h : l.readMetric = .ok (m, l')) :
    l'.manualView = l.manualView ∧ l.manualView = .ok m ∧ l' = { l with
      manual := l'.manual, initialMetric := l'.initialMetric } := by
  have h0 : l.manualView = .ok m := by unfold Lsp.manualView; rw [h]; rfl
  refine ⟨?_, h0, ?_⟩
  · rw [h0]
    unfold Lsp.readMetric at h
    unfold Lsp.manualView Lsp.readMetric
    split at h
    · next m' hm =>
      split at h
      · next he => cases h; simp [hm, he]; rfl
      · split at h
        · next hp => cases h; rfl
        · cases h
    · next hm => cases h; simp [hm]; rfl
  · unfold Lsp.readMetric at h
    split at h
    · split at h
      · cases h; rfl
      · split at h
        · cases h; rfl
        · cases h
    · cases h; rfl

/-- **C23** The effective metric of an LSP is its manual metric if it reads as a number, and
otherwise "Unrouted" if the LSP is not routed and else the cost of the cheapest usable path
between its end points (`None` if there is none).  It never exceeds the cost of the LSP's own
path while that path is usable. -/
theorem C23_effective_metric {s : State} (hnd : s.ifs.Nodup) (hc : PosCosts s)
    (hs : s.kind = .perf → SingleLinks s) {l : ℕ} (hl : s.lspSrc l ∈ s.nodeNames) :
    (∀ m, (s.lsp l).manualView = .ok (some m) → s.effMetric l = .ok (.val m)) ∧
    ((s.lsp l).manualView = .ok none →
      ((s.lsp l).path = .initial ∨ (s.lsp l).path = .unrouted → s.effMetric l = .ok .unrouted) ∧
      (IsRouted s l →
        (∀ p, CheapestOver s (Usable s 0) (s.lspSrc l) p (s.lspDst l) →
          s.effMetric l = .ok (.val (totalCost (fun i => (s.ifc i).cost) p))) ∧
        (¬ Reachable s.tail s.head (Usable s 0) (s.lspSrc l) (s.lspDst l) →
          s.effMetric l = .ok .none) ∧
        ∀ q c h, (s.lsp l).path = .routed q c h →
          PathOver s (Usable s 0) (s.lspSrc l) q (s.lspDst l) →
          ∃ m n, s.effMetric l = .ok (.val m) ∧ s.topologyMetric l = .ok (some n) ∧ m ≤ n)) := by
  have hsane : Sane s := ⟨hnd, hc, hs⟩
  obtain ⟨h1, h2⟩ := shortest_cost hsane (b := s.lspDst l) hl 0
  constructor
  · intro m hm
    unfold State.effMetric
    rw [hm]
  · intro hm
    constructor
    · intro hp
      unfold State.effMetric
      rw [hm]
      rcases hp with hp | hp <;> simp [hp, LspPath.saysUnrouted]
    · rintro ⟨q0, c0, h0, hp⟩
      have heff : s.effMetric l = match (s.getShortestPath (s.lspSrc l) (s.lspDst l) 0).cost with
          | some c => .ok (.val c)
          | none => .ok .none := by
        unfold State.effMetric
        rw [hm]
        simp only [hp, LspPath.saysUnrouted]
        cases (s.getShortestPath (s.lspSrc l) (s.lspDst l) 0).cost <;> rfl
      refine ⟨fun p hc => ?_, fun hn => ?_, fun q c h hq hr => ?_⟩
      · rw [heff, h1 p hc]
      · rw [heff, h2 hn]
      · obtain ⟨p, hc⟩ := exists_cheapest (cost := fun i => (s.ifc i).cost)
          (ok := Usable s 0) ⟨q, hr⟩
        refine ⟨_, (q.map fun i => (s.ifc i).cost).sum, ?_, ?_, hc.2 q hr⟩
        · rw [heff, h1 p hc]
        · unfold State.topologyMetric
          rw [hq]; rfl

/-- A–B direct at 10 or over C at 2; an LSP on the long, cheap way, with and without a metric -/
def Ex.metrics (k : Kind) : State := Ex.mk k
  [{ name := "A" }, { name := "B" }, { name := "C" }]
  (Ex.link "ab" 0 1 10 100 1 ++ Ex.link "ac" 0 2 1 100 2 ++ Ex.link "cb" 2 1 1 100 3)
  []
  [{ src := 0, dst := 1, name := "l", path := .routed [0] 10 100, reserved := .val 0 },
   { src := 0, dst := 1, name := "m", path := .routed [0] 10 100, reserved := .val 0,
     initialMetric := some 7 },
   { src := 0, dst := 1, name := "n" }] []

example (k : Kind) : (Ex.metrics k).ifs.Nodup ∧ PosCosts (Ex.metrics k) ∧
    SingleLinks (Ex.metrics k) ∧ (Ex.metrics k).effMetric 0 = .ok (.val 2) ∧
    (Ex.metrics k).topologyMetric 0 = .ok (some 10) ∧
    (Ex.metrics k).effMetric 1 = .ok (.val 7) ∧ (Ex.metrics k).effMetric 2 = .ok .unrouted := by
  cases k <;> decide +kernel

/-- what a user does with the metric of an LSP -/
inductive Spec.MetricOp where
  | read
  | assign (v : ℤ)

/-- the metric that should be in force afterwards: the last one assigned properly -/
def Spec.metricAfter : List MetricOp → Option ℕ → Option ℕ
  | [], m => m
  | .read :: ops, m => metricAfter ops m
  | .assign v :: ops, m =>
    metricAfter ops (if 0 < v then some v.toNat else if v = -1 then none else m)

/-- run the operations on the LSP; a rejected assignment leaves it as it is -/
def runMetricOps : List MetricOp → Lsp → Lsp
  | [], l => l
  | .read :: ops, l => runMetricOps ops (match l.readMetric with
    | .ok (_, l') => l'
    | .error _ => l)
  | .assign v :: ops, l => runMetricOps ops (match l.assignMetric v with
    | .ok l' => l'
    | .error _ => l)

/-- **C24** (partial) For an LSP without a configured metric (or whose configured metric was
read before): after any sequence of reads and assignments the metric in force is the last one
assigned properly, -1 meaning none.  Missing: a configured metric that was never read, where the
first assignment is lost (`C24_assign_false`). -/
theorem C24_assign_partial (l : Lsp) (h : l.initialMetric = none ∨ l.initialMetric = some 0)
    (ops : List MetricOp) :
    (runMetricOps ops l).manualView = .ok (metricAfter ops l.manual) := by
  induction ops generalizing l with
  | nil =>
    unfold runMetricOps metricAfter Lsp.manualView Lsp.readMetric
    rcases h with h | h <;> rw [h] <;> rfl
  | cons op ops ih =>
    cases op with
    | read =>
      have hr : l.readMetric = .ok (l.manual, l) := by
        unfold Lsp.readMetric
        rcases h with h | h <;> rw [h] <;> rfl
      unfold runMetricOps metricAfter
      rw [hr]
      exact ih l h
    | assign v =>
      have ha : l.assignMetric v = if 0 < v then .ok { l with initialMetric := none, manual := some v.toNat }
          else if v = -1 then .ok { l with initialMetric := none, manual := none }
          else .error (.model "RSVP LSP metric must be positive integer value") := by
        unfold Lsp.assignMetric
        rcases h with h | h <;> rw [h] <;> rfl
      unfold runMetricOps metricAfter
      rw [ha]
      by_cases h1 : 0 < v
      · simp only [h1, if_true]
        exact ih _ (.inl rfl)
      · simp only [h1, if_false]
        by_cases h2 : v = -1
        · simp only [h2, if_true]
          exact ih _ (.inl rfl)
        · simp only [h2, if_false]
          exact ih _ h

/-- **C24** anything that is neither positive nor -1 is rejected (without a configured metric) -/
theorem C24_bad_value_rejected_partial (l : Lsp)
    (h : l.initialMetric = none ∨ l.initialMetric = some 0) (v : ℤ) (h0 : ¬ 0 < v) (h1 : v ≠ -1) :
    ∃ e, l.assignMetric v = .error e := by
  refine ⟨.model "RSVP LSP metric must be positive integer value", ?_⟩
  unfold Lsp.assignMetric
  rcases h with h | h <;> rw [h] <;> simp [h0, h1]

/-- assign 5, fail to assign 0, read, assign 9, clear, assign 4 -/
example : (runMetricOps [.assign 5, .assign 0, .read] { src := 0, dst := 1, name := "l" }).manualView
      = .ok (some 5) ∧
    (runMetricOps [.assign 5, .assign (-1), .assign 4] { src := 0, dst := 1, name := "l" }).manualView
      = .ok (some 4) := by decide +kernel

/-- **C24** is false while a configured metric has not been read: with a configured metric of 10,
assigning 20 leaves the metric at 10. -/
theorem C24_assign_false : ∃ (l l' : Lsp), l.initialMetric = some 10 ∧ l.assignMetric 20 = .ok l' ∧
    l'.manualView = .ok (some 10) :=
  ⟨{ src := 0, dst := 1, name := "l", initialMetric := some 10 }, _, rfl, rfl, rfl⟩

/-- **C24** ... and even a rejected configured metric hides the assignment and its rejection. -/
theorem C24_bad_value_false : ∃ (l : Lsp), l.assignMetric 0 = .ok l ∧ l.assignMetric 20 = .ok l :=
  ⟨{ src := 0, dst := 1, name := "l", initialMetric := some (-3) }, rfl, rfl⟩

end NTM
