import Verif.Model.Graph
import Verif.Spec.Routes
import Mathlib.Data.List.Basic
import Mathlib.Data.List.Nodup
import Mathlib.Data.List.Dedup
import Mathlib.Data.List.Perm.Basic

/-!
# Node walks and the reference enumeration
-/

namespace NTM

variable {w : String → String → Option ℕ}

/-- `u :: rest` is a walk that ends at `v` -/
def IsWalk (w : String → String → Option ℕ) : String → List String → String → Prop
  | u, [], v => u = v
  | u, x :: rest, v => (w u x).isSome ∧ IsWalk w x rest v

/-- total weight of the walk `u :: rest` -/
def walkCost (w : String → String → Option ℕ) : String → List String → ℕ
  | _, [] => 0
  | u, x :: rest => (w u x).getD 0 + walkCost w x rest

theorem nodeWeight_of_isWalk {u : String} {rest : List String} {v : String}
    (h : IsWalk w u rest v) : nodeWeight w (u :: rest) = some (walkCost w u rest) := by
  induction rest generalizing u with
  | nil => rfl
  | cons x rest ih =>
    obtain ⟨h1, h2⟩ := h
    obtain ⟨a, ha⟩ := Option.isSome_iff_exists.1 h1
    simp [nodeWeight, ih h2, ha, walkCost]

theorem mem_nodePaths_iff (dst : String) :
    ∀ (fuel : ℕ) (avail : List String) (u : String) (q : List String),
      avail.Nodup → u ∉ avail → avail.length ≤ fuel →
      (q ∈ nodePaths w dst fuel avail u ↔
        ∃ rest, q = u :: rest ∧ (u :: rest).Nodup ∧ rest ⊆ avail ∧ IsWalk w u rest dst) := by
  intro fuel
  induction fuel with
  | zero =>
    intro avail u q hn hu hl
    have : avail = [] := List.length_eq_zero_iff.1 (by omega)
    subst this
    unfold nodePaths
    split
    · next h =>
      subst h
      simp only [List.mem_singleton]
      constructor
      · rintro rfl
        exact ⟨[], rfl, by simp, by simp, rfl⟩
      · rintro ⟨rest, rfl, -, h2, -⟩
        simp [List.subset_nil.1 h2]
    · next h =>
      simp only [List.not_mem_nil, false_iff]
      rintro ⟨rest, -, -, h2, h3⟩
      rw [List.subset_nil.1 h2] at h3
      exact h h3
  | succ n ih =>
    intro avail u q hn hu hl
    unfold nodePaths
    split
    · next h =>
      subst h
      simp only [List.mem_singleton]
      constructor
      · rintro rfl
        exact ⟨[], rfl, by simp, by simp, rfl⟩
      · rintro ⟨rest, rfl, h1, h2, h3⟩
        cases rest with
        | nil => rfl
        | cons x rest =>
          exfalso
          have : u ∈ x :: rest := by
            clear h1 h2 hu hl ih
            have aux : ∀ (r : List String) (x : String), IsWalk w x r u → u ∈ x :: r := by
              intro r
              induction r with
              | nil => intro x hx; simp [IsWalk] at hx; simp [hx]
              | cons y r ihr => intro x hx; exact List.mem_cons_of_mem _ (ihr y hx.2)
            exact aux rest x h3.2
          exact (List.nodup_cons.1 h1).1 this
    · next h =>
      simp only [List.mem_flatMap, List.mem_filter, List.mem_map]
      constructor
      · rintro ⟨v, ⟨hv, hwv⟩, q', hq', rfl⟩
        rw [ih _ v q' (hn.erase v) (by simp [hn.mem_erase_iff])
          (by rw [List.length_erase_of_mem hv]; omega)] at hq'
        obtain ⟨rest, rfl, h1, h2, h3⟩ := hq'
        refine ⟨v :: rest, rfl, ?_, ?_, ⟨by simpa using hwv, h3⟩⟩
        · rw [List.nodup_cons]
          refine ⟨?_, h1⟩
          intro hm
          rcases List.mem_cons.1 hm with rfl | hm
          · exact hu hv
          · exact hu (List.mem_of_mem_erase (h2 hm))
        · intro x hx
          rcases List.mem_cons.1 hx with rfl | hx
          · exact hv
          · exact List.mem_of_mem_erase (h2 hx)
      · rintro ⟨rest, rfl, h1, h2, h3⟩
        cases rest with
        | nil => exact absurd h3 h
        | cons v rest =>
          refine ⟨v, ⟨h2 (by simp), by simpa using h3.1⟩, v :: rest, ?_, rfl⟩
          have hv : v ∈ avail := h2 (by simp)
          rw [ih _ v _ (hn.erase v) (by simp [hn.mem_erase_iff])
            (by rw [List.length_erase_of_mem hv]; omega)]
          refine ⟨rest, rfl, (List.nodup_cons.1 h1).2, ?_, h3.2⟩
          intro x hx
          rw [hn.mem_erase_iff]
          refine ⟨?_, h2 (by simp [hx])⟩
          rintro rfl
          have := (List.nodup_cons.1 (List.nodup_cons.1 h1).2).1
          exact this hx

theorem nodup_nodePaths (dst : String) :
    ∀ (fuel : ℕ) (avail : List String) (u : String), avail.Nodup →
      (nodePaths w dst fuel avail u).Nodup := by
  intro fuel
  induction fuel with
  | zero => intro avail u _; unfold nodePaths; split <;> simp
  | succ n ih =>
    intro avail u hn
    unfold nodePaths
    split
    · simp
    · rw [List.nodup_flatMap]
      refine ⟨fun v _ => (ih _ v (hn.erase v)).map (fun a b h => (List.cons.inj h).2), ?_⟩
      have hf : (avail.filter fun v => (w u v).isSome).Nodup := hn.filter _
      refine hf.imp ?_
      intro a b hab
      rw [Function.onFun]
      have hd : ∀ (m : ℕ) (l : List String) (x : String) (q : List String),
          q ∈ nodePaths w dst m l x → q.head? = some x := by
        intro m l x q hq
        cases m with
        | zero => unfold nodePaths at hq; split at hq <;> simp_all
        | succ m =>
          unfold nodePaths at hq
          split at hq
          · simp_all
          · simp only [List.mem_flatMap, List.mem_map] at hq
            obtain ⟨_, _, _, _, rfl⟩ := hq
            rfl
      rw [List.disjoint_left]
      intro q h1 h2
      simp only [List.mem_map] at h1 h2
      obtain ⟨q1, h1, rfl⟩ := h1
      obtain ⟨q2, h2, he⟩ := h2
      have : q2 = q1 := (List.cons.inj he).2
      subst this
      have := (hd _ _ _ _ h1).symm.trans (hd _ _ _ _ h2)
      exact hab (by simpa using this)

/-- every hop of the graph connects nodes of the graph -/
def NxG.Closed (g : NxG) : Prop := ∀ u v, (g.w u v).isSome → u ∈ g.nodes ∧ v ∈ g.nodes

/-- all hop weights are positive -/
def NxG.Pos (g : NxG) : Prop := ∀ u v c, g.w u v = some c → 1 ≤ c

theorem IsWalk.mem_nodes {g : NxG} (hc : g.Closed) {u : String} {rest : List String} {v : String}
    (h : IsWalk g.w u rest v) : ∀ x ∈ rest, x ∈ g.nodes := by
  induction rest generalizing u with
  | nil => simp
  | cons y rest ih =>
    intro x hx
    rcases List.mem_cons.1 hx with rfl | hx
    · exact (hc _ _ h.1).2
    · exact ih h.2 x hx

/-- the enumeration returns exactly the node-simple walks -/
theorem mem_simplePaths {g : NxG} (hc : g.Closed) (a b : String) (q : List String) :
    q ∈ g.simplePaths a b ↔ ∃ rest, q = a :: rest ∧ (a :: rest).Nodup ∧ IsWalk g.w a rest b := by
  unfold NxG.simplePaths
  have hn : g.nodes.dedup.Nodup := List.nodup_dedup _
  rw [mem_nodePaths_iff b _ _ a q (hn.erase a) (by simp [hn.mem_erase_iff])
    (List.length_erase_le)]
  constructor
  · rintro ⟨rest, h1, h2, -, h3⟩; exact ⟨rest, h1, h2, h3⟩
  · rintro ⟨rest, h1, h2, h3⟩
    refine ⟨rest, h1, h2, ?_, h3⟩
    intro x hx
    rw [hn.mem_erase_iff]
    refine ⟨?_, List.mem_dedup.2 (h3.mem_nodes hc x hx)⟩
    rintro rfl
    exact (List.nodup_cons.1 h2).1 hx

theorem nodup_simplePaths (g : NxG) (a b : String) : (g.simplePaths a b).Nodup :=
  nodup_nodePaths _ _ _ _ ((List.nodup_dedup _).erase a)

/-- from a walk that meets `x`, the part from `x` on -/
theorem IsWalk.suffix_from (hp : ∀ a b c, w a b = some c → 1 ≤ c) {u v x : String}
    {rest : List String} (h : IsWalk w u rest v) (hx : x ∈ rest) :
    ∃ rest', IsWalk w x rest' v ∧ rest' <:+ rest ∧ x ∉ rest' ∧
      walkCost w x rest' + 1 ≤ walkCost w u rest := by
  induction rest generalizing u with
  | nil => simp at hx
  | cons y rest ih =>
    by_cases hxr : x ∈ rest
    · obtain ⟨r, h1, h2, h3, h4⟩ := ih h.2 hxr
      refine ⟨r, h1, h2.trans (List.suffix_cons _ _), h3, ?_⟩
      simp only [walkCost]; omega
    · have : x = y := by
        rcases List.mem_cons.1 hx with h | h
        · exact h
        · exact absurd h hxr
      subst this
      refine ⟨rest, h.2, List.suffix_cons _ _, hxr, ?_⟩
      simp only [walkCost]
      obtain ⟨c, hc⟩ := Option.isSome_iff_exists.1 h.1
      have := hp _ _ _ hc
      simp [hc]; omega

/-- loop removal: below every walk there is a simple one, strictly cheaper unless the walk
is already simple -/
theorem IsWalk.simplify (hp : ∀ a b c, w a b = some c → 1 ≤ c) {u v : String}
    {rest : List String} (h : IsWalk w u rest v) :
    ∃ r, IsWalk w u r v ∧ (u :: r).Nodup ∧ ((u :: rest).Nodup → r = rest) ∧
      (¬ (u :: rest).Nodup → walkCost w u r < walkCost w u rest) := by
  induction rest generalizing u with
  | nil => exact ⟨[], h, by simp, by simp, by simp⟩
  | cons y rest ih =>
    by_cases hnd : (u :: y :: rest).Nodup
    · exact ⟨y :: rest, h, hnd, fun _ => rfl, fun h => absurd hnd h⟩
    obtain ⟨r, h1, h2, h3, h4⟩ := ih h.2
    have hle : walkCost w y r ≤ walkCost w y rest := by
      by_cases hyn : (y :: rest).Nodup
      · rw [h3 hyn]
      · exact le_of_lt (h4 hyn)
    by_cases hu : u ∈ y :: r
    · obtain ⟨r', g1, g2, g3, g4⟩ := IsWalk.suffix_from hp (u := u) (rest := y :: r)
        (v := v) ⟨h.1, h1⟩ hu
      refine ⟨r', g1, List.nodup_cons.2 ⟨g3, ?_⟩, fun h => absurd h hnd, fun _ => ?_⟩
      · exact h2.sublist g2.sublist
      · simp only [walkCost] at g4 ⊢; omega
    · refine ⟨y :: r, ⟨h.1, h1⟩, List.nodup_cons.2 ⟨hu, h2⟩, fun h => absurd h hnd, fun _ => ?_⟩
      simp only [walkCost]
      by_cases hyn : (y :: rest).Nodup
      · rw [h3 hyn] at hu
        exact absurd (List.nodup_cons.2 ⟨hu, hyn⟩) hnd
      · have := h4 hyn; omega

/-- a cheapest walk -/
def CheapWalk (w : String → String → Option ℕ) (u : String) (rest : List String) (v : String) :
    Prop :=
  IsWalk w u rest v ∧ ∀ r, IsWalk w u r v → walkCost w u rest ≤ walkCost w u r

theorem CheapWalk.nodup (hp : ∀ a b c, w a b = some c → 1 ≤ c) {u v : String}
    {rest : List String} (h : CheapWalk w u rest v) : (u :: rest).Nodup := by
  by_contra hn
  obtain ⟨r, h1, -, -, h4⟩ := h.1.simplify hp
  have := h.2 r h1
  have := h4 hn
  omega

theorem mem_cheapest_simplePaths {g : NxG} (hc : g.Closed) (hp : g.Pos) (a b : String)
    (q : List String) :
    q ∈ g.cheapest (g.simplePaths a b) ↔ ∃ rest, q = a :: rest ∧ CheapWalk g.w a rest b := by
  unfold NxG.cheapest
  cases hm : ((g.simplePaths a b).filterMap (nodeWeight g.w)).min? with
  | none =>
    rw [List.min?_eq_none_iff, List.filterMap_eq_nil_iff] at hm
    simp only [List.not_mem_nil, false_iff]
    rintro ⟨rest, rfl, h⟩
    have hmem : (a :: rest) ∈ g.simplePaths a b :=
      (mem_simplePaths hc a b _).2 ⟨rest, rfl, h.nodup hp, h.1⟩
    have := hm _ hmem
    rw [nodeWeight_of_isWalk h.1] at this
    cases this
  | some m =>
    rw [List.min?_eq_some_iff] at hm
    obtain ⟨hm1, hm2⟩ := hm
    obtain ⟨p0, hp0, hw0⟩ := List.mem_filterMap.1 hm1
    obtain ⟨r0, rfl, hn0, hr0⟩ := (mem_simplePaths hc a b _).1 hp0
    rw [nodeWeight_of_isWalk hr0] at hw0
    have hmin : ∀ r, IsWalk g.w a r b → m ≤ walkCost g.w a r := by
      intro r hr
      obtain ⟨r', h1, h2, h3, h4⟩ := hr.simplify hp
      have hle : walkCost g.w a r' ≤ walkCost g.w a r := by
        by_cases hn : (a :: r).Nodup
        · rw [h3 hn]
        · exact le_of_lt (h4 hn)
      refine le_trans (hm2 _ ?_) hle
      exact List.mem_filterMap.2 ⟨a :: r', (mem_simplePaths hc a b _).2 ⟨r', rfl, h2, h1⟩,
        nodeWeight_of_isWalk h1⟩
    simp only [List.mem_filter, decide_eq_true_eq]
    constructor
    · rintro ⟨h1, h2⟩
      obtain ⟨r, rfl, hn, hr⟩ := (mem_simplePaths hc a b _).1 h1
      rw [nodeWeight_of_isWalk hr] at h2
      refine ⟨r, rfl, hr, fun r' hr' => ?_⟩
      have := hmin r' hr'
      simp only [Option.some.injEq] at h2
      omega
    · rintro ⟨r, rfl, hr⟩
      refine ⟨(mem_simplePaths hc a b _).2 ⟨r, rfl, hr.nodup hp, hr.1⟩, ?_⟩
      rw [nodeWeight_of_isWalk hr.1]
      have h1 := hr.2 r0 hr0
      have h2 := hmin r hr.1
      simp only [Option.some.injEq] at hw0 ⊢
      omega

theorem nodup_cheapest {g : NxG} {ps : List (List String)} (h : ps.Nodup) :
    (g.cheapest ps).Nodup := by
  unfold NxG.cheapest
  split
  · simp
  · exact h.filter _

/-- a cheapest walk exists as soon as there is a walk -/
theorem exists_cheapWalk {u v : String} {r : List String} (h : IsWalk w u r v) :
    ∃ r', CheapWalk w u r' v := by
  have : ∃ n, ∃ r', IsWalk w u r' v ∧ walkCost w u r' = n := ⟨_, r, h, rfl⟩
  classical
  obtain ⟨r', h1, h2⟩ := Nat.find_spec this
  refine ⟨r', h1, fun q hq => ?_⟩
  rw [h2]
  exact Nat.find_min' this ⟨q, hq, rfl⟩

theorem allShortestPaths_ok {g : NxG} (hc : g.Closed) (hp : g.Pos) {a b : String}
    {ps : List (List String)} (h : g.allShortestPaths a b = .ok ps) :
    ps.Nodup ∧ ps ≠ [] ∧ ∀ q, q ∈ ps ↔ ∃ rest, q = a :: rest ∧ CheapWalk g.w a rest b := by
  unfold NxG.allShortestPaths at h
  split at h
  · split at h
    · cases h
    · next hne =>
      cases h
      refine ⟨nodup_cheapest (nodup_simplePaths g a b), hne, fun q => ?_⟩
      exact mem_cheapest_simplePaths hc hp a b q
  · cases h

theorem allShortestPaths_noPath {g : NxG} (hc : g.Closed) (hp : g.Pos) {a b : String}
    (h : g.allShortestPaths a b = .error .noPath) : ¬ ∃ rest, IsWalk g.w a rest b := by
  unfold NxG.allShortestPaths at h
  split at h
  · split at h
    · next he =>
      rintro ⟨r, hr⟩
      obtain ⟨r', hr'⟩ := exists_cheapWalk hr
      have := (mem_cheapest_simplePaths hc hp a b (a :: r')).2 ⟨r', rfl, hr'⟩
      rw [he] at this
      cases this
    · cases h
  · cases h

/-- the outcomes of `all_shortest_paths` -/
theorem allShortestPaths_cases (g : NxG) (a b : String) :
    (∃ ps, g.allShortestPaths a b = .ok ps) ∨ g.allShortestPaths a b = .error .noPath ∨
      (g.allShortestPaths a b = .error .nodeNotFound ∧ a ∉ g.nodes) := by
  unfold NxG.allShortestPaths
  split
  · split
    · exact .inr (.inl rfl)
    · exact .inl ⟨_, rfl⟩
  · next h => exact .inr (.inr ⟨rfl, h⟩)

theorem shortestLength_eq {g : NxG} (hc : g.Closed) (hp : g.Pos) {a b : String}
    {r : List String} (h : CheapWalk g.w a r b) :
    g.shortestLength a b = some (walkCost g.w a r) := by
  unfold NxG.shortestLength
  rw [List.min?_eq_some_iff]
  constructor
  · exact List.mem_filterMap.2 ⟨a :: r, (mem_simplePaths hc a b _).2 ⟨r, rfl, h.nodup hp, h.1⟩,
      nodeWeight_of_isWalk h.1⟩
  · intro x hx
    obtain ⟨q, hq, hwq⟩ := List.mem_filterMap.1 hx
    obtain ⟨r', rfl, -, hr'⟩ := (mem_simplePaths hc a b _).1 hq
    rw [nodeWeight_of_isWalk hr'] at hwq
    have := h.2 r' hr'
    simp only [Option.some.injEq] at hwq
    omega

end NTM
