import Verif.Proof.Query

/-!
# Products of hop choices and the enumeration of simple routes
-/

namespace NTM

open Spec

theorem mem_pyProduct {α : Type} {ls : List (List α)} {p : List α} :
    p ∈ pyProduct ls ↔ List.Forall₂ (fun x l => x ∈ l) p ls := by
  induction ls generalizing p with
  | nil => simp [pyProduct]
  | cons l ls ih =>
    simp only [pyProduct, List.mem_flatMap, List.mem_map]
    constructor
    · rintro ⟨x, hx, q, hq, rfl⟩
      exact .cons hx (ih.1 hq)
    · intro h
      cases h with
      | @cons x _ q _ hx hq => exact ⟨x, hx, q, ih.2 hq, rfl⟩

section
variable {tail head : ℕ → String} {cost : ℕ → ℕ} {es : List ℕ} {w : String → String → Option ℕ}

/-- picking one edge per hop of a node path = a route that visits those nodes -/
theorem mem_product_edges {ch : String × String → List ℕ}
    (hch : ∀ x y i, i ∈ ch (x, y) ↔ i ∈ es ∧ tail i = x ∧ head i = y)
    {u v : String} {rest : List String} (hv : (u :: rest).getLast? = some v) (p : List ℕ) :
    p ∈ pyProduct ((hops (u :: rest)).map ch) ↔
      Route tail head (· ∈ es) u p v ∧ p.map head = rest := by
  induction rest generalizing u p with
  | nil =>
    simp only [List.getLast?_singleton, Option.some.injEq] at hv
    subst hv
    simp only [hops, List.tail_cons, List.zip_nil_right, List.map_nil, pyProduct,
      List.mem_singleton, List.map_eq_nil_iff]
    constructor
    · rintro rfl; exact ⟨.nil _, rfl⟩
    · rintro ⟨-, rfl⟩; rfl
  | cons x rest ih =>
    have hh : hops (u :: x :: rest) = (u, x) :: hops (x :: rest) := rfl
    rw [List.getLast?_cons_cons] at hv
    rw [hh, List.map_cons]
    simp only [pyProduct, List.mem_flatMap, List.mem_map]
    constructor
    · rintro ⟨i, hi, q, hq, rfl⟩
      obtain ⟨h1, rfl, rfl⟩ := (hch _ _ _).1 hi
      obtain ⟨g1, g2⟩ := (ih hv q).1 hq
      exact ⟨.cons h1 g1, by simp [g2]⟩
    · rintro ⟨h1, h2⟩
      cases h1 with
      | nil => simp at h2
      | @cons i q _ hi hr =>
        simp only [List.map_cons, List.cons.injEq] at h2
        obtain ⟨rfl, rfl⟩ := h2
        exact ⟨i, (hch _ _ _).2 ⟨hi, rfl, rfl⟩, q, (ih hv q).2 ⟨hr, rfl⟩, rfl⟩

theorem Route.last {ok : ℕ → Prop} {u v : String} {p : List ℕ} (h : Route tail head ok u p v) :
    (u :: p.map head).getLast? = some v := by
  induction h with
  | nil u => rfl
  | cons _ _ ih => rw [List.map_cons, List.getLast?_cons_cons]; exact ih

theorem IsWalk.last {u v : String} {rest : List String} (h : IsWalk w u rest v) :
    (u :: rest).getLast? = some v := by
  induction rest generalizing u with
  | nil => cases h; rfl
  | cons x rest ih => rw [List.getLast?_cons_cons]; exact ih h.2

/-- Converting every simple node path of at most `k` hops by `conv`, where `conv` of a node path
lists the routes that visit it: exactly the simple routes of at most `k` hops, each once. -/
theorem expand_simple {nodes : List String} (hw : MinWeight tail head cost es w)
    (hn : ∀ i ∈ es, tail i ∈ nodes ∧ head i ∈ nodes) (a b : String) (k : ℕ)
    {conv : List String → List (List ℕ)} (hnd : ∀ np, (conv np).Nodup)
    (hconv : ∀ rest p, (a :: rest).Nodup → IsWalk w a rest b →
      (p ∈ conv (a :: rest) ↔ Route tail head (· ∈ es) a p b ∧ p.map head = rest)) :
    let ps := (NxG.simplePaths ⟨nodes, w⟩ a b).filter fun p => p.length ≤ k + 1
    (ps.flatMap conv).Nodup ∧
      ∀ p, p ∈ ps.flatMap conv ↔ SimpleRoute tail head (· ∈ es) a p b ∧ p.length ≤ k := by
  intro ps
  have hps : ∀ np, np ∈ ps ↔ ∃ rest, np = a :: rest ∧ (a :: rest).Nodup ∧ IsWalk w a rest b ∧
      rest.length ≤ k := by
    intro np
    show np ∈ (NxG.simplePaths ⟨nodes, w⟩ a b).filter _ ↔ _
    rw [List.mem_filter, mem_simplePaths (closed_of_min hw hn)]
    constructor
    · rintro ⟨⟨rest, rfl, h1, h2⟩, h3⟩
      exact ⟨rest, rfl, h1, h2, by simpa using h3⟩
    · rintro ⟨rest, rfl, h1, h2, h3⟩
      exact ⟨⟨rest, rfl, h1, h2⟩, by simpa using h3⟩
  have hpn : ps.Nodup := (nodup_simplePaths _ _ _).filter _
  constructor
  · rw [List.nodup_flatMap]
    refine ⟨fun np _ => hnd np, ?_⟩
    rw [List.pairwise_iff_getElem]
    intro i j hi hj hij
    rw [Function.onFun, List.disjoint_left]
    intro p hp1 hp2
    obtain ⟨r1, e1, n1, w1, -⟩ := (hps _).1 (List.getElem_mem hi)
    obtain ⟨r2, e2, n2, w2, -⟩ := (hps _).1 (List.getElem_mem hj)
    rw [e1] at hp1
    rw [e2] at hp2
    have h1 := ((hconv _ _ n1 w1).1 hp1).2
    have h2 := ((hconv _ _ n2 w2).1 hp2).2
    have := (List.Nodup.getElem_inj_iff hpn).1 (e1.trans ((h1.symm.trans h2) ▸ e2.symm))
    omega
  · intro p
    rw [List.mem_flatMap]
    constructor
    · rintro ⟨np, hnp, hp⟩
      obtain ⟨r, rfl, n, w', hl⟩ := (hps _).1 hnp
      obtain ⟨h1, h2⟩ := (hconv _ _ n w').1 hp
      refine ⟨⟨h1, ?_⟩, ?_⟩
      · unfold visited; rw [h2]; exact n
      · rw [← h2, List.length_map] at hl; exact hl
    · rintro ⟨⟨h1, h2⟩, h3⟩
      have hwk := (Route.isWalk hw h1).1
      exact ⟨a :: p.map head, (hps _).2 ⟨_, rfl, h2, hwk, by rw [List.length_map]; exact h3⟩,
        (hconv _ _ h2 hwk).2 ⟨h1, rfl⟩⟩

end

variable {s : State} {es : List ℕ}

theorem flatMap_toList_of_allSome {α β : Type} {f : α → Option β} {ps : List α}
    (h : ∀ p ∈ ps, (f p).isSome) :
    allSome (ps.map f) = some (ps.flatMap fun p => (f p).toList) := by
  induction ps with
  | nil => rfl
  | cons p ps ih =>
    obtain ⟨x, hx⟩ := Option.isSome_iff_exists.1 (h p (by simp))
    rw [List.map_cons, hx, allSome, ih fun q hq => h q (by simp [hq])]
    simp [hx]

/-- PerformanceModel: converting the simple node paths -/
theorem perf_simple (h : Sane s) (hk : s.kind = .perf) (hes : es ⊆ s.ifs) (a b : String) (k : ℕ) :
    let ps := ((s.graphOf es).simplePaths a b).filter fun p => p.length ≤ k + 1
    ∃ l, allSome (ps.map fun p => (s.convertPerf p).toOption) = some l ∧ l.Nodup ∧
      ∀ p, p ∈ l ↔ SimpleRoute s.tail s.head (· ∈ es) a p b ∧ p.length ≤ k := by
  intro ps
  have hw := graphOf_min h hes
  have hn := mem_graphNodes s es
  have key : ∀ rest, (a :: rest).Nodup → IsWalk (s.graphOf es).w a rest b →
      ∃ p, (s.convertPerf (a :: rest)).toOption = some p ∧ Route s.tail s.head (· ∈ es) a p b ∧
        p.map s.head = rest ∧
        ∀ q, Route s.tail s.head (· ∈ es) a q b → q.map s.head = rest → q = p := by
    intro rest hnd hwk
    obtain ⟨p, h1, h2, h3, -, h5⟩ := pick_hops hw (h.single_sub hk hes)
      (pick := fun h => s.ifcFromNodes h.1 h.2)
      (fun i hi => ifcFromNodes_single (h.single hk) (hes hi)) hwk
    exact ⟨p, by rw [convertPerf_toOption, hopsByIndex_eq hnd, h1], h2, h3, h5⟩
  have hsome : ∀ p ∈ ps, ((s.convertPerf p).toOption).isSome := by
    intro p hp
    have hp' := (List.mem_filter.1 hp).1
    rw [mem_simplePaths (graphOf_closed h hes)] at hp'
    obtain ⟨rest, rfl, h1, h2⟩ := hp'
    obtain ⟨q, hq, -⟩ := key rest h1 h2
    rw [hq]; rfl
  refine ⟨_, flatMap_toList_of_allSome hsome, ?_⟩
  have := expand_simple (nodes := s.graphNodes es) hw hn a b k
    (conv := fun p => (s.convertPerf p).toOption.toList) ?_ ?_
  · have hg : s.graphOf es = ⟨s.graphNodes es, (s.graphOf es).w⟩ := graphOf_eq s es
    rw [← hg] at this
    exact this
  · intro np
    cases (s.convertPerf np).toOption <;> simp
  · intro rest p hnd hwk
    obtain ⟨q, h1, h2, h3, h4⟩ := key rest hnd hwk
    rw [h1]
    simp only [Option.mem_toList, Option.some.injEq]
    constructor
    · rintro rfl; exact ⟨h2, h3⟩
    · rintro ⟨g1, g2⟩; exact (h4 p g1 g2).symm

theorem hops_mem {w : String → String → Option ℕ} {u v : String} {rest : List String}
    (h : IsWalk w u rest v) {x y : String} (hm : (x, y) ∈ hops (u :: rest)) : (w x y).isSome := by
  induction rest generalizing u with
  | nil => simp [hops] at hm
  | cons z rest ih =>
    have hh : hops (u :: z :: rest) = (u, z) :: hops (z :: rest) := rfl
    rw [hh, List.mem_cons] at hm
    rcases hm with hm | hm
    · cases hm; exact h.1
    · exact ih h.2 hm

/-- FlexModel: converting the simple node paths, where along a walk the interfaces of a hop with
enough bandwidth are those of the graph -/
theorem flex_simple (h : Sane s) (hes : es ⊆ s.ifs) (a b : String) (k : ℕ) {needed : ℚ}
    (hin : ∀ i ∈ es, needed ≤ s.reservable i)
    (hout : ∀ i ∈ s.ifs, needed ≤ s.reservable i →
      (∃ j ∈ es, s.tail j = s.tail i ∧ s.head j = s.head i) → i ∈ es) :
    let ps := ((s.graphOf es).simplePaths a b).filter fun p => p.length ≤ k + 1
    (State.normalize (ps.map (s.convertFlex needed))).Nodup ∧
      ∀ p, p ∈ State.normalize (ps.map (s.convertFlex needed)) ↔
        SimpleRoute s.tail s.head (· ∈ es) a p b ∧ p.length ≤ k := by
  intro ps
  have hw := graphOf_min h hes
  have hn := mem_graphNodes s es
  have := expand_simple (nodes := s.graphNodes es) hw hn a b k
    (conv := fun p => pyProduct (s.convertFlex needed p)) ?_ ?_
  · have hg : s.graphOf es = ⟨s.graphNodes es, (s.graphOf es).w⟩ := graphOf_eq s es
    rw [← hg] at this
    unfold State.normalize
    rw [List.flatMap_map]
    exact this
  · intro np
    apply nodup_pyProduct
    intro l hl
    unfold State.convertFlex at hl
    obtain ⟨x, -, rfl⟩ := List.mem_map.1 hl
    exact (h.nodup.filter _).filter _
  · intro rest p hnd hwk
    rw [← mem_product_edges (ch := fun h => edgesBetween s.tail s.head es h.1 h.2)
      (fun x y i => mem_edgesBetween) hwk.last]
    unfold State.convertFlex
    rw [hopsByIndex_eq hnd, mem_pyProduct, mem_pyProduct, List.forall₂_map_right_iff,
      List.forall₂_map_right_iff]
    have hcong : ∀ (hs : List (String × String)) (p : List ℕ),
        (∀ h ∈ hs, h ∈ hops (a :: rest)) →
        (List.Forall₂ (fun i h => i ∈ (s.ifs.filter fun i => s.tail i = h.1 && s.head i = h.2).filter
          fun i => decide (needed ≤ s.reservable i)) p hs ↔
        List.Forall₂ (fun i h => i ∈ edgesBetween s.tail s.head es h.1 h.2) p hs) := by
      intro hs
      induction hs with
      | nil => intro p _; simp
      | cons x hs ih =>
        intro p hp
        cases p with
        | nil => simp
        | cons i p =>
          rw [List.forall₂_cons, List.forall₂_cons, ih p fun h hh => hp h (by simp [hh])]
          apply and_congr_left
          intro _
          rw [mem_edgesBetween]
          simp only [List.mem_filter, Bool.and_eq_true, decide_eq_true_eq]
          constructor
          · rintro ⟨⟨h1, h2, h3⟩, h4⟩
            have hs' := hops_mem hwk (hp (x.1, x.2) (by simp))
            obtain ⟨c, hc⟩ := Option.isSome_iff_exists.1 hs'
            obtain ⟨j, hj, g1, g2, -⟩ := hw.attained hc
            exact ⟨hout i h1 h4 ⟨j, hj, by rw [g1, h2], by rw [g2, h3]⟩, h2, h3⟩
          · rintro ⟨h1, h2, h3⟩
            exact ⟨⟨hes h1, h2, h3⟩, hin i h1⟩
    exact hcong _ _ fun _ hh => hh

/-- the cheapest routes are among the FlexModel's conversion of the shortest node paths -/
theorem flex_cheapest_mem (h : Sane s) (hk : s.kind = .flex) (hes : es ⊆ s.ifs) (hnd : es.Nodup)
    {needed : ℚ} (hin : ∀ i ∈ es, needed ≤ s.reservable i) {a b : String}
    {ps : List (List String)} (hp : (s.graphOf es).allShortestPaths a b = .ok ps) {p : List ℕ}
    (hc : CheapestOver s (· ∈ es) a p b) :
    p ∈ State.normalize (ps.map (s.convertFlex needed)) := by
  have hm := ((flex_paths h hk hes hnd hp).2 p).2 hc
  obtain ⟨-, -, h3⟩ := allShortestPaths_ok (graphOf_closed h hes) (graphOf_pos h hes) hp
  unfold State.normalize at hm ⊢
  rw [List.flatMap_map, List.mem_flatMap] at hm ⊢
  obtain ⟨np, hnp, hp'⟩ := hm
  refine ⟨np, hnp, ?_⟩
  obtain ⟨r, rfl, hr⟩ := (h3 np).1 hnp
  rw [mem_pyProduct] at hp' ⊢
  unfold State.convertMdg at hp'
  unfold State.convertFlex
  rw [hopsByIndex_eq (hr.nodup (graphOf_pos h hes))]
  rw [List.forall₂_map_right_iff] at hp' ⊢
  refine hp'.imp fun i x hi => ?_
  simp only [List.mem_filter, mem_edgesBetween, Bool.and_eq_true, decide_eq_true_eq] at hi ⊢
  exact ⟨⟨hes hi.1.1, hi.1.2⟩, hin i hi.1.1⟩

/-- without parallel links the FlexModel's two conversions agree on the shortest node paths -/
theorem flex_single (h : Sane s) (hs : SingleLinks s) (hk : s.kind = .flex) (hes : es ⊆ s.ifs)
    (hnd : es.Nodup) {needed : ℚ} (hin : ∀ i ∈ es, needed ≤ s.reservable i) {a b : String}
    {ps : List (List String)} (hp : (s.graphOf es).allShortestPaths a b = .ok ps) :
    (State.normalize (ps.map (s.convertFlex needed))).Nodup ∧
      ∀ p, p ∈ State.normalize (ps.map (s.convertFlex needed)) ↔ CheapestOver s (· ∈ es) a p b := by
  have hq := flex_paths h hk hes hnd hp
  obtain ⟨h1, -, h3⟩ := allShortestPaths_ok (graphOf_closed h hes) (graphOf_pos h hes) hp
  have hw := graphOf_min h hes
  have heq : ∀ p ∈ ps, s.convertFlex needed p = s.convertMdg es p := by
    intro np hnp
    obtain ⟨r, rfl, hr⟩ := (h3 np).1 hnp
    unfold State.convertFlex State.convertMdg
    rw [hopsByIndex_eq (hr.nodup (graphOf_pos h hes))]
    apply List.map_congr_left
    intro x hx
    obtain ⟨c, hc⟩ := Option.isSome_iff_exists.1 (hops_mem hr.1 hx)
    obtain ⟨j, hj, g1, g2, -⟩ := hw.attained hc
    have hone : ∀ (l : List ℕ), l.Nodup → (∀ i, i ∈ l ↔ i = j) → l = [j] := by
      intro l hl hm
      cases l with
      | nil => have := (hm j).2 rfl; simp at this
      | cons y l =>
        have hy := (hm y).1 (by simp)
        subst hy
        cases l with
        | nil => rfl
        | cons z l =>
          have hz := (hm z).1 (by simp)
          subst hz
          simp at hl
    have e1 : edgesBetween s.tail s.head es x.1 x.2 = [j] := by
      apply hone _ (hnd.filter _)
      intro i
      change i ∈ edgesBetween s.tail s.head es x.1 x.2 ↔ _
      rw [mem_edgesBetween]
      constructor
      · rintro ⟨k1, k2, k3⟩
        exact hs i (hes k1) j (hes hj) (by rw [k2, g1]) (by rw [k3, g2])
      · rintro rfl; exact ⟨hj, g1, g2⟩
    have e2 : ((s.ifs.filter fun i => s.tail i = x.1 && s.head i = x.2).filter fun i =>
        decide (needed ≤ s.reservable i)) = [j] := by
      apply hone _ ((h.nodup.filter _).filter _)
      intro i
      simp only [List.mem_filter, Bool.and_eq_true, decide_eq_true_eq]
      constructor
      · rintro ⟨⟨k1, k2, k3⟩, -⟩
        exact hs i k1 j (hes hj) (by rw [k2, g1]) (by rw [k3, g2])
      · rintro rfl; exact ⟨⟨hes hj, g1, g2⟩, hin i hj⟩
    simp only [e1, e2]
    simp
  have : ps.map (s.convertFlex needed) = ps.map (s.convertMdg es) :=
    List.map_congr_left heq
  rw [this]
  exact hq

end NTM
