import Verif.Proof.Walks
import Verif.Model.Paths

/-!
# From node walks to routes over interfaces
-/

namespace NTM

open Spec

section
variable {tail head : ℕ → String} {cost : ℕ → ℕ} {es : List ℕ} {w : String → String → Option ℕ}

/-- the weight of a hop is the cost of its cheapest link -/
structure MinWeight (tail head : ℕ → String) (cost : ℕ → ℕ) (es : List ℕ)
    (w : String → String → Option ℕ) : Prop where
  attained : ∀ {u v c}, w u v = some c → ∃ i ∈ es, tail i = u ∧ head i = v ∧ cost i = c
  lower : ∀ {i}, i ∈ es → ∃ c, w (tail i) (head i) = some c ∧ c ≤ cost i

theorem mem_edgesBetween {u v : String} {i : ℕ} :
    i ∈ edgesBetween tail head es u v ↔ i ∈ es ∧ tail i = u ∧ head i = v := by
  simp [edgesBetween]

theorem weightMulti_min : MinWeight tail head cost es (weightMulti tail head cost es) where
  attained := by
    intro u v c h
    unfold weightMulti at h
    rw [List.min?_eq_some_iff] at h
    obtain ⟨i, hi, hc⟩ := List.mem_map.1 h.1
    obtain ⟨h1, h2, h3⟩ := mem_edgesBetween.1 hi
    exact ⟨i, h1, h2, h3, hc⟩
  lower := by
    intro i hi
    have hmem : cost i ∈ (edgesBetween tail head es (tail i) (head i)).map cost :=
      List.mem_map.2 ⟨i, mem_edgesBetween.2 ⟨hi, rfl, rfl⟩, rfl⟩
    cases hm : weightMulti tail head cost es (tail i) (head i) with
    | none =>
      unfold weightMulti at hm
      rw [List.min?_eq_none_iff] at hm
      rw [hm] at hmem; cases hmem
    | some c =>
      refine ⟨c, rfl, ?_⟩
      unfold weightMulti at hm
      rw [List.min?_eq_some_iff] at hm
      exact hm.2 _ hmem

/-- at most one link per ordered pair of nodes -/
def Single (tail head : ℕ → String) (es : List ℕ) : Prop :=
  ∀ i ∈ es, ∀ j ∈ es, tail i = tail j → head i = head j → i = j

theorem weightDi_min (hs : Single tail head es) :
    MinWeight tail head cost es (weightDi tail head cost es) where
  attained := by
    intro u v c h
    unfold weightDi at h
    obtain ⟨i, hi, hc⟩ := Option.map_eq_some_iff.1 h
    obtain ⟨h1, h2, h3⟩ := mem_edgesBetween.1 (List.mem_of_getLast? hi)
    exact ⟨i, h1, h2, h3, hc⟩
  lower := by
    intro i hi
    have hmem := mem_edgesBetween (es := es) (tail := tail) (head := head) (u := tail i)
      (v := head i) (i := i) |>.2 ⟨hi, rfl, rfl⟩
    unfold weightDi
    cases hl : (edgesBetween tail head es (tail i) (head i)).getLast? with
    | none => rw [List.getLast?_eq_none_iff] at hl; rw [hl] at hmem; cases hmem
    | some j =>
      obtain ⟨h1, h2, h3⟩ := mem_edgesBetween.1 (List.mem_of_getLast? hl)
      have := hs j h1 i hi h2 h3
      subst this
      exact ⟨_, rfl, le_refl _⟩

theorem Route.isWalk (hw : MinWeight tail head cost es w) {u v : String} {p : List ℕ}
    (h : Route tail head (· ∈ es) u p v) :
    IsWalk w u (p.map head) v ∧ walkCost w u (p.map head) ≤ totalCost cost p := by
  induction h with
  | nil u => exact ⟨rfl, le_refl _⟩
  | cons hi hr ih =>
    obtain ⟨c, hc, hle⟩ := hw.lower hi
    refine ⟨⟨by simp [hc], ih.1⟩, ?_⟩
    have := ih.2
    simp only [List.map_cons, walkCost, hc, totalCost, List.sum_cons, Option.getD_some] at this ⊢
    omega

theorem IsWalk.exists_route (hw : MinWeight tail head cost es w) {u v : String}
    {rest : List String} (h : IsWalk w u rest v) :
    ∃ p, Route tail head (· ∈ es) u p v ∧ p.map head = rest ∧
      totalCost cost p = walkCost w u rest := by
  induction rest generalizing u with
  | nil => cases h; exact ⟨[], .nil _, rfl, rfl⟩
  | cons x rest ih =>
    obtain ⟨p, h1, h2, h3⟩ := ih h.2
    obtain ⟨c, hc⟩ := Option.isSome_iff_exists.1 h.1
    obtain ⟨i, hi, rfl, rfl, hci⟩ := hw.attained hc
    refine ⟨i :: p, .cons hi h1, by simp [h2], ?_⟩
    simp only [totalCost, List.map_cons, List.sum_cons, walkCost, hc] at h3 ⊢
    simp [hci, h3]

theorem cheapest_iff (hw : MinWeight tail head cost es w) {u v : String} {p : List ℕ} :
    Cheapest tail head cost (· ∈ es) u p v ↔
      Route tail head (· ∈ es) u p v ∧ CheapWalk w u (p.map head) v ∧
        totalCost cost p = walkCost w u (p.map head) := by
  constructor
  · rintro ⟨h1, h2⟩
    obtain ⟨g1, g2⟩ := Route.isWalk hw h1
    obtain ⟨q, q1, q2, q3⟩ := g1.exists_route hw
    have hq := h2 q q1
    refine ⟨h1, ⟨g1, fun r hr => ?_⟩, by omega⟩
    obtain ⟨q', q1', q2', q3'⟩ := hr.exists_route hw
    have := h2 q' q1'
    omega
  · rintro ⟨h1, h2, h3⟩
    refine ⟨h1, fun q hq => ?_⟩
    obtain ⟨g1, g2⟩ := Route.isWalk hw hq
    have := h2.2 _ g1
    omega

/-- one hop: the links the conversion may choose from -/
def HopChoice (tail head : ℕ → String) (cost : ℕ → ℕ) (es : List ℕ)
    (w : String → String → Option ℕ) (ch : String × String → List ℕ) : Prop :=
  ∀ x y i, i ∈ ch (x, y) ↔ i ∈ es ∧ tail i = x ∧ head i = y ∧ w x y = some (cost i)

theorem mem_product_hops (hw : MinWeight tail head cost es w) {ch : String × String → List ℕ}
    (hch : HopChoice tail head cost es w ch) {u v : String} {rest : List String}
    (h : IsWalk w u rest v) (p : List ℕ) :
    p ∈ pyProduct ((hops (u :: rest)).map ch) ↔
      Route tail head (· ∈ es) u p v ∧ p.map head = rest ∧ totalCost cost p = walkCost w u rest := by
  induction rest generalizing u p with
  | nil =>
    cases h
    simp only [hops, List.tail_cons, List.zip_nil_right, List.map_nil, pyProduct,
      List.mem_singleton, List.map_eq_nil_iff]
    constructor
    · rintro rfl; exact ⟨.nil _, rfl, rfl⟩
    · rintro ⟨-, rfl, -⟩; rfl
  | cons x rest ih =>
    have hh : hops (u :: x :: rest) = (u, x) :: hops (x :: rest) := rfl
    rw [hh, List.map_cons]
    simp only [pyProduct, List.mem_flatMap, List.mem_map]
    constructor
    · rintro ⟨i, hi, q, hq, rfl⟩
      obtain ⟨h1, rfl, rfl, h4⟩ := (hch _ _ _).1 hi
      obtain ⟨g1, g2, g3⟩ := (ih h.2 q).1 hq
      refine ⟨.cons h1 g1, by simp [g2], ?_⟩
      simp only [totalCost, List.map_cons, List.sum_cons, walkCost, h4] at g3 ⊢
      simp [g3]
    · rintro ⟨h1, h2, h3⟩
      cases h1 with
      | nil => simp at h2
      | @cons i q _ hi hr =>
        simp only [List.map_cons, List.cons.injEq] at h2
        obtain ⟨rfl, rfl⟩ := h2
        obtain ⟨c, hc, hle⟩ := hw.lower hi
        have hwk := Route.isWalk hw hr
        simp only [totalCost, List.map_cons, List.sum_cons, walkCost, hc, Option.getD_some]
          at h3 hwk
        have hcc : c = cost i := by omega
        refine ⟨i, (hch _ _ _).2 ⟨hi, rfl, rfl, by rw [hc, hcc]⟩, q, ?_, rfl⟩
        rw [ih hwk.1]
        exact ⟨hr, rfl, by simp only [totalCost]; omega⟩

theorem nodup_pyProduct {α : Type} {ls : List (List α)} (h : ∀ l ∈ ls, l.Nodup) :
    (pyProduct ls).Nodup := by
  induction ls with
  | nil => simp [pyProduct]
  | cons l ls ih =>
    unfold pyProduct
    rw [List.nodup_flatMap]
    refine ⟨fun x _ => (ih fun m hm => h m (by simp [hm])).map
      (fun a b hab => (List.cons.inj hab).2), ?_⟩
    refine (h l (by simp)).imp ?_
    intro a b hab
    rw [Function.onFun, List.disjoint_left]
    intro q h1 h2
    simp only [List.mem_map] at h1 h2
    obtain ⟨_, _, rfl⟩ := h1
    obtain ⟨_, _, he⟩ := h2
    exact hab (List.cons.inj he).1.symm

theorem closed_of_min {nodes : List String} (hw : MinWeight tail head cost es w)
    (hn : ∀ i ∈ es, tail i ∈ nodes ∧ head i ∈ nodes) : NxG.Closed ⟨nodes, w⟩ := by
  intro u v h
  obtain ⟨c, hc⟩ := Option.isSome_iff_exists.1 h
  obtain ⟨i, hi, rfl, rfl, -⟩ := hw.attained hc
  exact hn i hi

theorem pos_of_min {nodes : List String} (hw : MinWeight tail head cost es w)
    (hc : ∀ i ∈ es, 1 ≤ cost i) : NxG.Pos ⟨nodes, w⟩ := by
  intro u v c h
  obtain ⟨i, hi, rfl, rfl, rfl⟩ := hw.attained h
  exact hc i hi

/-- The multigraph conversion of the shortest node paths yields exactly the cheapest
routes, each once. -/
theorem expand_multi {nodes : List String} (hw : MinWeight tail head cost es w)
    (hn : ∀ i ∈ es, tail i ∈ nodes ∧ head i ∈ nodes) (hc : ∀ i ∈ es, 1 ≤ cost i)
    {ch : String × String → List ℕ} (hch : HopChoice tail head cost es w ch)
    (hnd : ∀ h, (ch h).Nodup) {a b : String} {ps : List (List String)}
    (h : NxG.allShortestPaths ⟨nodes, w⟩ a b = .ok ps) :
    (ps.flatMap fun np => pyProduct ((hops np).map ch)).Nodup ∧
    ∀ p, p ∈ (ps.flatMap fun np => pyProduct ((hops np).map ch)) ↔
      Cheapest tail head cost (· ∈ es) a p b := by
  obtain ⟨h1, h2, h3⟩ := allShortestPaths_ok (closed_of_min hw hn) (pos_of_min hw hc) h
  have key : ∀ np ∈ ps, ∀ p, p ∈ pyProduct ((hops np).map ch) →
      np = a :: p.map head := by
    intro np hnp p hp
    obtain ⟨r, rfl, hr⟩ := (h3 np).1 hnp
    rw [mem_product_hops hw hch hr.1] at hp
    rw [hp.2.1]
  constructor
  · rw [List.nodup_flatMap]
    refine ⟨fun np _ => nodup_pyProduct fun l hl => ?_, ?_⟩
    · obtain ⟨x, -, rfl⟩ := List.mem_map.1 hl; exact hnd x
    · rw [List.pairwise_iff_getElem]
      intro i j hi hj hij
      rw [Function.onFun, List.disjoint_left]
      intro p hp1 hp2
      have e1 := key _ (List.getElem_mem hi) p hp1
      have e2 := key _ (List.getElem_mem hj) p hp2
      have := (List.Nodup.getElem_inj_iff h1).1 (e1.trans e2.symm)
      omega
  · intro p
    rw [cheapest_iff hw, List.mem_flatMap]
    constructor
    · rintro ⟨np, hnp, hp⟩
      obtain ⟨r, rfl, hr⟩ := (h3 np).1 hnp
      rw [mem_product_hops hw hch hr.1] at hp
      obtain ⟨g1, g2, g3⟩ := hp
      rw [g2]
      exact ⟨g1, hr, g3⟩
    · rintro ⟨g1, g2, g3⟩
      refine ⟨a :: p.map head, (h3 _).2 ⟨_, rfl, g2⟩, ?_⟩
      rw [mem_product_hops hw hch g2.1]
      exact ⟨g1, rfl, g3⟩

/-! ### at most one link per pair -/

theorem allSome_eq_some {α : Type} {l : List (Option α)} {r : List α} :
    allSome l = some r ↔ l = r.map some := by
  induction l generalizing r with
  | nil => cases r <;> simp [allSome]
  | cons x l ih =>
    cases x with
    | none =>
      simp only [allSome, reduceCtorEq, false_iff]
      cases r <;> simp
    | some x =>
      simp only [allSome, Option.map_eq_some_iff, ih]
      constructor
      · rintro ⟨a, rfl, rfl⟩; rfl
      · intro h
        cases r with
        | nil => simp at h
        | cons y r =>
          simp only [List.map_cons, List.cons.injEq, Option.some.injEq] at h
          exact ⟨r, h.2, by rw [h.1]⟩

theorem idxOf_hops {p pre : List String} {x : String} (hp : (pre ++ x :: p).Nodup) :
    (pre ++ x :: p).idxOf x = pre.length := by
  have hx : x ∉ pre := by
    intro h
    rw [List.nodup_append] at hp
    exact hp.2.2 x h x (by simp) rfl
  rw [List.idxOf_append_of_notMem hx]
  simp

theorem hopsByIndex_aux (p pre : List String) (hp : (pre ++ p).Nodup) :
    (p.filterMap fun h => ((pre ++ p)[(pre ++ p).idxOf h + 1]?).map fun n => (h, n)) = hops p := by
  induction p generalizing pre with
  | nil => rfl
  | cons x p ih =>
    rw [List.filterMap_cons, idxOf_hops hp]
    have h2 : pre ++ x :: p = (pre ++ [x]) ++ p := by simp
    have ih' := ih (pre ++ [x]) (by rw [← h2]; exact hp)
    rw [← h2] at ih'
    cases p with
    | nil => simp [hops]
    | cons y p =>
      have : (pre ++ x :: y :: p)[pre.length + 1]? = some y := by
        rw [List.getElem?_append_right (by omega)]; simp
      rw [this, ih']
      rfl

theorem hopsByIndex_eq {p : List String} (hp : p.Nodup) : hopsByIndex p = hops p :=
  hopsByIndex_aux p [] hp

theorem pick_hops (hw : MinWeight tail head cost es w) (hs : Single tail head es)
    {pick : String × String → Option ℕ}
    (hpick : ∀ i ∈ es, pick (tail i, head i) = some i) {u v : String} {rest : List String}
    (h : IsWalk w u rest v) :
    ∃ p, allSome ((hops (u :: rest)).map pick) = some p ∧ Route tail head (· ∈ es) u p v ∧
      p.map head = rest ∧ totalCost cost p = walkCost w u rest ∧
      ∀ q, Route tail head (· ∈ es) u q v → q.map head = rest → q = p := by
  induction rest generalizing u with
  | nil =>
    cases h
    refine ⟨[], rfl, .nil _, rfl, rfl, fun q _ hq => ?_⟩
    simpa using hq
  | cons x rest ih =>
    obtain ⟨p, h1, h2, h3, h4, h5⟩ := ih h.2
    obtain ⟨c, hc⟩ := Option.isSome_iff_exists.1 h.1
    obtain ⟨i, hi, rfl, rfl, hci⟩ := hw.attained hc
    have hh : hops (tail i :: head i :: rest) = (tail i, head i) :: hops (head i :: rest) := rfl
    refine ⟨i :: p, ?_, .cons hi h2, by simp [h3], ?_, ?_⟩
    · rw [hh, List.map_cons, hpick i hi, allSome, h1]; rfl
    · simp only [totalCost, List.map_cons, List.sum_cons, walkCost, hc] at h4 ⊢
      simp [hci, h4]
    · intro q hq hqr
      generalize hti : tail i = t at hq
      cases hq with
      | nil => simp at hqr
      | @cons j q _ hj hr =>
        simp only [List.map_cons, List.cons.injEq] at hqr
        have := hs j hj i hi hti.symm hqr.1
        subst this
        rw [h5 q hr hqr.2]

/-- The single-link conversion of the shortest node paths yields exactly the cheapest
routes, each once, and never hits a missing interface. -/
theorem expand_single {nodes : List String} (hw : MinWeight tail head cost es w)
    (hs : Single tail head es)
    (hn : ∀ i ∈ es, tail i ∈ nodes ∧ head i ∈ nodes) (hc : ∀ i ∈ es, 1 ≤ cost i)
    {pick : String × String → Option ℕ} (hpick : ∀ i ∈ es, pick (tail i, head i) = some i)
    {a b : String} {ps : List (List String)}
    (h : NxG.allShortestPaths ⟨nodes, w⟩ a b = .ok ps) :
    ∃ l, allSome (ps.map fun np => allSome ((hopsByIndex np).map pick)) = some l ∧ l.Nodup ∧
      ∀ p, p ∈ l ↔ Cheapest tail head cost (· ∈ es) a p b := by
  have hcl := closed_of_min hw hn
  have hpos := pos_of_min (nodes := nodes) hw hc
  obtain ⟨h1, h2, h3⟩ := allShortestPaths_ok hcl hpos h
  have key : ∀ np ∈ ps, ∃ p, allSome ((hopsByIndex np).map pick) = some p ∧
      np = a :: p.map head ∧ Cheapest tail head cost (· ∈ es) a p b := by
    intro np hnp
    obtain ⟨r, rfl, hr⟩ := (h3 np).1 hnp
    obtain ⟨p, g1, g2, g3, g4, -⟩ := pick_hops hw hs hpick hr.1
    refine ⟨p, ?_, by rw [g3], ?_⟩
    · rw [hopsByIndex_eq (hr.nodup hpos), g1]
    · rw [cheapest_iff hw, g3]; exact ⟨g2, hr, g4⟩
  have key2 : ∀ p, Cheapest tail head cost (· ∈ es) a p b → (a :: p.map head) ∈ ps ∧
      allSome ((hopsByIndex (a :: p.map head)).map pick) = some p := by
    intro p hp
    rw [cheapest_iff hw] at hp
    have hmem := (h3 (a :: p.map head)).2 ⟨_, rfl, hp.2.1⟩
    refine ⟨hmem, ?_⟩
    obtain ⟨q, g1, g2, g3, g4, g5⟩ := pick_hops hw hs hpick hp.2.1.1
    rw [hopsByIndex_eq (hp.2.1.nodup hpos), g1, g5 p hp.1 rfl]
  clear h2 h3 h
  -- the list of converted paths
  have : ∀ (ps' : List (List String)), ps' ⊆ ps → ps'.Nodup →
      ∃ l, allSome (ps'.map fun np => allSome ((hopsByIndex np).map pick)) = some l ∧ l.Nodup ∧
        ∀ p, p ∈ l ↔ (a :: p.map head) ∈ ps' ∧ Cheapest tail head cost (· ∈ es) a p b := by
    intro ps' hsub hnd
    induction ps' with
    | nil => exact ⟨[], rfl, by simp, by simp⟩
    | cons np ps' ih =>
      rw [List.nodup_cons] at hnd
      obtain ⟨l, l1, l2, l3⟩ := ih (fun x hx => hsub (by simp [hx])) hnd.2
      obtain ⟨p, p1, p2, p3⟩ := key np (hsub (by simp))
      refine ⟨p :: l, ?_, ?_, ?_⟩
      · rw [List.map_cons, p1, allSome, l1]; rfl
      · rw [List.nodup_cons]
        refine ⟨fun hm => ?_, l2⟩
        have := ((l3 p).1 hm).1
        rw [← p2] at this
        exact hnd.1 this
      · intro q
        simp only [List.mem_cons, l3]
        constructor
        · rintro (rfl | ⟨h1, h2⟩)
          · exact ⟨.inl p2.symm, p3⟩
          · exact ⟨.inr h1, h2⟩
        · rintro ⟨h1 | h1, h2⟩
          · left
            have e := (key2 q h2).2
            rw [h1, p1] at e
            exact (Option.some.inj e).symm
          · exact .inr ⟨h1, h2⟩
  obtain ⟨l, l1, l2, l3⟩ := this ps (fun _ h => h) h1
  exact ⟨l, l1, l2, fun p => ⟨fun h => ((l3 p).1 h).2, fun h => (l3 p).2 ⟨(key2 p h).1, h⟩⟩⟩

theorem reachable_iff_walk (hw : MinWeight tail head cost es w) {a b : String} :
    Reachable tail head (· ∈ es) a b ↔ ∃ r, IsWalk w a r b := by
  constructor
  · rintro ⟨p, hp⟩; exact ⟨_, (Route.isWalk hw hp).1⟩
  · rintro ⟨r, hr⟩
    obtain ⟨p, hp, -⟩ := hr.exists_route hw
    exact ⟨p, hp⟩

end

end NTM
