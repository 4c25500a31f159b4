import Verif.Spec.File
import Verif.Proof.Wp
import Verif.Props.Objects
import Mathlib.Data.List.TakeWhile

/-!
# Lemmas on reading model files
-/

namespace NTM

open Spec

/-! ### fields -/

theorem splitTabAux_join (cs cur : List Char) :
    List.intercalate ['\t'] (splitTabAux cs cur) = cur ++ cs ∧ splitTabAux cs cur ≠ [] := by
  induction cs generalizing cur with
  | nil => simp [splitTabAux, List.intercalate]
  | cons c cs ih =>
    unfold splitTabAux
    by_cases h : c = '\t'
    · subst h
      rw [if_pos rfl]
      refine ⟨?_, by simp⟩
      obtain ⟨h1, h2⟩ := ih []
      cases hs : splitTabAux cs [] with
      | nil => exact absurd hs h2
      | cons f fs =>
        rw [hs] at h1
        rw [List.intercalate_cons_cons, h1]
        simp
    · rw [if_neg h]
      obtain ⟨h1, h2⟩ := ih (cur ++ [c])
      exact ⟨by rw [h1]; simp, h2⟩

theorem splitTabAux_noTab (cs cur : List Char) (h : '\t' ∉ cur) :
    ∀ f ∈ splitTabAux cs cur, '\t' ∉ f := by
  induction cs generalizing cur with
  | nil => simpa [splitTabAux] using h
  | cons c cs ih =>
    unfold splitTabAux
    by_cases hc : c = '\t'
    · rw [if_pos hc]
      intro f hf
      rcases List.mem_cons.1 hf with rfl | hf
      · exact h
      · exact ih [] (by simp) f hf
    · rw [if_neg hc]
      refine ih (cur ++ [c]) ?_
      simp only [List.mem_append, List.mem_singleton, not_or]
      exact ⟨h, fun e => hc e.symm⟩

theorem splitTabAux_field (f cs cur : List Char) (h : '\t' ∉ f) :
    splitTabAux (f ++ cs) cur = splitTabAux cs (cur ++ f) := by
  induction f generalizing cur with
  | nil => simp
  | cons c f ih =>
    simp only [List.mem_cons, not_or] at h
    rw [List.cons_append]
    rw [show splitTabAux (c :: (f ++ cs)) cur = if c = '\t' then cur :: splitTabAux (f ++ cs) []
      else splitTabAux (f ++ cs) (cur ++ [c]) from rfl, if_neg (fun e => h.1 e.symm), ih _ h.2]
    simp

theorem splitTabAux_intercalate (f : List Char) (fs : List (List Char)) (cur : List Char)
    (h : ∀ g ∈ f :: fs, '\t' ∉ g) :
    splitTabAux (List.intercalate ['\t'] (f :: fs)) cur = (cur ++ f) :: fs := by
  induction fs generalizing f cur with
  | nil =>
    have := splitTabAux_field f [] cur (h f (by simp))
    simpa [List.intercalate, splitTabAux] using this
  | cons g fs ih =>
    rw [List.intercalate_cons_cons, List.append_assoc, splitTabAux_field f _ _ (h f (by simp))]
    show splitTabAux ('\t' :: List.intercalate ['\t'] (g :: fs)) (cur ++ f) = _
    rw [show splitTabAux ('\t' :: List.intercalate ['\t'] (g :: fs)) (cur ++ f) =
      (cur ++ f) :: splitTabAux (List.intercalate ['\t'] (g :: fs)) [] from by
        rw [splitTabAux]; simp]
    rw [ih g [] fun x hx => h x (List.mem_cons_of_mem _ hx)]
    simp

theorem hasFields_iff {line : String} {fs : List String} :
    HasFields line fs ↔ splitTab line = fs := by
  constructor
  · rintro ⟨h1, h2, h3⟩
    unfold splitTab
    rw [h3]
    cases fs with
    | nil => exact absurd rfl h1
    | cons f fs =>
      rw [List.map_cons, splitTabAux_intercalate]
      · simp
      · intro g hg
        rw [← List.map_cons (f := String.toList)] at hg
        obtain ⟨x, hx, rfl⟩ := List.mem_map.1 hg
        exact h2 x hx
  · rintro rfl
    obtain ⟨h1, h2⟩ := splitTabAux_join line.toList []
    refine ⟨?_, ?_, ?_⟩
    · unfold splitTab; simpa using h2
    · intro f hf
      unfold splitTab at hf
      obtain ⟨g, hg, rfl⟩ := List.mem_map.1 hf
      rw [String.toList_ofList]
      exact splitTabAux_noTab _ _ (by simp) g hg
    · unfold splitTab
      rw [List.map_map]
      have : (String.toList ∘ String.ofList) = id := by funext x; simp
      rw [this, List.map_id, h1]
      rfl

/-! ### tables -/

theorem indexFrom_none {lines : List String} {x : String} :
    indexFrom lines x 0 = none ↔ x ∉ lines := by
  unfold indexFrom
  rw [Option.map_eq_none_iff, List.findIdx?_eq_none_iff]
  simp only [List.drop_zero, decide_eq_false_iff_not]
  exact ⟨fun h hx => h x hx rfl, fun h y hy e => h (e ▸ hy)⟩

theorem indexFrom_some {lines : List String} {x : String} {a : ℕ}
    (h : indexFrom lines x 0 = some a) : After x lines (lines.drop (a + 1)) := by
  unfold indexFrom at h
  rw [Option.map_eq_some_iff] at h
  obtain ⟨b, hb, rfl⟩ := h
  rw [List.drop_zero] at hb
  rw [List.findIdx?_eq_some_iff_getElem] at hb
  obtain ⟨hl, hx, hmin⟩ := hb
  refine ⟨lines.take b, ?_, ?_⟩
  · have := of_decide_eq_true hx
    simp only [Nat.add_zero]
    conv_lhs => rw [← List.take_append_drop b lines, List.drop_eq_getElem_cons hl, this]
  · intro hmem
    obtain ⟨j, hj, e⟩ := List.mem_take_iff_getElem.1 hmem
    have h1 : j < b := by omega
    exact hmin j h1 (by simpa using e)

theorem after_unique {x : String} {lines p q : List String} (h1 : After x lines p)
    (h2 : After x lines q) : p = q := by
  obtain ⟨a, ha, na⟩ := h1
  obtain ⟨b, hb, nb⟩ := h2
  rw [ha] at hb
  clear ha
  induction a generalizing b with
  | nil =>
    cases b with
    | nil => simpa using hb
    | cons y b =>
      simp only [List.nil_append, List.cons_append, List.cons.injEq] at hb
      exact absurd (by simp [hb.1]) nb
  | cons z a ih =>
    cases b with
    | nil =>
      simp only [List.nil_append, List.cons_append, List.cons.injEq] at hb
      exact absurd (by simp [hb.1]) na
    | cons y b =>
      simp only [List.cons_append, List.cons.injEq] at hb
      exact ih (fun h => na (List.mem_cons_of_mem _ h)) b hb.2
        (fun h => nb (List.mem_cons_of_mem _ h))

theorem slice_eq (lines : List String) (b : ℕ) :
    pySlice lines b (findEndIndex b lines) = (lines.drop b).takeWhile fun l => l ≠ "" := by
  cases h : findEndIndex b lines with
  | none =>
    have := (C63_find_end_index b lines).2.1 h
    show lines.drop b = _
    symm
    rw [List.takeWhile_eq_self_iff]
    intro x hx
    obtain ⟨i, hi⟩ := List.mem_iff_getElem?.1 hx
    rw [List.getElem?_drop] at hi
    have h2 := this (b + i) (by omega)
    simp only [decide_eq_true_eq]
    rintro rfl
    exact h2 hi
  | some n =>
    obtain ⟨h1, h2, h3⟩ := ((C63_find_end_index b lines).1 n).1 h
    show (lines.take n).drop b = _
    rw [List.drop_take]
    have hn : n < lines.length := by
      by_contra hc
      rw [List.getElem?_eq_none (by omega)] at h2
      cases h2
    have hsplit : lines.drop b = (lines.drop b).take (n - b) ++ "" :: lines.drop (n + 1) := by
      conv_lhs => rw [← List.take_append_drop (n - b) (lines.drop b)]
      rw [List.drop_drop, show b + (n - b) = n by omega, List.drop_eq_getElem_cons hn]
      congr 1
      rw [List.getElem?_eq_getElem hn] at h2
      rw [Option.some.inj h2]
    conv_rhs => rw [hsplit]
    rw [List.takeWhile_append_of_pos]
    · simp
    · intro x hx
      obtain ⟨i, hi, e⟩ := List.mem_take_iff_getElem.1 hx
      simp only [decide_eq_true_eq]
      rintro rfl
      rw [List.getElem_drop] at e
      refine h3 (b + i) (by omega) (by omega) ?_
      rw [List.getElem?_eq_getElem (by omega), e]

theorem table_iff {title : String} {lines rows : List String} :
    Table title lines rows ↔ ∃ a, indexFrom lines title 0 = some a ∧
      rows = pySlice lines (a + 2) (findEndIndex (a + 2) lines) := by
  constructor
  · rintro ⟨post, h1, h2⟩
    cases h : indexFrom lines title 0 with
    | none =>
      obtain ⟨pre, e, -⟩ := h1
      exact absurd (by rw [e]; simp) (indexFrom_none.1 h)
    | some a =>
      refine ⟨a, rfl, ?_⟩
      rw [slice_eq, h2, after_unique h1 (indexFrom_some h), List.drop_drop]
  · rintro ⟨a, h, rfl⟩
    refine ⟨_, indexFrom_some h, ?_⟩
    rw [slice_eq, List.drop_drop]

theorem lspTable_iff {lines rows : List String} :
    LspTable lines rows ↔ rows = match indexFrom lines "RSVP_LSP_TABLE" 0 with
      | none => []
      | some a => lines.drop (a + 2) := by
  cases h : indexFrom lines "RSVP_LSP_TABLE" 0 with
  | none =>
    have hn := indexFrom_none.1 h
    constructor
    · rintro (⟨post, ⟨pre, e, -⟩, -⟩ | ⟨-, h⟩)
      · exact absurd (by rw [e]; simp) hn
      · exact h
    · rintro rfl; exact .inr ⟨hn, rfl⟩
  | some a =>
    have ha := indexFrom_some h
    constructor
    · rintro (⟨post, h1, rfl⟩ | ⟨hn, -⟩)
      · rw [after_unique h1 ha, List.drop_drop]
      · rw [indexFrom_none.2 hn] at h; cases h
    · rintro rfl
      exact .inl ⟨_, ha, by rw [List.drop_drop]⟩

/-! ### keeping the first of each key -/

section
variable {α κ : Type} [DecidableEq κ] (key : α → κ)

theorem mem_keepFirst_key {l : List α} {k : κ} :
    (∃ y ∈ keepFirst key l, key y = k) ↔ ∃ y ∈ l, key y = k := by
  induction l with
  | nil => simp [keepFirst]
  | cons x l ih =>
    simp only [keepFirst, List.mem_cons, List.mem_filter, decide_eq_true_eq]
    constructor
    · rintro ⟨y, rfl | ⟨hy, -⟩, e⟩
      · exact ⟨y, .inl rfl, e⟩
      · obtain ⟨z, hz, ez⟩ := ih.1 ⟨y, hy, e⟩
        exact ⟨z, .inr hz, ez⟩
    · rintro ⟨y, rfl | hy, e⟩
      · exact ⟨y, .inl rfl, e⟩
      · by_cases hk : key x = k
        · exact ⟨x, .inl rfl, hk⟩
        · obtain ⟨z, hz, ez⟩ := ih.2 ⟨y, hy, e⟩
          exact ⟨z, .inr ⟨hz, fun h => hk (by rw [← h, ez])⟩, ez⟩

theorem mem_of_keepFirst {l : List α} {x : α} (h : x ∈ keepFirst key l) : x ∈ l := by
  induction l with
  | nil => exact h
  | cons y l ih =>
    rcases List.mem_cons.1 h with rfl | h
    · simp
    · exact List.mem_cons_of_mem _ (ih (List.mem_filter.1 h).1)

theorem keepFirst_snoc (l : List α) (x : α) :
    keepFirst key (l ++ [x]) =
      if ∃ y ∈ l, key y = key x then keepFirst key l else keepFirst key l ++ [x] := by
  induction l with
  | nil => simp [keepFirst]
  | cons y l ih =>
    rw [List.cons_append]
    simp only [keepFirst]
    rw [ih]
    by_cases h : ∃ z ∈ l, key z = key x
    · rw [if_pos h, if_pos]
      obtain ⟨z, hz, e⟩ := h
      exact ⟨z, List.mem_cons_of_mem _ hz, e⟩
    · rw [if_neg h]
      by_cases hy : key y = key x
      · rw [if_pos ⟨y, by simp, hy⟩, List.filter_append]
        simp [hy]
      · rw [if_neg, List.filter_append]
        · have : ¬ key x = key y := fun e => hy e.symm
          simp [this]
        · rintro ⟨z, hz, e⟩
          rcases List.mem_cons.1 hz with rfl | hz
          · exact hy e
          · exact h ⟨z, hz, e⟩

theorem keepFirst_nodup (l : List α) : ((keepFirst key l).map key).Nodup := by
  induction l with
  | nil => simp [keepFirst]
  | cons x l ih =>
    simp only [keepFirst, List.map_cons, List.nodup_cons]
    refine ⟨?_, ?_⟩
    · rintro h
      obtain ⟨y, hy, e⟩ := List.mem_map.1 h
      have := (List.mem_filter.1 hy).2
      simp [e] at this
    · exact ih.sublist (List.filter_sublist.map key)

theorem keepFirst_self {l : List α} (h : (l.map key).Nodup) : keepFirst key l = l := by
  induction l with
  | nil => rfl
  | cons x l ih =>
    simp only [List.map_cons, List.nodup_cons] at h
    simp only [keepFirst]
    rw [ih h.2, List.filter_eq_self.2]
    intro y hy
    simp only [decide_eq_true_eq]
    rintro e
    exact h.1 (e ▸ List.mem_map_of_mem hy)

end

theorem mem_keepFirst_id {l : List String} {x : String} : x ∈ keepFirst id l ↔ x ∈ l := by
  have := mem_keepFirst_key (id : String → String) (l := l) (k := x)
  simpa using this

/-! ### lines and their records -/

theorem hasFields_unique {line : String} {f g : List String} (h1 : HasFields line f)
    (h2 : HasFields line g) : f = g := by
  rw [hasFields_iff] at h1 h2
  rw [← h1, h2]

theorem parseRsvp_iff (x : String) : parseRsvp x = true ↔ x ∈ ["T", "True", "true"] := by
  simp [parseRsvp, or_assoc]

theorem bool_eq_of_iff {a b : Bool} {p : Prop} (h1 : a = true ↔ p) (h2 : b = true ↔ p) : a = b := by
  cases a <;> cases b <;> simp_all

theorem ifcLine_iff {rd : Reader} {k : Kind} {line : String} {r : IfcRec} :
    IfcLine rd k line r ↔ ∃ row cap, readIfcRow k line = .ok row ∧ row.node = r.node ∧
      row.remote = r.remote ∧ row.name = r.name ∧ rd.int row.cost = some r.cost ∧ 1 ≤ r.cost ∧
      rd.int row.capacity = some cap ∧ r.capacity = cap ∧ 0 < r.capacity ∧
      row.ckt = r.circuitId ∧ row.rsvp = r.rsvp ∧ row.readPct rd = some r.percent := by
  constructor
  · rintro ⟨cost, capacity, col, opts, cap, hf, h1, h2, h3, h4, h5, hc, ho⟩
    rw [hasFields_iff] at hf
    have hopts : (opts = [] ∧ r.rsvp = true ∧ r.percent = 100) ∨
        (∃ x, opts = [x] ∧ r.rsvp = parseRsvp x ∧ r.percent = 100) ∨
        (∃ x y, opts = [x, y] ∧ r.rsvp = parseRsvp x ∧ rd.float y = some r.percent) := by
      match opts, ho with
      | [], ho => exact .inl ⟨rfl, ho⟩
      | [x], ho => exact .inr (.inl ⟨x, rfl, bool_eq_of_iff ho.1 (parseRsvp_iff x), ho.2⟩)
      | [x, y], ho => exact .inr (.inr ⟨x, y, rfl, bool_eq_of_iff ho.1 (parseRsvp_iff x), ho.2⟩)
    unfold readIfcRow
    rw [hf]
    cases k with
    | perf =>
      obtain ⟨rfl, hc⟩ := hc
      rcases hopts with ⟨rfl, e, p⟩ | ⟨x, rfl, e, p⟩ | ⟨x, y, rfl, e, p⟩
      · exact ⟨_, cap, rfl, rfl, rfl, rfl, h1, h2, h3, h4, h5, hc.symm, e.symm, by rw [p]; rfl⟩
      · exact ⟨_, cap, rfl, rfl, rfl, rfl, h1, h2, h3, h4, h5, hc.symm, e.symm, by rw [p]; rfl⟩
      · exact ⟨_, cap, rfl, rfl, rfl, rfl, h1, h2, h3, h4, h5, hc.symm, e.symm, by rw [← p]; rfl⟩
    | flex =>
      obtain ⟨id, rfl, hc⟩ := hc
      rcases hopts with ⟨rfl, e, p⟩ | ⟨x, rfl, e, p⟩ | ⟨x, y, rfl, e, p⟩
      · exact ⟨_, cap, rfl, rfl, rfl, rfl, h1, h2, h3, h4, h5, hc.symm, e.symm, by rw [p]; rfl⟩
      · exact ⟨_, cap, rfl, rfl, rfl, rfl, h1, h2, h3, h4, h5, hc.symm, e.symm, by rw [p]; rfl⟩
      · exact ⟨_, cap, rfl, rfl, rfl, rfl, h1, h2, h3, h4, h5, hc.symm, e.symm, by rw [← p]; rfl⟩
  · rintro ⟨row, cap, hr, rfl', rfl'', e3, h1, h2, h3, h4, h5, hc, he, hp⟩
    obtain ⟨rn, rr, rnm, rc, rcap, rid, rrsvp, rpct⟩ := r
    simp only at rfl' rfl'' e3 h1 h2 h3 h4 h5 hc he hp
    subst rfl' rfl'' e3 hc he
    unfold readIfcRow at hr
    split at hr
    · next hs => cases hr; exact ⟨_, _, [], [], cap, hasFields_iff.2 hs, h1, h2, h3, h4, h5, ⟨rfl, rfl⟩, rfl, (Option.some.inj hp).symm⟩
    · next hs => cases hr; exact ⟨_, _, [], [_], cap, hasFields_iff.2 hs, h1, h2, h3, h4, h5, ⟨rfl, rfl⟩, parseRsvp_iff _, (Option.some.inj hp).symm⟩
    · next hs => cases hr; exact ⟨_, _, [], [_, _], cap, hasFields_iff.2 hs, h1, h2, h3, h4, h5, ⟨rfl, rfl⟩, parseRsvp_iff _, hp⟩
    · next hs => cases hr; exact ⟨_, _, [_], [], cap, hasFields_iff.2 hs, h1, h2, h3, h4, h5, ⟨_, rfl, rfl⟩, rfl, (Option.some.inj hp).symm⟩
    · next hs => cases hr; exact ⟨_, _, [_], [_], cap, hasFields_iff.2 hs, h1, h2, h3, h4, h5, ⟨_, rfl, rfl⟩, parseRsvp_iff _, (Option.some.inj hp).symm⟩
    · next hs => cases hr; exact ⟨_, _, [_], [_, _], cap, hasFields_iff.2 hs, h1, h2, h3, h4, h5, ⟨_, rfl, rfl⟩, parseRsvp_iff _, hp⟩
    · split at hr <;> cases hr
    · split at hr <;> cases hr

end NTM
