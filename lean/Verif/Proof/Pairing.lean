import Verif.Proof.LoadPhase
import Mathlib.Data.List.Pairwise

/-!
# Building circuits
-/

namespace NTM

open Spec

/-- `s` with other circuits, circuit ids and pairing marks -/
def State.withCkt (s : State) (C : List (ℕ × ℕ)) (B : ℕ → Bool) (I : ℕ → CktId) : State :=
  { s with circuits := C, ifc := fun i => { s.ifc i with inCkt := B i, cktId := I i } }

/-- two pairs have no end in common -/
def Apart (c d : ℕ × ℕ) : Prop := c.1 ≠ d.1 ∧ c.1 ≠ d.2 ∧ c.2 ≠ d.1 ∧ c.2 ≠ d.2

/-- `i` is an end of the pair -/
def IsEnd (i : ℕ) (c : ℕ × ℕ) : Prop := i = c.1 ∨ i = c.2

instance (i : ℕ) (c : ℕ × ℕ) : Decidable (IsEnd i c) := inferInstanceAs (Decidable (_ ∨ _))

theorem Apart.not_isEnd {c d : ℕ × ℕ} (h : Apart c d) {i : ℕ} (hc : IsEnd i c) : ¬ IsEnd i d := by
  obtain ⟨h1, h2, h3, h4⟩ := h
  rcases hc with rfl | rfl <;> rintro (h | h)
  · exact h1 h
  · exact h2 h
  · exact h3 h
  · exact h4 h

theorem Apart.symm {c d : ℕ × ℕ} (h : Apart c d) : Apart d c :=
  ⟨h.1.symm, h.2.2.1.symm, h.2.1.symm, h.2.2.2.symm⟩

theorem pairwise_unique {acc : List (ℕ × ℕ)} (h : acc.Pairwise Apart) {c d : ℕ × ℕ} (hc : c ∈ acc)
    (hd : d ∈ acc) {i : ℕ} (h1 : IsEnd i c) (h2 : IsEnd i d) : c = d := by
  by_contra hne
  have : Apart c d := by
    have : Std.Symm Apart := ⟨fun _ _ h => Apart.symm h⟩
    exact h.forall hc hd hne
  exact this.not_isEnd h1 h2

/-- the pairs made so far -/
structure LinkInv (s : State) (B : ℕ → Bool) (acc : List (ℕ × ℕ)) : Prop where
  ends : ∀ c ∈ acc, c.1 ∈ s.ifs ∧ c.2 ∈ s.ifs ∧ s.tail c.1 = s.head c.2 ∧ s.head c.1 = s.tail c.2
  marked : ∀ c ∈ acc, B c.1 = true ∧ B c.2 = true
  mark : ∀ i ∈ s.ifs, B i = true → ∃ c ∈ acc, IsEnd i c
  apart : acc.Pairwise Apart

theorem LinkInv.snoc {s : State} {B : ℕ → Bool} {acc : List (ℕ × ℕ)} (h : LinkInv s B acc)
    {a b : ℕ} (ha : a ∈ s.ifs) (hb : b ∈ s.ifs) (h1 : s.tail a = s.head b)
    (h2 : s.head a = s.tail b) (ha' : B a = false) (hb' : B b = false) :
    LinkInv s (fun i => if i = a ∨ i = b then true else B i) (acc ++ [(a, b)]) where
  ends := by
    intro c hc
    rcases List.mem_append.1 hc with hc | hc
    · exact h.ends c hc
    · rw [List.mem_singleton.1 hc]; exact ⟨ha, hb, h1, h2⟩
  marked := by
    intro c hc
    rcases List.mem_append.1 hc with hc | hc
    · have := h.marked c hc
      simp only [this.1, this.2, ite_self, and_self]
    · rw [List.mem_singleton.1 hc]; simp
  mark := by
    intro i hi hB
    by_cases hab : i = a ∨ i = b
    · exact ⟨(a, b), by simp, hab⟩
    · simp only [hab, if_false] at hB
      obtain ⟨c, hc, he⟩ := h.mark i hi hB
      exact ⟨c, by simp [hc], he⟩
  apart := by
    rw [List.pairwise_append]
    refine ⟨h.apart, by simp, ?_⟩
    intro c hc d hd
    rw [List.mem_singleton.1 hd]
    have := h.marked c hc
    refine ⟨?_, ?_, ?_, ?_⟩ <;> intro he <;> simp only [] at he <;> rw [he] at this <;>
      simp_all

theorem withCkt_withCkt (s : State) (C C' : List (ℕ × ℕ)) (B B' : ℕ → Bool) (I I' : ℕ → CktId) :
    (s.withCkt C B I).withCkt C' B' I' = s.withCkt C' B' I' := rfl

theorem withCkt_self (s : State) :
    s = s.withCkt s.circuits (fun i => (s.ifc i).inCkt) (fun i => (s.ifc i).cktId) := rfl

theorem ifcFromNodes_withCkt (s : State) (C : List (ℕ × ℕ)) (B : ℕ → Bool) (I : ℕ → CktId)
    (u v : String) : (s.withCkt C B I).ifcFromNodes u v = s.ifcFromNodes u v := rfl

theorem ifcFromNodes_some {s : State} {u v : String} {i : ℕ} (h : s.ifcFromNodes u v = some i) :
    i ∈ s.ifs ∧ s.tail i = u ∧ s.head i = v := by
  unfold State.ifcFromNodes at h
  have h1 := List.mem_of_find?_eq_some h
  have h2 := List.find?_some h
  simp only [Bool.and_eq_true, decide_eq_true_eq] at h2
  exact ⟨h1, h2.1, h2.2⟩

theorem ifcFromNodes_isSome {s : State} {i : ℕ} (hi : i ∈ s.ifs) :
    ∃ j, s.ifcFromNodes (s.tail i) (s.head i) = some j := by
  unfold State.ifcFromNodes
  cases h : s.ifs.find? fun j => s.tail j = s.tail i && s.head j = s.head i with
  | some j => exact ⟨j, rfl⟩
  | none =>
    rw [List.find?_eq_none] at h
    have := h i hi
    simp at this

theorem hasEdge_iff {s : State} {es : List ℕ} {u v : String} :
    s.hasEdge es u v = true ↔ ∃ i ∈ es, s.tail i = u ∧ s.head i = v := by
  unfold State.hasEdge
  simp

/-- circuit ids given out by a PerformanceModel -/
structure NumIds (s : State) (I : ℕ → CktId) (k : ℤ) (acc : List (ℕ × ℕ)) : Prop where
  ids : ∀ c ∈ acc, ∃ m, m < k ∧ I c.1 = .num m ∧ I c.2 = .num m
  distinct : acc.Pairwise fun c d => I c.1 ≠ I d.1
  rest : ∀ i, (∀ c ∈ acc, ¬ IsEnd i c) → I i = (s.ifc i).cktId

theorem NumIds.snoc {s : State} {I : ℕ → CktId} {k : ℤ} {acc : List (ℕ × ℕ)} (h : NumIds s I k acc)
    {a b : ℕ} (hab : ∀ c ∈ acc, Apart c (a, b)) :
    NumIds s (fun i => if i = a ∨ i = b then .num k else I i) (k + 1) (acc ++ [(a, b)]) := by
  have hno : ∀ c ∈ acc, (¬ (c.1 = a ∨ c.1 = b)) ∧ ¬ (c.2 = a ∨ c.2 = b) := by
    intro c hc
    obtain ⟨h1, h2, h3, h4⟩ := hab c hc
    exact ⟨by rintro (h | h); exacts [h1 h, h2 h], by rintro (h | h); exacts [h3 h, h4 h]⟩
  refine ⟨?_, ?_, ?_⟩
  · intro c hc
    rcases List.mem_append.1 hc with hc | hc
    · obtain ⟨m, h1, h2, h3⟩ := h.ids c hc
      refine ⟨m, by omega, ?_, ?_⟩
      · simp only [(hno c hc).1, if_false]; exact h2
      · simp only [(hno c hc).2, if_false]; exact h3
    · rw [List.mem_singleton.1 hc]
      exact ⟨k, by omega, by simp, by simp⟩
  · rw [List.pairwise_append]
    refine ⟨?_, by simp, ?_⟩
    · refine h.distinct.imp_of_mem ?_
      intro c d hc hd hcd
      simp only [(hno c hc).1, (hno d hd).1, if_false]
      exact hcd
    · intro c hc d hd
      rw [List.mem_singleton.1 hd]
      obtain ⟨m, h1, h2, h3⟩ := h.ids c hc
      simp only [(hno c hc).1, if_false, true_or, if_true, h2]
      intro he
      cases he
      omega
  · intro i hi
    have h1 : ¬ (i = a ∨ i = b) := fun he => hi (a, b) (by simp) he
    simp only [h1, if_false]
    exact h.rest i fun c hc => hi c (by simp [hc])

theorem updIfc_pair_withCkt (s : State) (C : List (ℕ × ℕ)) (B : ℕ → Bool) (I : ℕ → CktId)
    (a b : ℕ) (k : ℤ) :
    ((s.withCkt C B I).updIfc a fun x => { x with inCkt := true, cktId := .num k }).updIfc b
      (fun x => { x with inCkt := true, cktId := .num k }) =
    s.withCkt C (fun i => if i = a ∨ i = b then true else B i)
      (fun i => if i = a ∨ i = b then .num k else I i) := by
  unfold State.updIfc State.withCkt
  simp only []
  congr 1
  funext i
  by_cases h2 : i = b
  · subst h2
    by_cases h1 : i = a <;> simp [h1]
  · by_cases h1 : i = a <;> simp [h1, h2]

theorem updIfc_pair_withCkt' (s : State) (C : List (ℕ × ℕ)) (B : ℕ → Bool) (I : ℕ → CktId)
    (a b : ℕ) :
    ((s.withCkt C B I).updIfc a fun x => { x with inCkt := true }).updIfc b
      (fun x => { x with inCkt := true }) =
    s.withCkt C (fun i => if i = a ∨ i = b then true else B i) I := by
  unfold State.updIfc State.withCkt
  simp only []
  congr 1
  funext i
  by_cases h2 : i = b
  · subst h2
    by_cases h1 : i = a <;> simp [h1]
  · by_cases h1 : i = a <;> simp [h1, h2]

theorem pairPerf_spec {s : State} (es : List ℕ) (hes : ∀ e ∈ es, e ∈ s.ifs)
    (hrev : ∀ e ∈ es, ∃ j ∈ s.ifs, s.tail j = s.head e ∧ s.head j = s.tail e)
    (C : List (ℕ × ℕ)) (B : ℕ → Bool) (I : ℕ → CktId) (k : ℤ) (acc : List (ℕ × ℕ))
    (hl : LinkInv s B acc) (hn : NumIds s I k acc) :
    wp (pairPerf es k acc) (fun r t => ∃ B' I' k', t = s.withCkt C B' I' ∧ LinkInv s B' r ∧
        NumIds s I' k' r ∧ acc ⊆ r ∧
        (SingleLinks s → ∀ e ∈ es, ∃ c ∈ r, IsEnd e c) ∧
        ∀ c ∈ r, c ∈ acc ∨ ∃ e ∈ es, s.tail c.1 = s.tail e ∧ s.head c.1 = s.head e)
      (fun _ _ => False) (s.withCkt C B I) := by
  induction es generalizing B I k acc with
  | nil => exact ⟨B, I, k, rfl, hl, hn, fun _ h => h, by simp, fun _ h => .inl h⟩
  | cons e es ih =>
    have hes' := fun x hx => hes x (List.mem_cons_of_mem e hx)
    have hrev' := fun x hx => hrev x (List.mem_cons_of_mem e hx)
    obtain ⟨j, hj, hj1, hj2⟩ := hrev e (by simp)
    obtain ⟨a, ha⟩ := ifcFromNodes_isSome (hes e (by simp))
    obtain ⟨b, hb⟩ := ifcFromNodes_isSome hj
    rw [hj1, hj2] at hb
    unfold pairPerf
    rw [wp_bind, wp_get]
    rw [show (s.withCkt C B I).ifcFromNodes ((s.withCkt C B I).tail e) ((s.withCkt C B I).head e)
      = some a from ha, show (s.withCkt C B I).ifcFromNodes ((s.withCkt C B I).head e)
        ((s.withCkt C B I).tail e) = some b from hb]
    simp only []
    obtain ⟨ha0, ha1, ha2⟩ := ifcFromNodes_some ha
    obtain ⟨hb0, hb1, hb2⟩ := ifcFromNodes_some hb
    split
    · next hfree =>
      obtain ⟨hfa, hfb⟩ : B a = false ∧ B b = false := hfree
      rw [wp_bind, wp_set, updIfc_pair_withCkt]
      have hl' := hl.snoc ha0 hb0 (by rw [ha1, hb2]) (by rw [ha2, hb1]) hfa hfb
      have hn' : NumIds s _ (k + 1) (acc ++ [(a, b)]) := hn.snoc (a := a) (b := b) (by
        intro c hc
        have := (List.pairwise_append.1 hl'.apart).2.2 c hc (a, b) (by simp)
        exact this)
      refine wp_mono (ih hes' hrev' _ _ _ _ hl' hn') ?_ (fun _ _ h => h)
      rintro r t ⟨B', I', k', h1, h2, h3, h4, h5, h6⟩
      refine ⟨B', I', k', h1, h2, h3, fun x hx => h4 (by simp [hx]), ?_, ?_⟩
      swap
      · intro c hc
        rcases h6 c hc with h | ⟨x, hx, h⟩
        · rcases List.mem_append.1 h with h | h
          · exact .inl h
          · rw [List.mem_singleton.1 h]
            exact .inr ⟨e, by simp, ha1, ha2⟩
        · exact .inr ⟨x, by simp [hx], h⟩
      intro hs x hx
      rcases List.mem_cons.1 hx with rfl | hx
      · refine ⟨(a, b), h4 (by simp), .inl ?_⟩
        exact hs x (hes x (by simp)) a ha0 ha1.symm ha2.symm
      · exact h5 hs x hx
    · next hbusy =>
      have hbusy : ¬ (B a = false ∧ B b = false) := hbusy
      refine wp_mono (ih hes' hrev' _ _ _ _ hl hn) ?_ (fun _ _ h => h)
      rintro r t ⟨B', I', k', h1, h2, h3, h4, h5, h6⟩
      refine ⟨B', I', k', h1, h2, h3, h4, ?_, ?_⟩
      swap
      · intro c hc
        rcases h6 c hc with h | ⟨x, hx, h⟩
        · exact .inl h
        · exact .inr ⟨x, by simp [hx], h⟩
      intro hs x hx
      rcases List.mem_cons.1 hx with rfl | hx
      · have hxa : x = a := hs x (hes x (by simp)) a ha0 ha1.symm ha2.symm
        rw [hxa]
        by_cases hBa : B a = true
        · obtain ⟨c, hc, he⟩ := hl.mark a ha0 hBa
          exact ⟨c, h4 hc, he⟩
        · have hBb : B b = true := by
            by_contra hBb
            exact hbusy ⟨by simpa using hBa, by simpa using hBb⟩
          obtain ⟨c, hc, he⟩ := hl.mark b hb0 hBb
          refine ⟨c, h4 hc, ?_⟩
          obtain ⟨e1, e2, e3, e4⟩ := hl.ends c hc
          rcases he with he | he
          · right
            refine hs a ha0 c.2 e2 ?_ ?_
            · rw [← e4, ← he, hb2, ha1]
            · rw [← e3, ← he, hb1, ha2]
          · left
            refine hs a ha0 c.1 e1 ?_ ?_
            · rw [e3, ← he, hb2, ha1]
            · rw [e4, ← he, hb1, ha2]
      · exact h5 hs x hx

/-- both lookups of the FlexModel's pairing loop succeed -/
def FlexFound (s : State) (e : ℕ) : Prop :=
  (∃ a l, s.ifcsFromNodes (s.tail e) (s.head e) (s.ifc e).cktId = some (a :: l)) ∧
  ∃ b l, s.ifcsFromNodes (s.head e) (s.tail e) (s.ifc e).cktId = some (b :: l)

theorem ifcsFromNodes_some {s : State} {u v : String} {id : CktId} {a : ℕ} {l : List ℕ}
    (h : s.ifcsFromNodes u v id = some (a :: l)) :
    a ∈ s.ifs ∧ s.tail a = u ∧ s.head a = v ∧
      (id ≠ .none → (s.ifc a).cktId = id ∧ ∀ i ∈ s.ifs, s.tail i = u → s.head i = v →
        (s.ifc i).cktId = id → i = a) := by
  unfold State.ifcsFromNodes at h
  split at h
  · injection h with h
    have : a ∈ s.ifs.filter fun i => s.tail i = u && s.head i = v := by rw [h]; simp
    simp only [List.mem_filter, Bool.and_eq_true, decide_eq_true_eq] at this
    exact ⟨this.1, this.2.1, this.2.2, fun h => absurd rfl h⟩
  · simp only [] at h
    split at h
    · cases h
    · next hlen =>
      injection h with h
      have hm : a ∈ s.ifs.filter fun i => s.tail i = u && s.head i = v &&
          decide ((s.ifc i).cktId = id) := by rw [h]; simp
      simp only [List.mem_filter, Bool.and_eq_true, decide_eq_true_eq] at hm
      refine ⟨hm.1, hm.2.1.1, hm.2.1.2, fun _ => ⟨hm.2.2, ?_⟩⟩
      intro i hi h1 h2 h3
      have hmi : i ∈ s.ifs.filter fun i => s.tail i = u && s.head i = v &&
          decide ((s.ifc i).cktId = id) := by
        simp [hi, h1, h2, h3]
      rw [h] at hlen hmi
      have : l = [] := by
        cases l with
        | nil => rfl
        | cons _ _ => simp at hlen
      rw [this] at hmi
      simpa using hmi

theorem pairFlex_spec {s : State} (es : List ℕ) (hes : ∀ e ∈ es, e ∈ s.ifs)
    (C : List (ℕ × ℕ)) (B : ℕ → Bool) (acc : List (ℕ × ℕ))
    (hl : LinkInv s B acc)
    (hid : CktIdsSet s → s.kind = .flex → ∀ c ∈ acc, (s.ifc c.1).cktId = (s.ifc c.2).cktId) :
    wp (pairFlex es acc) (fun r t => ∃ B', t = s.withCkt C B' (fun i => (s.ifc i).cktId) ∧
        LinkInv s B' r ∧ acc ⊆ r ∧ (∀ e ∈ es, FlexFound s e) ∧
        (CktIdsSet s → s.kind = .flex → (∀ c ∈ r, (s.ifc c.1).cktId = (s.ifc c.2).cktId) ∧
          ∀ e ∈ es, ∃ c ∈ r, IsEnd e c) ∧
        ∀ c ∈ r, c ∈ acc ∨ ∃ e ∈ es, s.tail c.1 = s.tail e ∧ s.head c.1 = s.head e ∧
          ((s.ifc e).cktId ≠ .none → c.1 = e))
      (fun _ t => (∃ B', t = s.withCkt C B' (fun i => (s.ifc i).cktId)) ∧
        ∃ e ∈ es, ¬ FlexFound s e)
      (s.withCkt C B fun i => (s.ifc i).cktId) := by
  induction es generalizing B acc with
  | nil => exact ⟨B, rfl, hl, fun _ h => h, by simp, fun h k => ⟨hid h k, by simp⟩, fun _ h => .inl h⟩
  | cons e es ih =>
    have hes' := fun x hx => hes x (List.mem_cons_of_mem e hx)
    unfold pairFlex
    rw [wp_bind, wp_get]
    change wp (match s.ifcsFromNodes (s.tail e) (s.head e) (s.ifc e).cktId,
          s.ifcsFromNodes (s.head e) (s.tail e) (s.ifc e).cktId with
      | some (a :: _), some (b :: _) =>
        if B a = false ∧ B b = false then _ else _
      | _, _ => _) _ _ _
    split
    · next a la b lb ha hb =>
      obtain ⟨ha0, ha1, ha2, ha3⟩ := ifcsFromNodes_some ha
      obtain ⟨hb0, hb1, hb2, hb3⟩ := ifcsFromNodes_some hb
      have hfound : FlexFound s e := ⟨⟨a, la, ha⟩, ⟨b, lb, hb⟩⟩
      split
      · next hfree =>
        obtain ⟨hfa, hfb⟩ := hfree
        rw [wp_bind, wp_set, updIfc_pair_withCkt']
        have hl' := hl.snoc ha0 hb0 (by rw [ha1, hb2]) (by rw [ha2, hb1]) hfa hfb
        have hid' : CktIdsSet s → s.kind = .flex →
            ∀ c ∈ acc ++ [(a, b)], (s.ifc c.1).cktId = (s.ifc c.2).cktId := by
          intro hs hk c hc
          rcases List.mem_append.1 hc with hc | hc
          · exact hid hs hk c hc
          · rw [List.mem_singleton.1 hc]
            have := hs hk e (hes e (by simp))
            simp only []
            rw [(ha3 this).1, (hb3 this).1]
        refine wp_mono (ih hes' _ _ hl' hid') ?_ ?_
        · rintro r t ⟨B', h1, h2, h4, h6, h5, h7⟩
          refine ⟨B', h1, h2, fun x hx => h4 (by simp [hx]), ?_, ?_, ?_⟩
          rotate_left 2
          · intro c hc
            rcases h7 c hc with h | ⟨x, hx, h⟩
            · rcases List.mem_append.1 h with h | h
              · exact .inl h
              · rw [List.mem_singleton.1 h]
                exact .inr ⟨e, by simp, ha1, ha2,
                  fun hn => ((ha3 hn).2 e (hes e (by simp)) rfl rfl rfl).symm⟩
            · exact .inr ⟨x, by simp [hx], h⟩
          · intro x hx
            rcases List.mem_cons.1 hx with rfl | hx
            · exact hfound
            · exact h6 x hx
          · intro hs hk
            refine ⟨(h5 hs hk).1, ?_⟩
            intro x hx
            rcases List.mem_cons.1 hx with rfl | hx
            · refine ⟨(a, b), h4 (by simp), .inl ?_⟩
              exact (ha3 (hs hk x (hes x (by simp)))).2 x (hes x (by simp)) rfl rfl rfl
            · exact (h5 hs hk).2 x hx
        · rintro _ t ⟨h1, x, hx, h2⟩
          exact ⟨h1, x, by simp [hx], h2⟩
      · next hbusy =>
        refine wp_mono (ih hes' _ _ hl hid) ?_ ?_
        · rintro r t ⟨B', h1, h2, h4, h6, h5, h7⟩
          refine ⟨B', h1, h2, h4, ?_, ?_, ?_⟩
          rotate_left 2
          · intro c hc
            rcases h7 c hc with h | ⟨x, hx, h⟩
            · exact .inl h
            · exact .inr ⟨x, by simp [hx], h⟩
          · intro x hx
            rcases List.mem_cons.1 hx with rfl | hx
            · exact hfound
            · exact h6 x hx
          · intro hs hk
            refine ⟨(h5 hs hk).1, ?_⟩
            intro x hx
            rcases List.mem_cons.1 hx with rfl | hx
            · have hidx := hs hk x (hes x (by simp))
              have hxa : x = a := (ha3 hidx).2 x (hes x (by simp)) rfl rfl rfl
              rw [hxa]
              by_cases hBa : B a = true
              · obtain ⟨c, hc, he⟩ := hl.mark a ha0 hBa
                exact ⟨c, h4 hc, he⟩
              · have hBb : B b = true := by
                  by_contra hBb
                  exact hbusy ⟨by simpa using hBa, by simpa using hBb⟩
                obtain ⟨c, hc, he⟩ := hl.mark b hb0 hBb
                refine ⟨c, h4 hc, ?_⟩
                obtain ⟨e1, e2, e3, e4⟩ := hl.ends c hc
                have hcid := hid hs hk c hc
                rcases he with he | he
                · right
                  refine ((ha3 hidx).2 c.2 e2 ?_ ?_ ?_).symm
                  · rw [← e4, ← he, hb2]
                  · rw [← e3, ← he, hb1]
                  · rw [← hcid, ← he, (hb3 hidx).1]
                · left
                  refine ((ha3 hidx).2 c.1 e1 ?_ ?_ ?_).symm
                  · rw [e3, ← he, hb2]
                  · rw [e4, ← he, hb1]
                  · rw [hcid, ← he, (hb3 hidx).1]
            · exact (h5 hs hk).2 x hx
        · rintro _ t ⟨h1, x, hx, h2⟩
          exact ⟨h1, x, by simp [hx], h2⟩
    · next hno =>
      rw [wp_raise]
      refine ⟨⟨B, rfl⟩, e, by simp, ?_⟩
      rintro ⟨⟨a, la, ha⟩, ⟨b, lb, hb⟩⟩
      exact hno a la b lb ha hb

end NTM
