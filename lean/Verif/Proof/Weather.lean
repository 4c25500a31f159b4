import Verif.Spec.Weather
import Verif.Spec.Registry
import Mathlib.Data.String.Basic
import Verif.Proof.Circuits
import Verif.Proof.Groups
import Mathlib.Tactic.NormNum
import Mathlib.Tactic.Linarith

/-!
# Lemmas about the map page
-/

namespace NTM

open Spec

/-! ## Colours -/

theorem rangeColor_utilRanges (u : ℚ) : rangeColor u utilRanges =
    if 0 ≤ u ∧ u ≤ 24 then some "royalblue" else if 25 ≤ u ∧ u ≤ 49 then some "green"
    else if 50 ≤ u ∧ u ≤ 74 then some "yellow" else if 75 ≤ u ∧ u ≤ 89 then some "orangered"
    else if 90 ≤ u ∧ u ≤ 99 then some "darkred" else none := by
  have h1 : rangeBounds "0-24" = some (0, 24) := by decide +kernel
  have h2 : rangeBounds "25-49" = some (25, 49) := by decide +kernel
  have h3 : rangeBounds "50-74" = some (50, 74) := by decide +kernel
  have h4 : rangeBounds "75-89" = some (75, 89) := by decide +kernel
  have h5 : rangeBounds "90-99" = some (90, 99) := by decide +kernel
  have h6 : rangeBounds "100+" = none := by decide +kernel
  have h7 : rangeBounds "failed" = none := by decide +kernel
  simp only [utilRanges, rangeColor, h1, h2, h3, h4, h5, h6, h7]
  norm_num

/-! ## Splitting at hyphens -/

theorem splitDashAux_field (f cs cur : List Char) (h : '-' ∉ f) :
    splitDashAux (f ++ cs) cur = splitDashAux cs (cur ++ f) := by
  induction f generalizing cur with
  | nil => simp
  | cons c f ih =>
    simp only [List.mem_cons, not_or] at h
    rw [List.cons_append,
      show splitDashAux (c :: (f ++ cs)) cur = if c = '-' then cur :: splitDashAux (f ++ cs) []
      else splitDashAux (f ++ cs) (cur ++ [c]) from rfl, if_neg (fun e => h.1 e.symm), ih _ h.2]
    simp

theorem splitDash_single {a : String} (ha : '-' ∉ a.toList) : splitDash a = [a] := by
  unfold splitDash
  have := splitDashAux_field a.toList [] [] ha
  rw [List.append_nil] at this
  rw [this]
  simp [splitDashAux]

theorem splitDash_cons {a : String} (ha : '-' ∉ a.toList) (b : String) :
    splitDash (a ++ "-" ++ b) = a :: splitDash b := by
  unfold splitDash
  rw [String.toList_append, String.toList_append, List.append_assoc, splitDashAux_field _ _ _ ha]
  simp [splitDashAux]

theorem splitDash_pair {a b : String} (ha : '-' ∉ a.toList) (hb : '-' ∉ b.toList) :
    splitDash (pairKey a b) = [a, b] := by
  unfold pairKey
  rw [splitDash_cons ha, splitDash_single hb]

/-! ## Edges -/

theorem ends_perm {t : State} (hnd : t.ifs.Nodup)
    (h1 : ∀ i ∈ t.ifs, ∃ c ∈ t.circuits, i = c.1 ∨ i = c.2)
    (h2 : ∀ c ∈ t.circuits, c.1 ∈ t.ifs ∧ c.2 ∈ t.ifs ∧ c.1 ≠ c.2)
    (h3 : t.circuits.Pairwise fun c d => c.1 ≠ d.1 ∧ c.1 ≠ d.2 ∧ c.2 ≠ d.1 ∧ c.2 ≠ d.2) :
    (t.circuits.flatMap fun c => [c.1, c.2]).Perm t.ifs := by
  rw [List.perm_ext_iff_of_nodup _ hnd]
  · intro i
    simp only [List.mem_flatMap, List.mem_cons, List.not_mem_nil, or_false]
    constructor
    · rintro ⟨c, hc, rfl | rfl⟩
      · exact (h2 c hc).1
      · exact (h2 c hc).2.1
    · exact h1 i
  · rw [List.nodup_flatMap]
    refine ⟨fun c hc => ?_, h3.imp ?_⟩
    · simp [(h2 c hc).2.2]
    · rintro c d ⟨a1, a2, a3, a4⟩
      simp only [Function.onFun, List.disjoint_cons_left, List.mem_cons, List.not_mem_nil, or_false,
        not_or]
      exact ⟨⟨a1, a2⟩, ⟨a3, a4⟩, List.disjoint_nil_left _⟩

/-! ## Menus -/

theorem grouped_entries {g : List (String × List ℕ)} {objs : List ℕ} {src dst : ℕ → String}
    (h : Grouped g objs src dst) :
    ∃ es : List ((String × String) × List ℕ), g = es.map (fun e => (pairKey e.1.1 e.1.2, e.2)) ∧
      (es.map Prod.fst).Nodup ∧ (∀ p, p ∈ es.map Prod.fst ↔ Joins objs src dst p.1 p.2) ∧
      ∀ e ∈ es, ∀ o, o ∈ e.2 ↔ o ∈ objs ∧ src o = e.1.1 ∧ dst o = e.1.2 := by
  let f : String × List ℕ → (String × String) × List ℕ := fun x =>
    (match x.2 with
      | o :: _ => (src o, dst o)
      | [] => ("", ""), x.2)
  have hf : ∀ x ∈ g, x = (pairKey (f x).1.1 (f x).1.2, (f x).2) ∧
      (∃ o ∈ objs, src o = (f x).1.1 ∧ dst o = (f x).1.2) ∧
      ∀ o, o ∈ (f x).2 ↔ o ∈ objs ∧ src o = (f x).1.1 ∧ dst o = (f x).1.2 := by
    intro x hx
    obtain ⟨o, ho, hob⟩ := h.some x hx
    obtain ⟨y, hy, hk, hm, hu⟩ := h.one o hob
    have := hu x hx ho
    subst this
    obtain ⟨k, l⟩ := x
    cases l with
    | nil => cases ho
    | cons o' l =>
      have ho' := (hm o').1 List.mem_cons_self
      refine ⟨?_, ⟨o', ho'.1, rfl, rfl⟩, fun o'' => ?_⟩
      · simp only [f, Prod.mk.injEq, and_true]
        rw [ho'.2.1, ho'.2.2]; exact hk
      · show o'' ∈ o' :: l ↔ o'' ∈ objs ∧ src o'' = src o' ∧ dst o'' = dst o'
        rw [ho'.2.1, ho'.2.2]; exact hm o''
  have hg : g = (g.map f).map fun e => (pairKey e.1.1 e.1.2, e.2) := by
    rw [List.map_map]
    conv_lhs => rw [← List.map_id g]
    exact List.map_congr_left fun x hx => (hf x hx).1
  refine ⟨g.map f, hg, ?_, ?_, ?_⟩
  · have := h.keys
    rw [hg, List.map_map] at this
    have e : (Prod.fst ∘ fun e : (String × String) × List ℕ => (pairKey e.1.1 e.1.2, e.2)) =
      (fun p : String × String => pairKey p.1 p.2) ∘ Prod.fst := rfl
    rw [e, ← List.map_map] at this
    exact List.Nodup.of_map _ this
  · intro p
    simp only [List.mem_map, exists_exists_and_eq_and]
    constructor
    · rintro ⟨x, hx, rfl⟩
      exact (hf x hx).2.1
    · rintro ⟨o, ho, h1, h2⟩
      obtain ⟨x, hx, -, hm, -⟩ := h.one o ho
      refine ⟨x, hx, ?_⟩
      have := ((hf x hx).2.2 o).1 ((hm o).2 ⟨ho, rfl, rfl⟩)
      exact Prod.ext (this.2.1.symm.trans h1) (this.2.2.symm.trans h2)
  · intro e he
    obtain ⟨x, hx, rfl⟩ := List.mem_map.1 he
    exact (hf x hx).2.2

theorem pickFrom_sources {name : String} {ps : List (String × String)}
    (h : ∀ p ∈ ps, '-' ∉ p.1.toList ∧ '-' ∉ p.2.toList) :
    pickFrom 1 0 name (ps.map fun p => pairKey p.1 p.2) =
      .ok ((ps.filter fun p => p.2 = name).map Prod.fst) := by
  induction ps with
  | nil => rfl
  | cons p ps ih =>
    have hp := h p List.mem_cons_self
    rw [List.map_cons, pickFrom, splitDash_pair hp.1 hp.2, ih fun q hq => h q (List.mem_cons_of_mem _ hq)]
    by_cases e : p.2 = name <;> simp [e, bind, Except.bind]

theorem pickFrom_dests {name : String} {ps : List (String × String)}
    (h : ∀ p ∈ ps, '-' ∉ p.1.toList ∧ '-' ∉ p.2.toList) :
    pickFrom 0 1 name (ps.map fun p => pairKey p.1 p.2) =
      .ok ((ps.filter fun p => p.1 = name).map Prod.snd) := by
  induction ps with
  | nil => rfl
  | cons p ps ih =>
    have hp := h p List.mem_cons_self
    rw [List.map_cons, pickFrom, splitDash_pair hp.1 hp.2, ih fun q hq => h q (List.mem_cons_of_mem _ hq)]
    by_cases e : p.1 = name <;> simp [e, bind, Except.bind]

theorem unpackKeys_pairs {ps : List (String × String)}
    (h : ∀ p ∈ ps, '-' ∉ p.1.toList ∧ '-' ∉ p.2.toList) :
    unpackKeys (ps.map fun p => pairKey p.1 p.2) = .ok (ps.map Prod.fst, ps.map Prod.snd) := by
  induction ps with
  | nil => rfl
  | cons p ps ih =>
    have hp := h p List.mem_cons_self
    rw [List.map_cons, unpackKeys, splitDash_pair hp.1 hp.2]
    simp only []
    rw [ih fun q hq => h q (List.mem_cons_of_mem _ hq)]
    rfl

theorem groupsAt_first {name : String} {es : List ((String × String) × List ℕ)}
    (h : ∀ e ∈ es, '-' ∉ e.1.1.toList ∧ '-' ∉ e.1.2.toList) :
    groupsAt 0 name (es.map fun e => (pairKey e.1.1 e.1.2, e.2)) =
      .ok ((es.filter fun e => e.1.1 = name).flatMap Prod.snd) := by
  induction es with
  | nil => rfl
  | cons e es ih =>
    have hp := h e List.mem_cons_self
    rw [List.map_cons, groupsAt, splitDash_pair hp.1 hp.2, ih fun q hq => h q (List.mem_cons_of_mem _ hq)]
    by_cases e : e.1.1 = name <;> simp [e, bind, Except.bind]

theorem groupsAt_second {name : String} {es : List ((String × String) × List ℕ)}
    (h : ∀ e ∈ es, '-' ∉ e.1.1.toList ∧ '-' ∉ e.1.2.toList) :
    groupsAt 1 name (es.map fun e => (pairKey e.1.1 e.1.2, e.2)) =
      .ok ((es.filter fun e => e.1.2 = name).flatMap Prod.snd) := by
  induction es with
  | nil => rfl
  | cons e es ih =>
    have hp := h e List.mem_cons_self
    rw [List.map_cons, groupsAt, splitDash_pair hp.1 hp.2, ih fun q hq => h q (List.mem_cons_of_mem _ hq)]
    by_cases e : e.1.2 = name <;> simp [e, bind, Except.bind]

theorem isMenu_insertionSort {P : String → Prop} {l : List String} (hn : l.Nodup)
    (h : ∀ a, a ∈ l ↔ P a) : IsMenu P (l.insertionSort fun a b => a ≤ b) := by
  refine ⟨?_, fun a => by rw [← h]; exact (List.perm_insertionSort _ l).mem_iff⟩
  have h1 : (l.insertionSort fun a b => a ≤ b).Pairwise (· ≤ ·) := List.pairwise_insertionSort _ l
  have h2 : (l.insertionSort fun a b => a ≤ b).Nodup := (List.perm_insertionSort _ l).nodup_iff.2 hn
  exact (h1.and h2).imp fun ⟨a, b⟩ => lt_of_le_of_ne a b

theorem isMenu_sortNames {P : String → Prop} {l : List String} (h : ∀ a, a ∈ l ↔ P a) :
    IsMenu P (sortNames l) :=
  isMenu_insertionSort (List.nodup_dedup l) fun a => by rw [List.mem_dedup]; exact h a

theorem groupKeys_eq {env : Env} {ty : ObjType} {s t : State} {g : List (String × List ℕ)}
    (h : groupsOf env ty s = .ok g t) : groupKeys env ty s = .ok (g.map Prod.fst) t := by
  cases ty with
  | demand => cases h; rfl
  | lsp =>
    have h : lspGroups env s = .ok g t := h
    exact (py_bind_ok (f := fun g => pure (g.map Prod.fst)) h).trans rfl
  | other => cases h

theorem menusRight_of {env : Env} {ty : ObjType} {s t : State} {g : List (String × List ℕ)}
    {objs : List ℕ} {src dst : ℕ → String} (hg : groupsOf env ty s = .ok g t)
    (h : Grouped g objs src dst)
    (hhy : ∀ o ∈ objs, '-' ∉ (src o).toList ∧ '-' ∉ (dst o).toList) :
    MenusRight env ty s objs src dst := by
  obtain ⟨es, rfl, hnd, hp, hm⟩ := grouped_entries h
  have hkeys := groupKeys_eq hg
  rw [List.map_map,
    show (Prod.fst ∘ fun e : (String × String) × List ℕ => (pairKey e.1.1 e.1.2, e.2)) =
      (fun p : String × String => pairKey p.1 p.2) ∘ Prod.fst from rfl, ← List.map_map] at hkeys
  generalize hps : es.map Prod.fst = ps at hnd hp hkeys
  have hps' : ∀ p ∈ ps, '-' ∉ p.1.toList ∧ '-' ∉ p.2.toList := by
    intro p hpm
    obtain ⟨o, ho, h1, h2⟩ := (hp p).1 hpm
    rw [← h1, ← h2]; exact hhy o ho
  have hes' : ∀ e ∈ es, '-' ∉ e.1.1.toList ∧ '-' ∉ e.1.2.toList := fun e he =>
    hps' e.1 (hps ▸ List.mem_map.2 ⟨e, he, rfl⟩)
  have hent : ∀ a b, Joins objs src dst a b → ∃ l, ((a, b), l) ∈ es := by
    intro a b hj
    have := (hp (a, b)).2 hj
    rw [← hps] at this
    obtain ⟨⟨p, l⟩, he, rfl⟩ := List.mem_map.1 this
    exact ⟨l, he⟩
  refine ⟨⟨t, _, _, ?_, isMenu_sortNames (l := ps.map Prod.fst) ?_,
    isMenu_sortNames (l := ps.map Prod.snd) ?_⟩,
    fun b => ⟨t, _, ?_, isMenu_insertionSort (l := (ps.filter fun p => p.2 = b).map Prod.fst) ?_ ?_⟩,
    fun a => ⟨t, _, ?_, isMenu_insertionSort (l := (ps.filter fun p => p.1 = a).map Prod.snd) ?_ ?_⟩,
    ?_⟩
  · show (groupKeys env ty >>= fun keys => liftE (unpackKeys keys) >>= fun r =>
      pure (sortNames r.1, sortNames r.2)) s = _
    rw [py_bind_ok hkeys, unpackKeys_pairs hps']
    rfl
  · intro a
    simp only [List.mem_map, Prod.exists, exists_and_right, exists_eq_right]
    exact exists_congr fun b => hp (a, b)
  · intro b
    simp only [List.mem_map, Prod.exists, exists_eq_right]
    exact exists_congr fun a => hp (a, b)
  · show ((groupKeys env ty >>= fun keys => liftE (pickFrom 1 0 b keys)) >>= fun l =>
      pure (l.insertionSort fun a b => a ≤ b, [b])) s = _
    have h1 : (groupKeys env ty >>= fun keys => liftE (pickFrom 1 0 b keys)) s =
        .ok ((ps.filter fun p => p.2 = b).map Prod.fst) t := by
      rw [py_bind_ok hkeys, pickFrom_sources hps']; rfl
    rw [py_bind_ok h1]
    rfl
  · refine List.Nodup.map_on ?_ (hnd.filter _)
    rintro ⟨x, y⟩ hx ⟨x', y'⟩ hx' (rfl : x = x')
    have := of_decide_eq_true (List.mem_filter.1 hx).2
    have := of_decide_eq_true (List.mem_filter.1 hx').2
    simp_all
  · intro a
    simp only [List.mem_map, List.mem_filter, decide_eq_true_eq, Prod.exists, exists_and_right,
      exists_eq_right]
    exact hp (a, b)
  · show ((groupKeys env ty >>= fun keys => liftE (pickFrom 0 1 a keys)) >>= fun l =>
      pure ([a], l.insertionSort fun a b => a ≤ b)) s = _
    have h1 : (groupKeys env ty >>= fun keys => liftE (pickFrom 0 1 a keys)) s =
        .ok ((ps.filter fun p => p.1 = a).map Prod.snd) t := by
      rw [py_bind_ok hkeys, pickFrom_dests hps']; rfl
    rw [py_bind_ok h1]
    rfl
  · refine List.Nodup.map_on ?_ (hnd.filter _)
    rintro ⟨x, y⟩ hx ⟨x', y'⟩ hx' (rfl : y = y')
    have := of_decide_eq_true (List.mem_filter.1 hx).2
    have := of_decide_eq_true (List.mem_filter.1 hx').2
    simp_all
  · intro b
    simp only [List.mem_map, List.mem_filter, decide_eq_true_eq, Prod.exists, exists_eq_right]
    exact hp (a, b)
  · rintro a b hab ⟨o, ho, hfa, hfb⟩
    have hfmt : ∀ l : List ℕ, o ∈ l → ∀ u, formatList l u = .ok l u := by
      intro l hl u
      unfold formatList
      rw [if_neg (List.ne_nil_of_mem hl)]
      rfl
    cases a with
    | none =>
      cases b with
      | none => simp at hab
      | some b =>
        have hall : ∀ o', o' ∈ (es.filter fun e => e.1.2 = b).flatMap Prod.snd ↔
            o' ∈ objs ∧ Fits src dst none (some b) o' := by
          intro o'
          simp only [List.mem_flatMap, List.mem_filter, decide_eq_true_eq]
          constructor
          · rintro ⟨e, ⟨he, rfl⟩, ho'⟩
            have := (hm e he o').1 ho'
            exact ⟨this.1, nofun, fun y hy => by cases hy; exact this.2.2⟩
          · rintro ⟨ho', -, hd⟩
            obtain ⟨l, hl⟩ := hent _ _ ⟨o', ho', rfl, rfl⟩
            exact ⟨_, ⟨hl, hd b rfl⟩, (hm _ hl o').2 ⟨ho', rfl, rfl⟩⟩
        refine ⟨t, _, ?_, hall⟩
        show (groupsOf env ty >>= fun g => liftE (groupsAt 1 b g) >>= formatList) s = _
        rw [py_bind_ok hg, groupsAt_second hes']
        exact hfmt _ ((hall o).2 ⟨ho, hfa, hfb⟩) t
    | some a =>
      cases b with
      | none =>
        have hall : ∀ o', o' ∈ (es.filter fun e => e.1.1 = a).flatMap Prod.snd ↔
            o' ∈ objs ∧ Fits src dst (some a) none o' := by
          intro o'
          simp only [List.mem_flatMap, List.mem_filter, decide_eq_true_eq]
          constructor
          · rintro ⟨e, ⟨he, rfl⟩, ho'⟩
            have := (hm e he o').1 ho'
            exact ⟨this.1, fun y hy => by cases hy; exact this.2.1, nofun⟩
          · rintro ⟨ho', hd, -⟩
            obtain ⟨l, hl⟩ := hent _ _ ⟨o', ho', rfl, rfl⟩
            exact ⟨_, ⟨hl, hd a rfl⟩, (hm _ hl o').2 ⟨ho', rfl, rfl⟩⟩
        refine ⟨t, _, ?_, hall⟩
        show (groupsOf env ty >>= fun g => liftE (groupsAt 0 a g) >>= formatList) s = _
        rw [py_bind_ok hg, groupsAt_first hes']
        exact hfmt _ ((hall o).2 ⟨ho, hfa, hfb⟩) t
      | some b =>
        obtain ⟨l, hl⟩ := hent a b ⟨o, ho, hfa a rfl, hfb b rfl⟩
        have hall : ∀ o', o' ∈ l ↔ o' ∈ objs ∧ Fits src dst (some a) (some b) o' := by
          intro o'
          rw [hm _ hl o']
          exact and_congr_right fun _ => ⟨fun h => ⟨fun x hx => by cases hx; exact h.1,
            fun x hx => by cases hx; exact h.2⟩, fun h => ⟨h.1 a rfl, h.2 b rfl⟩⟩
        have hget := dictGet_of_mem h.keys (List.mem_map.2 ⟨_, hl, rfl⟩)
        refine ⟨t, l, ?_, hall⟩
        show (groupsOf env ty >>= fun g => match dictGet g (pairKey a b) with
          | some objs => formatList objs
          | none => raise .keyError) s = _
        rw [py_bind_ok hg, hget]
        exact hfmt _ ((hall o).2 ⟨ho, hfa, hfb⟩) t

end NTM
