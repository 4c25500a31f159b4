import Verif.Proof.Validate
import Mathlib.Data.List.Dedup
import Mathlib.Data.List.ProdSigma

/-!
# Parallel groups
-/

namespace NTM

open Spec

section
variable {α : Type}

theorem dictGet_dictSet (d : List (String × α)) (k k' : String) (v : α) :
    dictGet (dictSet d k v) k' = if k' = k then some v else dictGet d k' := by
  induction d with
  | nil =>
    unfold dictSet dictGet
    by_cases h : k' = k
    · simp [h]
    · have : ¬ k = k' := fun e => h e.symm
      simp [h, this]
  | cons x d ih =>
    obtain ⟨k0, v0⟩ := x
    unfold dictSet
    by_cases h0 : k0 = k
    · rw [if_pos h0]
      unfold dictGet
      by_cases h : k' = k
      · simp [h]
      · have h1 : ¬ k = k' := fun e => h e.symm
        have h2 : ¬ k0 = k' := fun e => h (e.symm.trans h0)
        simp [h, h1, h2]
    · rw [if_neg h0]
      unfold dictGet at ih ⊢
      by_cases h : k0 = k'
      · have : ¬ k' = k := fun e => h0 (h.trans e)
        simp [h, this]
      · rw [List.find?_cons_of_neg (by simpa using h), List.find?_cons_of_neg (by simpa using h)]
        exact ih

theorem dictGet_dictDel (d : List (String × α)) (k k' : String) :
    dictGet (dictDel d k) k' = if k' = k then none else dictGet d k' := by
  unfold dictDel dictGet
  induction d with
  | nil => simp
  | cons x d ih =>
    obtain ⟨k0, v0⟩ := x
    by_cases h0 : k0 = k
    · rw [List.filter_cons_of_neg (by simpa using h0), ih]
      by_cases h : k' = k
      · simp [h]
      · have : ¬ k0 = k' := fun e => h (e.symm.trans h0)
        simp [h, this]
    · rw [List.filter_cons_of_pos (by simpa using h0)]
      by_cases h : k0 = k'
      · have : ¬ k' = k := fun e => h0 (h.trans e)
        simp [h, this]
      · rw [List.find?_cons_of_neg (by simpa using h), List.find?_cons_of_neg (by simpa using h)]
        exact ih

theorem keys_dictSet (d : List (String × α)) (k : String) (v : α) :
    (dictSet d k v).map Prod.fst = if k ∈ d.map Prod.fst then d.map Prod.fst
      else d.map Prod.fst ++ [k] := by
  induction d with
  | nil => simp [dictSet]
  | cons x d ih =>
    obtain ⟨k0, v0⟩ := x
    unfold dictSet
    by_cases h0 : k0 = k
    · simp [h0]
    · rw [if_neg h0]
      have h1 : ¬ k = k0 := fun e => h0 e.symm
      simp only [List.map_cons, List.mem_cons, h1, false_or, ih]
      split <;> simp

theorem nodup_dictSet {d : List (String × α)} (h : (d.map Prod.fst).Nodup) (k : String) (v : α) :
    ((dictSet d k v).map Prod.fst).Nodup := by
  rw [keys_dictSet]
  split
  · exact h
  · next hk =>
    rw [List.nodup_append]
    exact ⟨h, by simp, by rintro a ha b hb rfl; rw [List.mem_singleton.1 hb] at ha; exact hk ha⟩

theorem nodup_dictDel {d : List (String × α)} (h : (d.map Prod.fst).Nodup) (k : String) :
    ((dictDel d k).map Prod.fst).Nodup := by
  unfold dictDel
  exact h.sublist (List.Sublist.map _ List.filter_sublist)

theorem dictGet_of_mem {d : List (String × α)} (h : (d.map Prod.fst).Nodup) {k : String} {v : α}
    (hm : (k, v) ∈ d) : dictGet d k = some v := by
  unfold dictGet
  induction d with
  | nil => cases hm
  | cons x d ih =>
    rw [List.map_cons, List.nodup_cons] at h
    rcases List.mem_cons.1 hm with rfl | hm
    · simp
    · have : x.1 ≠ k := by
        intro e
        apply h.1
        rw [e]
        exact List.mem_map.2 ⟨(k, v), hm, rfl⟩
      rw [List.find?_cons_of_neg (by simpa using this)]
      exact ih h.2 hm

theorem mem_of_dictGet {d : List (String × α)} {k : String} {v : α} (h : dictGet d k = some v) :
    (k, v) ∈ d := by
  unfold dictGet at h
  rw [Option.map_eq_some_iff] at h
  obtain ⟨x, hx, rfl⟩ := h
  have h1 := List.mem_of_find?_eq_some hx
  have h2 := List.find?_some hx
  simp only [decide_eq_true_eq] at h2
  rw [← h2]
  exact h1
end

/-- objects from `a` to `b` -/
def between (objs : List ℕ) (src dst : ℕ → String) (a b : String) : List ℕ :=
  objs.filter fun o => src o = a && dst o = b

/-- the effect of one step of the double loop -/
def groupStep (objs : List ℕ) (src dst : ℕ → String) (acc : List (String × List ℕ))
    (ab : String × String) : List (String × List ℕ) :=
  let l := between objs src dst ab.1 ab.2
  let acc' := dictSet acc (pairKey ab.1 ab.2) l
  if l = [] then dictDel acc' (pairKey ab.1 ab.2) else acc'

theorem foldl_product {β γ δ : Type} (f : δ → β × γ → δ) (xs : List β) (ys : List γ) (init : δ) :
    xs.foldl (fun acc a => ys.foldl (fun acc b => f acc (a, b)) acc) init =
      (xs ×ˢ ys).foldl f init := by
  induction xs generalizing init with
  | nil => rfl
  | cons x xs ih =>
    rw [List.foldl_cons, ih, List.product_cons, List.foldl_append, List.foldl_map]

theorem buildGroups_eq (env : Env) (objs : List ℕ) (src dst : ℕ → String) :
    buildGroups env objs src dst =
      (env.ordS (objs.map src).dedup ×ˢ env.ordS (objs.map dst).dedup).foldl
        (groupStep objs src dst) [] := by
  rw [← foldl_product]
  rfl

theorem dictGet_groupStep (objs : List ℕ) (src dst : ℕ → String) (acc : List (String × List ℕ))
    (ab : String × String) (k : String) :
    dictGet (groupStep objs src dst acc ab) k =
      if k = pairKey ab.1 ab.2 then
        (if between objs src dst ab.1 ab.2 = [] then none
          else some (between objs src dst ab.1 ab.2))
      else dictGet acc k := by
  unfold groupStep
  simp only []
  by_cases hl : between objs src dst ab.1 ab.2 = []
  · simp only [hl, if_true]
    rw [dictGet_dictDel, dictGet_dictSet]
    split <;> rfl
  · simp only [hl, if_false]
    rw [dictGet_dictSet]

theorem nodup_groupStep {objs : List ℕ} {src dst : ℕ → String} {acc : List (String × List ℕ)}
    (h : (acc.map Prod.fst).Nodup) (ab : String × String) :
    ((groupStep objs src dst acc ab).map Prod.fst).Nodup := by
  unfold groupStep
  simp only []
  split
  · exact nodup_dictDel (nodup_dictSet h _ _) _
  · exact nodup_dictSet h _ _

theorem nodup_buildGroups (env : Env) (objs : List ℕ) (src dst : ℕ → String) :
    ((buildGroups env objs src dst).map Prod.fst).Nodup := by
  rw [buildGroups_eq]
  generalize env.ordS (objs.map src).dedup ×ˢ env.ordS (objs.map dst).dedup = P
  have : ∀ acc : List (String × List ℕ), (acc.map Prod.fst).Nodup →
      ((P.foldl (groupStep objs src dst) acc).map Prod.fst).Nodup := by
    induction P with
    | nil => intro acc h; exact h
    | cons x P ih => intro acc h; exact ih _ (nodup_groupStep h x)
  exact this [] (by simp)

/-- every stored group is the set of objects between some pair of names that spells the key -/
theorem dictGet_buildGroups_some {env : Env} {objs : List ℕ} {src dst : ℕ → String} {k : String}
    {l : List ℕ} (h : dictGet (buildGroups env objs src dst) k = some l) :
    ∃ a b, k = pairKey a b ∧ a ∈ objs.map src ∧ b ∈ objs.map dst ∧
      l = between objs src dst a b ∧ l ≠ [] := by
  rw [buildGroups_eq] at h
  have key : ∀ (P : List (String × String)) (acc : List (String × List ℕ)),
      dictGet (P.foldl (groupStep objs src dst) acc) k = some l →
      dictGet acc k = some l ∨ ∃ ab ∈ P, k = pairKey ab.1 ab.2 ∧
        l = between objs src dst ab.1 ab.2 ∧ l ≠ [] := by
    intro P
    induction P with
    | nil => intro acc h; exact .inl h
    | cons x P ih =>
      intro acc h
      rw [List.foldl_cons] at h
      rcases ih _ h with h | ⟨ab, hab, h⟩
      · rw [dictGet_groupStep] at h
        split at h
        · next hk =>
          split at h
          · cases h
          · next hne =>
            injection h with h
            exact .inr ⟨x, by simp, hk, h.symm, by rw [← h]; exact hne⟩
        · exact .inl h
      · exact .inr ⟨ab, by simp [hab], h⟩
  rcases key _ _ h with h | ⟨⟨a, b⟩, hab, h1, h2, h3⟩
  · cases h
  · rw [List.mem_product] at hab
    refine ⟨a, b, h1, ?_, ?_, h2, h3⟩
    · have := (env.ordS_perm _).mem_iff.1 hab.1
      exact List.mem_dedup.1 this
    · have := (env.ordS_perm _).mem_iff.1 hab.2
      exact List.mem_dedup.1 this

/-- looking up a pair of names finds exactly the objects between them, provided no other
pair of names in use spells the same key -/
theorem dictGet_buildGroups {env : Env} {objs : List ℕ} {src dst : ℕ → String} {a b : String}
    (hinj : ∀ a' ∈ objs.map src, ∀ b' ∈ objs.map dst, pairKey a' b' = pairKey a b →
      a' = a ∧ b' = b) :
    dictGet (buildGroups env objs src dst) (pairKey a b) =
      if between objs src dst a b = [] then none else some (between objs src dst a b) := by
  rw [buildGroups_eq]
  generalize hP : env.ordS (objs.map src).dedup ×ˢ env.ordS (objs.map dst).dedup = P
  have hmem : ∀ ab ∈ P, pairKey ab.1 ab.2 = pairKey a b → ab = (a, b) := by
    rintro ⟨a', b'⟩ hab h
    rw [← hP, List.mem_product] at hab
    have := hinj a' (List.mem_dedup.1 ((env.ordS_perm _).mem_iff.1 hab.1)) b'
      (List.mem_dedup.1 ((env.ordS_perm _).mem_iff.1 hab.2)) h
    exact Prod.ext this.1 this.2
  have key : ∀ (Q : List (String × String)) (acc : List (String × List ℕ)),
      (∀ ab ∈ Q, pairKey ab.1 ab.2 = pairKey a b → ab = (a, b)) →
      dictGet (Q.foldl (groupStep objs src dst) acc) (pairKey a b) =
        if (a, b) ∈ Q then
          (if between objs src dst a b = [] then none else some (between objs src dst a b))
        else dictGet acc (pairKey a b) := by
    intro Q
    induction Q with
    | nil => intro acc _; simp
    | cons x Q ih =>
      intro acc hQ
      rw [List.foldl_cons, ih _ (fun ab hab => hQ ab (by simp [hab]))]
      by_cases hx : x = (a, b)
      · subst hx
        simp only [List.mem_cons, true_or, if_true]
        split
        · rfl
        · rw [dictGet_groupStep]; simp
      · have hk : ¬ pairKey a b = pairKey x.1 x.2 := fun e => hx (hQ x (by simp) e.symm)
        rw [dictGet_groupStep, if_neg hk]
        have : ¬ (a, b) = x := fun e => hx e.symm
        simp [this]
  rw [key P [] hmem]
  by_cases hab : (a, b) ∈ P
  · rw [if_pos hab]
  · rw [if_neg hab]
    have : between objs src dst a b = [] := by
      unfold between
      rw [List.filter_eq_nil_iff]
      intro o ho h
      simp only [Bool.and_eq_true, decide_eq_true_eq] at h
      apply hab
      rw [← hP, List.mem_product]
      constructor
      · refine (env.ordS_perm _).mem_iff.2 (List.mem_dedup.2 (List.mem_map.2 ⟨o, ho, h.1⟩))
      · refine (env.ordS_perm _).mem_iff.2 (List.mem_dedup.2 (List.mem_map.2 ⟨o, ho, h.2⟩))
    rw [if_pos this]
    rfl

/-- names without a hyphen never collide on a key -/
theorem pairKey_inj {a b a' b' : String} (ha : '-' ∉ a.toList) (ha' : '-' ∉ a'.toList)
    (h : pairKey a b = pairKey a' b') : a = a' ∧ b = b' := by
  have h1 : a.toList ++ '-' :: b.toList = a'.toList ++ '-' :: b'.toList := by
    have := congrArg String.toList h
    unfold pairKey at this
    simpa [String.toList_append] using this
  have key : ∀ (x x' y y' : List Char), '-' ∉ x → '-' ∉ x' → x ++ '-' :: y = x' ++ '-' :: y' →
      x = x' ∧ y = y' := by
    intro x
    induction x with
    | nil =>
      intro x' y y' _ hx' h
      cases x' with
      | nil => simpa using h
      | cons c x' =>
        simp only [List.nil_append, List.cons_append, List.cons.injEq] at h
        exact absurd (by rw [← h.1]; simp) hx'
    | cons c x ih =>
      intro x' y y' hx hx' h
      cases x' with
      | nil =>
        simp only [List.nil_append, List.cons_append, List.cons.injEq] at h
        exact absurd (by rw [h.1]; simp) hx
      | cons c' x' =>
        simp only [List.cons_append, List.cons.injEq] at h
        have := ih x' y y' (fun hm => hx (by simp [hm])) (fun hm => hx' (by simp [hm])) h.2
        exact ⟨by rw [h.1, this.1], this.2⟩
  have := key _ _ _ _ ha ha' h1
  exact ⟨String.toList_injective this.1, String.toList_injective this.2⟩

end NTM
