import Verif.Proof.Insert
import Mathlib.Order.Lattice.Nat

/-!
# Shortcuts found on one shortest path fit every shortest path that has their ends
-/

namespace NTM

open Spec

section
variable {tail head : ℕ → String} {cost : ℕ → ℕ} {ok : ℕ → Prop}

/-- cheapest cost from `a` -/
noncomputable def distTo (tail head : ℕ → String) (cost : ℕ → ℕ) (ok : ℕ → Prop) (a x : String) : ℕ :=
  sInf { n | ∃ q, Route tail head ok a q x ∧ totalCost cost q = n }

theorem prefix_dist {a b x : String} {p q : List ℕ}
    (h : Cheapest tail head cost ok a (p ++ q) b) (hp : Route tail head ok a p x)
    (hq : Route tail head ok x q b) : distTo tail head cost ok a x = totalCost cost p := by
  have hne : { n | ∃ q, Route tail head ok a q x ∧ totalCost cost q = n }.Nonempty :=
    ⟨_, p, hp, rfl⟩
  obtain ⟨r, hr, he⟩ := Nat.sInf_mem hne
  have h1 : distTo tail head cost ok a x ≤ totalCost cost p := Nat.sInf_le ⟨p, hp, rfl⟩
  have h2 := h.2 _ (route_append hr hq)
  rw [totalCost_append, totalCost_append] at h2
  unfold distTo at h1 ⊢
  omega

theorem cheapest_increasing {a b : String} {p : List ℕ} (h : Cheapest tail head cost ok a p b)
    (hpos : ∀ i, ok i → 1 ≤ cost i) : ∀ i ∈ p,
    distTo tail head cost ok a (tail i) < distTo tail head cost ok a (head i) := by
  intro i hi
  obtain ⟨p1, p2, rfl⟩ := List.append_of_mem hi
  obtain ⟨x, h1, h2⟩ := route_split h.1
  cases h2 with
  | cons hok h2 =>
    have e1 := prefix_dist h h1 (.cons hok h2)
    have h' : Cheapest tail head cost ok a ((p1 ++ [i]) ++ p2) b := by simpa using h
    have e2 := prefix_dist h' (route_append h1 (.cons hok (.nil _))) h2
    rw [e1, e2, totalCost_append]
    have := hpos i hok
    simp [totalCost]
    omega

theorem route_bounds {ρ : String → ℕ} {u v : String} {p : List ℕ}
    (h : Route tail head ok u p v) (hinc : ∀ i ∈ p, ρ (tail i) < ρ (head i)) :
    ρ u ≤ ρ v ∧ ∀ i ∈ p, ρ u ≤ ρ (tail i) ∧ ρ (head i) ≤ ρ v := by
  induction h with
  | nil => simp
  | @cons i p v hi hr ih =>
    have h0 := hinc i (by simp)
    obtain ⟨h1, h2⟩ := ih (fun j hj => hinc j (by simp [hj]))
    refine ⟨by omega, fun j hj => ?_⟩
    rcases List.mem_cons.1 hj with rfl | hj
    · exact ⟨le_refl _, h1⟩
    · have := h2 j hj; exact ⟨by omega, this.2⟩

theorem ranked_pairwise {ρ : String → ℕ} {u v : String} {p : List ℕ}
    (h : Route tail head ok u p v) (hinc : ∀ i ∈ p, ρ (tail i) < ρ (head i)) :
    (u :: p.map head).Pairwise (fun x y => ρ x < ρ y) := by
  induction h with
  | nil => simp
  | @cons i p v hi hr ih =>
    have h0 := hinc i (by simp)
    have h1 := ih (fun j hj => hinc j (by simp [hj]))
    refine List.pairwise_cons.2 ⟨fun y hy => ?_, h1⟩
    rw [List.map_cons] at hy
    rcases List.mem_cons.1 hy with rfl | hy
    · exact h0
    · have := (List.pairwise_cons.1 h1).1 y hy; omega

theorem ranked_tails {ρ : String → ℕ} {u v : String} {p : List ℕ}
    (h : Route tail head ok u p v) (hinc : ∀ i ∈ p, ρ (tail i) < ρ (head i)) :
    (p.map tail).Nodup ∧ (p.map head).Nodup := by
  have h2 : (p.map head).Nodup := by
    have := (List.pairwise_cons.1 (ranked_pairwise h hinc)).2
    exact this.imp fun {a b} hab e => by subst e; omega
  refine ⟨?_, h2⟩
  clear h2
  induction h with
  | nil => simp
  | @cons i p v hi hr ih =>
    have h0 := hinc i (by simp)
    rw [List.map_cons, List.nodup_cons]
    refine ⟨fun hm => ?_, ih (fun j hj => hinc j (by simp [hj]))⟩
    obtain ⟨j, hj, e⟩ := List.mem_map.1 hm
    have := (route_bounds hr (fun j hj => hinc j (by simp [hj]))).2 j hj
    rw [e] at this
    omega

theorem idxOf_lt_ranked {ρ : String → ℕ} {np : List String}
    (h : np.Pairwise (fun x y => ρ x < ρ y)) {x y : String} (hx : x ∈ np) (hy : y ∈ np)
    (hxy : np.idxOf x < np.idxOf y) : ρ x < ρ y := by
  have := (List.pairwise_iff_getElem.1 h) (np.idxOf x) (np.idxOf y)
    (List.idxOf_lt_length_of_mem hx) (List.idxOf_lt_length_of_mem hy) hxy
  simpa using this

end

/-- the groups run between common end points that follow each other in the order of `ρ` -/
def Stepwise (s : State) (N : String → Prop) (ρ : String → ℕ) : ℕ → List (List ℕ) → Prop
  | _, [] => True
  | lo, g :: gs => ∃ a b, N a ∧ N b ∧ g ≠ [] ∧ (∀ l ∈ g, s.lspSrc l = a ∧ s.lspDst l = b) ∧
      lo ≤ ρ a ∧ ρ a < ρ b ∧ Stepwise s N ρ (ρ b) gs

theorem Stepwise.mono {s : State} {N : String → Prop} {ρ σ : String → ℕ}
    (hlt : ∀ x y, N x → N y → ρ x < ρ y → σ x < σ y)
    (hle : ∀ x y, N x → N y → ρ x ≤ ρ y → σ x ≤ σ y) {gs : List (List ℕ)} {lo lo' : ℕ}
    (hlo : ∀ x, N x → lo ≤ ρ x → lo' ≤ σ x) (h : Stepwise s N ρ lo gs) : Stepwise s N σ lo' gs := by
  induction gs generalizing lo lo' with
  | nil => trivial
  | cons g gs ih =>
    obtain ⟨a, b, ha, hb, h1, h2, h3, h4, h5⟩ := h
    exact ⟨a, b, ha, hb, h1, h2, hlo a ha h3, hlt a b ha hb h4,
      ih (fun x hx h => hle b x hb hx h) h5⟩

theorem legs_of_ordered {s : State} {ok : ℕ → Prop} {N : String → Prop} {ρ : String → ℕ}
    {v : String} (gs : List (List ℕ)) {u : String} {p : List ℕ}
    (hr : Route s.tail s.head ok u p v) (hinc : ∀ i ∈ p, ρ (s.tail i) < ρ (s.head i))
    {lo : ℕ} (ho : Stepwise s N ρ lo gs)
    (hon : ∀ g ∈ gs, ∀ l ∈ g.head?, (∃ i ∈ p, s.tail i = s.lspSrc l) ∧ ∃ j ∈ p, s.head j = s.lspDst l) :
    ∃ legs rest, p = wholePath legs rest ∧ legs.map Leg.lsps = gs ∧ ∀ g ∈ legs, g.Fits s := by
  induction gs generalizing u p lo with
  | nil => exact ⟨[], p, rfl, rfl, by simp⟩
  | cons g gs ih =>
    obtain ⟨a, b, -, -, hne, hl, -, hab, ho'⟩ := ho
    obtain ⟨l, ls, e⟩ := List.exists_cons_of_ne_nil hne
    obtain ⟨⟨i, hi, hia⟩, j, hj, hjb⟩ := hon g (by simp) l (by simp [e])
    obtain ⟨ea, eb⟩ := hl l (by simp [e])
    rw [ea] at hia
    rw [eb] at hjb
    obtain ⟨K, Y, rfl⟩ := List.append_of_mem hi
    obtain ⟨x, r1, r2⟩ := route_split hr
    have hx : x = a := by cases r2; exact hia
    subst hx
    have hjY : j ∈ i :: Y := by
      rcases List.mem_append.1 hj with hj | hj
      · have := (route_bounds r1 (fun k hk => hinc k (by simp [hk]))).2 j hj
        rw [hjb] at this
        omega
      · exact hj
    obtain ⟨X, Z, hXZ⟩ := List.append_of_mem hjY
    have hXZ' : i :: Y = (X ++ [j]) ++ Z := by simpa using hXZ
    rw [hXZ'] at r2 hinc hon
    obtain ⟨y, r3, r4⟩ := route_split r2
    have hhead : (X ++ [j]).head? = some i := by
      have := congrArg List.head? hXZ'
      simp only [List.head?_cons, List.head?_append] at this ⊢
      cases X <;> simpa using this.symm
    have hlast : (X ++ [j]).getLast? = some j := by simp
    obtain ⟨-, rfl⟩ := route_ends r3 hhead hlast
    have b1 := route_bounds r1 (fun k hk => hinc k (by simp [hk]))
    have b3 := route_bounds r3 (fun k hk => hinc k (by
      simp only [List.mem_append] at hk ⊢; tauto))
    obtain ⟨legs, rest, h1, h2, h3⟩ := ih r4 (fun k hk => hinc k (by simp [hk])) ho' (by
      intro g' hg' l' hl'
      obtain ⟨⟨i', hi', e1⟩, j', hj', e2⟩ := hon g' (by simp [hg']) l' hl'
      have hord : ∀ (gs : List (List ℕ)) (lo : ℕ), Stepwise s N ρ lo gs → g' ∈ gs →
          lo ≤ ρ (s.lspSrc l') ∧ ρ (s.lspSrc l') < ρ (s.lspDst l') := by
        intro gs
        induction gs with
        | nil => intro _ _ h; cases h
        | cons g1 gs ih1 =>
          rintro lo ⟨a1, b1, -, -, -, q2, q3, q4, q5⟩ hm
          rcases List.mem_cons.1 hm with rfl | hm
          · obtain ⟨e1, e2⟩ := q2 l' (List.mem_of_head? hl')
            rw [e1, e2]; exact ⟨q3, q4⟩
          · have := ih1 _ q5 hm; exact ⟨by omega, this.2⟩
      have hb := hord gs _ ho' hg'
      rw [hjb] at b3
      constructor
      · refine ⟨i', ?_, e1⟩
        rcases List.mem_append.1 hi' with hk | hk
        · exfalso
          have := b1.2 i' hk
          have := hinc i' hi'
          rw [e1] at this
          omega
        · rcases List.mem_append.1 hk with hk | hk
          · exfalso
            have := b3.2 i' hk
            have := hinc i' hi'
            rw [e1] at this
            omega
          · exact hk
      · refine ⟨j', ?_, e2⟩
        rcases List.mem_append.1 hj' with hk | hk
        · exfalso
          have := b1.2 j' hk
          rw [e2] at this
          omega
        · rcases List.mem_append.1 hk with hk | hk
          · exfalso
            have := b3.2 j' hk
            rw [e2] at this
            omega
          · exact hk)
    refine ⟨⟨K, X ++ [j], g⟩ :: legs, rest, ?_, by simp [h2], ?_⟩
    · rw [hXZ', h1]; simp [wholePath]
    · intro g' hg'
      rcases List.mem_cons.1 hg' with rfl | hg'
      · refine ⟨hne, i, j, hhead, hlast, fun l' hl' => ?_⟩
        obtain ⟨e1, e2⟩ := hl l' hl'
        exact ⟨e1.trans hia.symm, e2.trans hjb.symm⟩
      · exact h3 g' hg'

/-- when substitution succeeds, both ends of every group are on the path -/
theorem ends_of_insertLsps {s : State} {groups : List (List ℕ)} {p : List ℕ}
    {rs : List (List Item)} (h : s.insertLsps groups p = some rs) :
    ∀ g ∈ groups, ∀ l ∈ g.head?, (∃ i ∈ p, s.tail i = s.lspSrc l) ∧ ∃ j ∈ p, s.head j = s.lspDst l := by
  intro g hg l hl
  unfold State.insertLsps at h
  split at h
  · cases h
  · next slices hs =>
    rw [allSome_eq_some] at hs
    have : (s.lspSlice p g).map (fun ab => g.map fun l => (ab.1, ab.2, l)) ∈ slices.map some := by
      rw [← hs]; exact List.mem_map.2 ⟨g, hg, rfl⟩
    obtain ⟨sl, -, e⟩ := List.mem_map.1 this
    cases hab : s.lspSlice p g with
    | none => rw [hab] at e; cases e
    | some ab =>
      obtain ⟨ls, rfl⟩ := List.head?_eq_some_iff.1 hl
      unfold State.lspSlice at hab
      simp only [] at hab
      split at hab
      · next a b ha hb =>
        constructor
        · have := List.findIdx?_eq_some_iff_getElem.1 ha
          obtain ⟨h1, h2, -⟩ := this
          exact ⟨_, List.getElem_mem h1, nodeEq_name h2⟩
        · have := List.findIdx?_eq_some_iff_getElem.1 hb
          obtain ⟨h1, h2, -⟩ := this
          exact ⟨_, List.getElem_mem h1, nodeEq_name h2⟩
      · cases hab

theorem insertLsps_ordered {s : State} {ok : ℕ → Prop} {N : String → Prop} {ρ : String → ℕ}
    {u v : String} {gs : List (List ℕ)} {p : List ℕ}
    (hr : Route s.tail s.head ok u p v) (hinc : ∀ i ∈ p, ρ (s.tail i) < ρ (s.head i))
    {lo : ℕ} (ho : Stepwise s N ρ lo gs) {rs : List (List Item)} (h : s.insertLsps gs p = some rs) :
    ∃ legs rest, p = wholePath legs rest ∧ legs.map Leg.lsps = gs ∧ (∀ g ∈ legs, g.Fits s) ∧
      ∀ r, r ∈ rs ↔ ∃ choice, Choice choice legs ∧ r = substituted legs choice rest := by
  obtain ⟨legs, rest, h1, h2, h3⟩ := legs_of_ordered gs hr hinc ho (ends_of_insertLsps h)
  obtain ⟨ht, hh⟩ := ranked_tails hr hinc
  rw [← h2] at h
  exact ⟨legs, rest, h1, h2, h3, (insertLsps_legs h1 ht hh h3 h).2⟩

end NTM
