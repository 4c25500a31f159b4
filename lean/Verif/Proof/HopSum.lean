import Verif.Proof.LspInv
import Verif.Proof.Circuits
import Verif.Spec.Total

/-!
# The reservations validation derives from the LSPs
-/

namespace NTM

open Spec

theorem foldlM_ok {α β : Type} {f : List β → α → Except Exn (List β)} {g : α → List β} {L : List α}
    (h : ∀ acc, ∀ a ∈ L, f acc a = .ok (acc ++ g a)) (acc : List β) :
    L.foldlM f acc = .ok (acc ++ L.flatMap g) := by
  induction L generalizing acc with
  | nil => rw [List.flatMap_nil, List.append_nil]; rfl
  | cons a L ih =>
    rw [List.foldlM_cons, h acc a (by simp)]
    show L.foldlM f (acc ++ g a) = _
    rw [ih (fun acc b hb => h acc b (by simp [hb])), List.flatMap_cons, List.append_assoc]

/-- the entries of LSP `l` in the interface information -/
def hopsOf (t : State) (l : ℕ) : List (ℕ × ℚ) :=
  match (t.lsp l).path, (t.lsp l).reserved with
  | .routed p _ _, .val q => p.map fun i => (i, pyRound 1 q)
  | _, _ => []

theorem lspHops_ok {t : State} (hp : ∀ l ∈ t.lsps, Placed t l) :
    t.lspHops = .ok (t.lsps.flatMap (hopsOf t)) := by
  unfold State.lspHops
  rw [foldlM_ok (g := hopsOf t), List.nil_append]
  · congr 1
    have : ∀ L : List ℕ, (∀ l ∈ L, Placed t l) →
        (L.filter fun l => !(t.lsp l).path.saysUnrouted).flatMap (hopsOf t) =
          L.flatMap (hopsOf t) := by
      intro L hL
      induction L with
      | nil => rfl
      | cons l L ih =>
        have ih := ih fun m hm => hL m (by simp [hm])
        rw [List.filter_cons, List.flatMap_cons]
        rcases hL l (by simp) with ⟨h1, h2⟩ | ⟨p, c, h, b, h1, -, -, -, -⟩
        · rw [if_neg (by rw [h1]; decide), ih]
          have : hopsOf t l = [] := by unfold hopsOf; rw [h1]
          rw [this, List.nil_append]
        · rw [if_pos (by rw [h1]; rfl), List.flatMap_cons, ih]
    exact this _ hp
  · intro acc l hl
    obtain ⟨hl, hr⟩ := List.mem_filter.1 hl
    rcases hp l hl with ⟨h1, h2⟩ | ⟨p, c, h, b, h1, h2, h3, h4, h5⟩
    · rw [h1] at hr; exact absurd hr (by decide)
    · unfold hopsOf
      rw [h1, h2]
      cases p with
      | nil => exact absurd rfl h3
      | cons i p =>
        simp only []
        rw [if_pos]
        rw [List.all_eq_true]
        intro j hj
        rw [List.any_eq_true]
        exact ⟨j, h5 j hj, by simp⟩

theorem infoReserved_append (t : State) (a b : List (ℕ × ℚ)) (i : ℕ) :
    t.infoReserved (a ++ b) i = t.infoReserved a i + t.infoReserved b i := by
  unfold State.infoReserved
  rw [List.filter_append, List.map_append, List.sum_append]

theorem infoReserved_path {t : State} (hu : UniqueIfcKeys t) {i : ℕ} (hi : i ∈ t.ifs) (v : ℚ)
    {p : List ℕ} (hn : p.Nodup) (hp : ∀ j ∈ p, j ∈ t.ifs) :
    t.infoReserved (p.map fun j => (j, v)) i = if i ∈ p then v else 0 := by
  induction p with
  | nil => rfl
  | cons j p ih =>
    have ih := ih hn.of_cons fun k hk => hp k (by simp [hk])
    rw [List.map_cons, show (j, v) :: p.map (fun j => (j, v)) = [(j, v)] ++ p.map (fun j => (j, v))
      from rfl, infoReserved_append, ih]
    have hj : j ∉ p := (List.nodup_cons.1 hn).1
    by_cases e : t.ifcKey j = t.ifcKey i
    · have : j = i := hu j (hp j (by simp)) i hi e
      subst this
      rw [if_neg hj, if_pos (by simp)]
      unfold State.infoReserved
      simp
    · have hne : i ≠ j := fun h => e (by rw [h])
      have h0 : t.infoReserved [(j, v)] i = 0 := by
        unfold State.infoReserved
        simp [e]
      rw [h0, zero_add]
      simp only [List.mem_cons, hne, false_or]

theorem infoReserved_sum {t : State} (hu : UniqueIfcKeys t) (hp : ∀ l ∈ t.lsps, Placed t l) {i : ℕ}
    (hi : i ∈ t.ifs) :
    t.infoReserved (t.lsps.flatMap (hopsOf t)) i = (t.lsps.map (lspShare t i)).sum := by
  have : ∀ L : List ℕ, (∀ l ∈ L, Placed t l) →
      t.infoReserved (L.flatMap (hopsOf t)) i = (L.map (lspShare t i)).sum := by
    intro L hL
    induction L with
    | nil => rfl
    | cons l L ih =>
      rw [List.flatMap_cons, infoReserved_append, ih fun m hm => hL m (by simp [hm]), List.map_cons,
        List.sum_cons]
      congr 1
      unfold hopsOf lspShare
      rcases hL l (by simp) with ⟨h1, h2⟩ | ⟨p, c, h, b, h1, h2, h3, h4, h5⟩
      · rw [h1]; rfl
      · rw [h1, h2]
        exact infoReserved_path hu hi _ h4 h5
  exact this _ hp

end NTM
