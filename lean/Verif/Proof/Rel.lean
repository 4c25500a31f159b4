import Verif.Proof.Outcome

/-!
# Relating two runs

`rwp f g Q s t`: `f` from `s` and `g` from `t` either both complete, in states related by `Q`,
or both raise the same exception.
-/

namespace NTM

/-- both complete and `Q` holds, or both raise the same exception -/
def rwp {α β : Type} (f : Py α) (g : Py β) (Q : α → β → State → State → Prop) (s t : State) : Prop :=
  match f s, g t with
  | .ok a s', .ok b t' => Q a b s' t'
  | .error e _, .error e' _ => e = e'
  | _, _ => False

section
variable {α β γ δ : Type} {s t : State}

theorem rwp_pure {a : α} {b : β} {Q : α → β → State → State → Prop} (h : Q a b s t) :
    rwp (pure a) (pure b) Q s t := h

theorem rwp_bind {f : Py α} {g : Py β} {f' : α → Py γ} {g' : β → Py δ}
    {Q : γ → δ → State → State → Prop}
    (h : rwp f g (fun a b s' t' => rwp (f' a) (g' b) Q s' t') s t) :
    rwp (f >>= f') (g >>= g') Q s t := by
  unfold rwp at h ⊢
  show (match EStateM.bind f f' s, EStateM.bind g g' t with
    | .ok a s', .ok b t' => Q a b s' t'
    | .error e _, .error e' _ => e = e'
    | _, _ => False)
  unfold EStateM.bind
  cases hf : f s <;> cases hg : g t <;> simp only [hf, hg] at h ⊢ <;> exact h

theorem rwp_mono {f : Py α} {g : Py β} {Q Q' : α → β → State → State → Prop}
    (h : rwp f g Q s t) (hQ : ∀ a b s' t', Q a b s' t' → Q' a b s' t') : rwp f g Q' s t := by
  unfold rwp at h ⊢
  cases hf : f s <;> cases hg : g t <;> simp only [hf, hg] at h ⊢
  · exact hQ _ _ _ _ h
  · exact h

theorem rwp_get {Q : State → State → State → State → Prop} (h : Q s t s t) :
    rwp (get : Py State) (get : Py State) Q s t := h

theorem rwp_modify {f g : State → State} {Q : PUnit → PUnit → State → State → Prop}
    (h : Q ⟨⟩ ⟨⟩ (f s) (g t)) : rwp (modify f : Py PUnit) (modify g : Py PUnit) Q s t := h

theorem rwp_set {s' t' : State} {Q : PUnit → PUnit → State → State → Prop}
    (h : Q ⟨⟩ ⟨⟩ s' t') : rwp (set s' : Py PUnit) (set t' : Py PUnit) Q s t := h

theorem rwp_raise {e : Exn} {Q : α → β → State → State → Prop} :
    rwp (raise e : Py α) (raise e : Py β) Q s t := rfl

theorem rwp_liftE {x y : Except Exn α} {Q : α → α → State → State → Prop} (e : y = x)
    (h : ∀ a, x = .ok a → Q a a s t) : rwp (liftE x) (liftE y) Q s t := by
  subst e
  cases y with
  | ok a => exact h a rfl
  | error e => exact (rfl : e = e)

theorem rwp_liftE' {x : Except Exn α} {y : Except Exn β} {Q : α → β → State → State → Prop}
    (h : match x, y with
      | .ok a, .ok b => Q a b s t
      | .error e, .error e' => e = e'
      | _, _ => False) : rwp (liftE x) (liftE y) Q s t := by
  cases x <;> cases y <;> exact h

theorem rwp_forEach {I : List α → State → State → Prop} {f g : α → Py Unit} (xs done : List α)
    (hstep : ∀ pre x post, xs = pre ++ x :: post → ∀ s t, I (done ++ pre) s t →
      rwp (f x) (g x) (fun _ _ s' t' => I (done ++ pre ++ [x]) s' t') s t)
    (h : I done s t) :
    rwp (forEach xs f) (forEach xs g) (fun _ _ s' t' => I (done ++ xs) s' t') s t := by
  induction xs generalizing s t done with
  | nil => rw [List.append_nil]; exact h
  | cons x xs ih =>
    refine rwp_bind (f := f x) (g := g x) ?_
    refine rwp_mono (hstep [] x xs rfl s t (by rwa [List.append_nil])) fun _ _ s' t' h' => ?_
    have e : done ++ x :: xs = (done ++ [x]) ++ xs := by simp
    rw [e]
    refine ih (done ++ [x]) (fun pre y post hxs s t hI => ?_) (by simpa using h')
    have := hstep (x :: pre) y post (by rw [hxs]; rfl) s t (by simpa using hI)
    simpa using this

/-- a loop that preserves a relation -/
theorem rwp_loop {R : State → State → Prop} {f g : α → Py Unit} (xs : List α)
    (hstep : ∀ x ∈ xs, ∀ s t, R s t → rwp (f x) (g x) (fun _ _ s' t' => R s' t') s t)
    (h : R s t) :
    rwp (forEach xs f) (forEach xs g) (fun _ _ s' t' => R s' t') s t :=
  rwp_forEach (I := fun _ => R) xs []
    (fun _ x _ e s t hR => hstep x (by rw [e]; simp) s t hR) h

theorem rwp_ok {f : Py α} {g : Py β} {Q : α → β → State → State → Prop} {a : α} {b : β}
    {s' t' : State} (h : rwp f g Q s t) (hf : f s = .ok a s') (hg : g t = .ok b t') :
    Q a b s' t' := by
  unfold rwp at h
  rw [hf, hg] at h
  exact h

end

end NTM
