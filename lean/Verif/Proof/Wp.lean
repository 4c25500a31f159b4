import Verif.Model.Sim
import Verif.Model.Load

/-!
# Reasoning about Python computations

`wp x Q E s`: running `x` from `s` either returns `a` in a state satisfying `Q a`, or
raises `e` in a state satisfying `E e`.
-/

namespace NTM

/-- weakest precondition for normal and exceptional outcomes -/
def wp {α : Type} (x : Py α) (Q : α → State → Prop) (E : Exn → State → Prop) (s : State) : Prop :=
  match x s with
  | .ok a s' => Q a s'
  | .error e s' => E e s'

section
variable {α β : Type} {Q : α → State → Prop} {E : Exn → State → Prop} {s : State}

@[simp] theorem wp_pure (a : α) : wp (pure a) Q E s ↔ Q a s := Iff.rfl

@[simp] theorem wp_bind (x : Py β) (f : β → Py α) :
    wp (x >>= f) Q E s ↔ wp x (fun b s' => wp (f b) Q E s') E s := by
  unfold wp
  show (match (EStateM.bind x f) s with | .ok a s' => Q a s' | .error e s' => E e s') ↔ _
  unfold EStateM.bind
  cases x s <;> rfl

@[simp] theorem wp_get {Q : State → State → Prop} : wp (get : Py State) Q E s ↔ Q s s := Iff.rfl

@[simp] theorem wp_set (t : State) {Q : PUnit → State → Prop} :
    wp (set t : Py PUnit) Q E s ↔ Q ⟨⟩ t := Iff.rfl

@[simp] theorem wp_modify (f : State → State) {Q : PUnit → State → Prop} :
    wp (modify f : Py PUnit) Q E s ↔ Q ⟨⟩ (f s) := Iff.rfl

@[simp] theorem wp_raise (e : Exn) : wp (raise e : Py α) Q E s ↔ E e s := Iff.rfl

theorem wp_liftE (x : Except Exn α) :
    wp (liftE x) Q E s ↔ match x with
      | .ok a => Q a s
      | .error e => E e s := by
  cases x <;> rfl

@[simp] theorem wp_liftE_ok (a : α) : wp (liftE (.ok a)) Q E s ↔ Q a s := Iff.rfl
@[simp] theorem wp_liftE_error (e : Exn) : wp (liftE (.error e) : Py α) Q E s ↔ E e s := Iff.rfl

theorem wp_pyTry (x : Py α) (h : Exn → Py α) :
    wp (pyTry x h) Q E s ↔ wp x Q (fun e s' => wp (h e) Q E s') s := by
  unfold wp pyTry
  cases x s <;> rfl

@[simp] theorem wp_forEach_nil (f : β → Py Unit) {Q : Unit → State → Prop} :
    wp (forEach [] f) Q E s ↔ Q () s := Iff.rfl

@[simp] theorem wp_forEach_cons (b : β) (bs : List β) (f : β → Py Unit) {Q : Unit → State → Prop} :
    wp (forEach (b :: bs) f) Q E s ↔ wp (f b) (fun _ s' => wp (forEach bs f) Q E s') E s := by
  show wp (f b >>= fun _ => forEach bs f) Q E s ↔ _
  rw [wp_bind]

theorem wp_mono {x : Py α} {Q' : α → State → Prop} {E' : Exn → State → Prop}
    (h : wp x Q E s) (hQ : ∀ a t, Q a t → Q' a t) (hE : ∀ e t, E e t → E' e t) :
    wp x Q' E' s := by
  unfold wp at *
  cases hx : x s <;> simp only [hx] at h ⊢
  · exact hQ _ _ h
  · exact hE _ _ h

theorem wp_and {x : Py α} {Q' : α → State → Prop} {E' : Exn → State → Prop}
    (h : wp x Q E s) (h' : wp x Q' E' s) :
    wp x (fun a t => Q a t ∧ Q' a t) (fun e t => E e t ∧ E' e t) s := by
  unfold wp at *
  cases hx : x s <;> simp only [hx] at h h' ⊢ <;> exact ⟨h, h'⟩

theorem wp_trivial (x : Py α) : wp x (fun _ _ => True) (fun _ _ => True) s := by
  unfold wp; cases x s <;> trivial

/-- loop rule with an invariant that holds at every exit -/
theorem wp_forEach {I : State → Prop} {E : Exn → State → Prop} (f : β → Py Unit) (bs : List β)
    (hstep : ∀ b ∈ bs, ∀ s, I s → wp (f b) (fun _ s' => I s') E s) (hs : I s) :
    wp (forEach bs f) (fun _ s' => I s') E s := by
  induction bs generalizing s with
  | nil => exact hs
  | cons b bs ih =>
    rw [wp_forEach_cons]
    refine wp_mono (hstep b (by simp) s hs) ?_ (fun _ _ h => h)
    intro _ t ht
    exact ih (fun c hc => hstep c (by simp [hc])) ht

/-- loop rule with an invariant indexed by the elements already processed -/
theorem wp_forEach_idx {I : List β → State → Prop} {E : Exn → State → Prop} (f : β → Py Unit)
    (bs : List β) (done : List β)
    (hstep : ∀ pre b post, bs = pre ++ b :: post → ∀ s, I (done ++ pre) s →
      wp (f b) (fun _ s' => I (done ++ pre ++ [b]) s') E s) (hs : I done s) :
    wp (forEach bs f) (fun _ s' => I (done ++ bs) s') E s := by
  induction bs generalizing s done with
  | nil => simpa using hs
  | cons b bs ih =>
    rw [wp_forEach_cons]
    refine wp_mono (hstep [] b bs rfl s (by simpa using hs)) ?_ (fun _ _ h => h)
    intro _ t ht
    have := ih (s := t) (done ++ [b]) ?_ (by simpa using ht)
    · simpa using this
    · intro pre c post hbs u hu
      have := hstep (b :: pre) c post (by simp [hbs]) u (by simpa using hu)
      simpa using this

theorem wp_ok {x : Py α} {a : α} {t : State} (h : x s = .ok a t) : wp x Q E s ↔ Q a t := by
  unfold wp; rw [h]

theorem wp_error {x : Py α} {e : Exn} {t : State} (h : x s = .error e t) :
    wp x Q E s ↔ E e t := by
  unfold wp; rw [h]

theorem of_wp_ok {x : Py α} {a : α} {t : State} (hw : wp x Q E s) (h : x s = .ok a t) : Q a t :=
  (wp_ok h).1 hw

theorem of_wp_error {x : Py α} {e : Exn} {t : State} (hw : wp x Q E s) (h : x s = .error e t) :
    E e t := (wp_error h).1 hw

end

/-- every run of `x`, raising or not, relates start and end state by `R` -/
def Keeps {α : Type} (R : State → State → Prop) (x : Py α) : Prop :=
  ∀ s, wp x (fun _ t => R s t) (fun _ t => R s t) s

/-- preorders on states -/
structure Frame (R : State → State → Prop) : Prop where
  refl : ∀ s, R s s
  trans : ∀ {s t u}, R s t → R t u → R s u

section
variable {α β : Type} {R : State → State → Prop}

theorem Keeps.pure (hR : Frame R) (a : α) : Keeps R (pure a : Py α) := fun s => hR.refl s
theorem Keeps.get (hR : Frame R) : Keeps R (get : Py State) := fun s => hR.refl s
theorem Keeps.raise (hR : Frame R) (e : Exn) : Keeps R (raise e : Py α) := fun s => hR.refl s
theorem Keeps.liftE (hR : Frame R) (x : Except Exn α) : Keeps R (liftE x) := by
  intro s; cases x <;> exact hR.refl s

theorem Keeps.bind (hR : Frame R) {x : Py β} {f : β → Py α} (hx : Keeps R x)
    (hf : ∀ b, Keeps R (f b)) : Keeps R (x >>= f) := by
  intro s
  rw [wp_bind]
  refine wp_mono (hx s) ?_ (fun _ _ h => h)
  intro b t hst
  exact wp_mono (hf b t) (fun _ _ h => hR.trans hst h) (fun _ _ h => hR.trans hst h)

end

end NTM
