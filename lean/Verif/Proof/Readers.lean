import Verif.Proof.Frames

/-!
# Computations that only read the model

Once the cached LSP groups are current, looking up groups and metrics leaves the state
exactly as it was.
-/

namespace NTM

/-- the cached parallel LSP groups are those of the current LSPs -/
def GroupsFresh (env : Env) (s : State) : Prop :=
  s.groups = buildGroups env s.lsps s.lspSrc s.lspDst

/-- unchanged, provided the cache is current -/
def ReadOnly (env : Env) (s t : State) : Prop := GroupsFresh env s → t = s

theorem ReadOnly.frame (env : Env) : Frame (ReadOnly env) where
  refl _ _ := rfl
  trans h g hs := by
    have h1 := h hs
    subst h1
    exact g hs

section
variable {α β : Type} {R : State → State → Prop}

theorem Keeps.foldlM (hR : Frame R) (f : β → α → Py β) (hf : ∀ b a, Keeps R (f b a)) :
    ∀ (l : List α) (b : β), Keeps R (l.foldlM f b) := by
  intro l
  induction l with
  | nil => intro b; exact Keeps.pure hR b
  | cons a l ih =>
    intro b
    rw [List.foldlM_cons]
    exact Keeps.bind hR (hf b a) ih

theorem Keeps.ite {c : Prop} [Decidable c] {x y : Py α} (hx : Keeps R x) (hy : Keeps R y) :
    Keeps R (if c then x else y) := by split <;> assumption

theorem Keeps.forEach (hR : Frame R) (f : α → Py Unit) (hf : ∀ a, Keeps R (f a)) :
    ∀ l : List α, Keeps R (forEach l f) := by
  intro l
  induction l with
  | nil => exact Keeps.pure hR ()
  | cons a l ih => exact Keeps.bind hR (hf a) fun _ => ih
end

theorem lspGroups_fresh {env : Env} {s : State} (h : GroupsFresh env s) :
    lspGroups env s = .ok s.groups s := by
  unfold lspGroups
  split
  · rfl
  · next hg =>
    simp only [ne_eq, not_not] at hg
    have h' := h
    unfold GroupsFresh at h'
    rw [← h']

theorem keeps_lspGroups (env : Env) : Keeps (ReadOnly env) (lspGroups env) := by
  intro s
  by_cases h : GroupsFresh env s
  · rw [wp_ok (lspGroups_fresh h)]
    intro _; rfl
  · exact wp_mono (wp_trivial _) (fun _ _ _ h' => absurd h' h) (fun _ _ _ h' => absurd h' h)

/-- closes `Keeps` goals for computations made of reads -/
macro "reads" : tactic => `(tactic|
  repeat' (first
    | assumption
    | exact keeps_lspGroups _
    | exact Keeps.pure (ReadOnly.frame _) _
    | exact Keeps.get (ReadOnly.frame _)
    | exact Keeps.raise (ReadOnly.frame _) _
    | exact Keeps.liftE (ReadOnly.frame _) _
    | (refine Keeps.bind (ReadOnly.frame _) ?_ (fun _ => ?_))
    | split
    | (show Keeps _ (Bind.bind _ _))))

theorem keeps_ridingLsps (env : Env) (key : String) : Keeps (ReadOnly env) (ridingLsps env key) := by
  unfold ridingLsps
  reads

theorem keeps_bestLsps (env : Env) (key : String) : Keeps (ReadOnly env) (bestLsps env key) := by
  unfold bestLsps
  reads

theorem keeps_findShortcut (env : Env) (s : State) (u : String) (vs : List String) :
    Keeps (ReadOnly env) (findShortcut env s u vs) := by
  induction vs with
  | nil => exact Keeps.pure (ReadOnly.frame _) _
  | cons v vs ih =>
    have := keeps_bestLsps env (pairKey u v)
    unfold findShortcut
    reads

theorem keeps_shortcutLsps (env : Env) (path : List String) (l : List String) :
    ∀ skip, Keeps (ReadOnly env) (shortcutLsps env path l skip) := by
  induction l with
  | nil => intro _; exact Keeps.pure (ReadOnly.frame _) _
  | cons u l ih =>
    intro skip
    unfold shortcutLsps
    have h1 := ih skip
    refine Keeps.bind (ReadOnly.frame _) (Keeps.get (ReadOnly.frame _)) fun s => ?_
    refine Keeps.ite h1 ?_
    · refine Keeps.bind (ReadOnly.frame _) (Keeps.liftE (ReadOnly.frame _) _) fun n => ?_
      split
      · refine Keeps.bind (ReadOnly.frame _) (keeps_findShortcut _ _ _ _) fun found => ?_
        split
        · exact Keeps.bind (ReadOnly.frame _) (ih _) fun _ => Keeps.pure (ReadOnly.frame _) _
        · exact h1
      · exact h1

theorem keeps_insertShortcuts (env : Env) (np : List (List String)) (ps : List (List ℕ)) :
    Keeps (ReadOnly env) (insertShortcuts env np ps) := by
  unfold insertShortcuts
  refine Keeps.bind (ReadOnly.frame _) ?_ fun found => ?_
  · refine Keeps.foldlM (ReadOnly.frame _) _ ?_ _ _
    intro b a
    exact Keeps.bind (ReadOnly.frame _) (keeps_shortcutLsps _ _ _ _) fun _ =>
      Keeps.pure (ReadOnly.frame _) _
  · reads

theorem keeps_findIgpShortcuts (env : Env) (ps : List (List ℕ)) (np : List (List String)) :
    Keeps (ReadOnly env) (findIgpShortcuts env ps np) := by
  have := keeps_insertShortcuts env np ps
  unfold findIgpShortcuts
  reads

theorem keeps_igpPaths (env : Env) (g : NxG) (es : List ℕ) (a b : String) :
    Keeps (ReadOnly env) (igpPaths env g es a b) := by
  unfold igpPaths
  refine Keeps.bind (ReadOnly.frame _) (Keeps.get (ReadOnly.frame _)) fun s => ?_
  split
  · reads
  · reads
  · split
    · reads
    · exact Keeps.bind (ReadOnly.frame _) (keeps_findIgpShortcuts _ _ _) fun _ =>
        Keeps.pure (ReadOnly.frame _) _

/-- the outcome of a read-only computation -/
theorem Keeps.wp_read {α : Type} {env : Env} {x : Py α} (h : Keeps (ReadOnly env) x) {s : State}
    (hs : GroupsFresh env s) {Q : α → State → Prop} {E : Exn → State → Prop}
    (hQ : ∀ a, x s = .ok a s → Q a s) (hE : ∀ e, x s = .error e s → E e s) : wp x Q E s := by
  have := h s
  unfold wp at this ⊢
  cases hx : x s with
  | ok a t =>
    simp only [hx] at this ⊢
    have := this hs
    subst this
    exact hQ a hx
  | error e t =>
    simp only [hx] at this ⊢
    have := this hs
    subst this
    exact hE e hx

end NTM
