import Verif.Proof.Simulation

/-!
# Routing does not look at other demands

The path search of one demand reads no demand: run on a model with other demands it does the same.
-/

namespace NTM

/-- the same result in a model with the demands `D` -/
def withDmds {α : Type} (D : ℕ → Dmd) : EStateM.Result Exn State α → EStateM.Result Exn State α
  | .ok a t => .ok a { t with dmd := D }
  | .error e t => .error e { t with dmd := D }

/-- a computation that neither reads nor writes demands -/
def Blind {α : Type} (x : Py α) : Prop := ∀ s D, x { s with dmd := D } = withDmds D (x s)

section
variable {α β : Type}

theorem Blind.pure (a : α) : Blind (pure a : Py α) := fun _ _ => rfl

theorem Blind.raise (e : Exn) : Blind (raise e : Py α) := fun _ _ => rfl

theorem Blind.liftE (x : Except Exn α) : Blind (liftE x) := by
  intro s D
  cases x <;> rfl

theorem Blind.bind {x : Py α} {f : α → Py β} (hx : Blind x) (hf : ∀ a, Blind (f a)) :
    Blind (x >>= f) := by
  intro s D
  show EStateM.bind x f _ = withDmds D (EStateM.bind x f s)
  unfold EStateM.bind
  rw [hx s D]
  cases h : x s with
  | ok a t => exact hf a t D
  | error e t => rfl

theorem Blind.get {f : State → Py β} (h : ∀ s D, f { s with dmd := D } = f s)
    (hf : ∀ s, Blind (f s)) : Blind (get >>= f) := by
  intro s D
  show f { s with dmd := D } { s with dmd := D } = withDmds D (f s s)
  rw [h s D]
  exact hf s s D

theorem Blind.foldlM (f : β → α → Py β) (hf : ∀ b a, Blind (f b a)) :
    ∀ (l : List α) (b : β), Blind (l.foldlM f b) := by
  intro l
  induction l with
  | nil => intro b; exact Blind.pure b
  | cons a l ih =>
    intro b
    rw [List.foldlM_cons]
    exact Blind.bind (hf b a) ih

end

theorem blind_lspGroups (env : Env) : Blind (lspGroups env) := by
  intro s D
  unfold lspGroups
  by_cases h : s.groups = []
  · simp only [h, ne_eq, not_true_eq_false, if_false]
    rfl
  · simp only [ne_eq, h, not_false_eq_true, if_true]
    rfl

theorem effMetrics_dmd (s : State) (D : ℕ → Dmd) (ls : List ℕ) :
    State.effMetrics { s with dmd := D } ls = s.effMetrics ls := by
  induction ls with
  | nil => rfl
  | cons l ls ih => unfold State.effMetrics; rw [ih]; rfl

theorem blind_bestLsps (env : Env) (key : String) : Blind (bestLsps env key) := by
  refine Blind.bind (blind_lspGroups env) fun g => Blind.get (fun s D => ?_) fun s => ?_
  · simp only [effMetrics_dmd]
    rfl
  cases dictGet g key with
  | none => exact Blind.pure _
  | some cands =>
    refine Blind.bind (Blind.liftE _) fun ms => ?_
    cases pyMin ms with
    | error e => cases e <;> first | exact Blind.pure _ | exact Blind.raise _
    | ok m => exact Blind.bind (Blind.liftE _) fun _ => Blind.pure _

theorem blind_findShortcut (env : Env) (s : State) (u : String) (vs : List String) :
    Blind (findShortcut env s u vs) := by
  induction vs with
  | nil => exact Blind.pure _
  | cons v vs ih =>
    refine Blind.bind (blind_bestLsps _ _) fun ls => ?_
    cases ls with
    | nil => exact ih
    | cons l ls => exact Blind.pure _

theorem findShortcut_dmd (env : Env) (s : State) (D : ℕ → Dmd) (u : String) (vs : List String) :
    findShortcut env { s with dmd := D } u vs = findShortcut env s u vs := by
  induction vs with
  | nil => rfl
  | cons v vs ih => unfold findShortcut; rw [ih]; rfl

theorem blind_shortcutLsps (env : Env) (path : List String) (l : List String) :
    ∀ skip, Blind (shortcutLsps env path l skip) := by
  induction l with
  | nil => intro _; exact Blind.pure _
  | cons u rest ih =>
    intro skip
    unfold shortcutLsps
    refine Blind.get (fun s D => ?_) fun s => ?_
    · simp only [findShortcut_dmd]
      rfl
    · split
      · split
        · exact ih _
        · refine Blind.bind (Blind.liftE _) fun n => ?_
          split
          · refine Blind.bind (blind_findShortcut _ _ _ _) fun found => ?_
            split
            · exact Blind.bind (ih _) fun _ => Blind.pure _
            · exact ih _
          · exact ih _
      · split
        · exact ih _
        · refine Blind.bind (Blind.liftE _) fun n => ?_
          split
          · refine Blind.bind (blind_findShortcut _ _ _ _) fun found => ?_
            split
            · exact Blind.bind (ih _) fun _ => Blind.pure _
            · exact ih _
          · exact ih _

theorem blind_insertShortcuts (env : Env) (np : List (List String)) (ps : List (List ℕ)) :
    Blind (insertShortcuts env np ps) := by
  refine Blind.bind (Blind.foldlM _ (fun _ _ => Blind.bind (blind_shortcutLsps _ _ _ _) fun _ =>
    Blind.pure _) _ _) fun found => ?_
  cases found with
  | none => exact Blind.raise _
  | some groups =>
    refine Blind.get (fun _ _ => rfl) fun s => ?_
    split <;> exact Blind.pure _

theorem mixedMetric_dmd (s : State) (D : ℕ → Dmd) (p : List Item) :
    State.mixedMetric { s with dmd := D } p = s.mixedMetric p := by
  induction p with
  | nil => rfl
  | cons x p ih =>
    cases x with
    | ifc i => unfold State.mixedMetric; rw [ih]; rfl
    | lsp l => unfold State.mixedMetric; rw [ih]; rfl

theorem mixedMetrics_dmd (s : State) (D : ℕ → Dmd) (ps : List (List Item)) :
    State.mixedMetrics { s with dmd := D } ps = s.mixedMetrics ps := by
  induction ps with
  | nil => rfl
  | cons p ps ih => unfold State.mixedMetrics; rw [ih, mixedMetric_dmd]

theorem blind_findIgpShortcuts (env : Env) (ps : List (List ℕ)) (np : List (List String)) :
    Blind (findIgpShortcuts env ps np) := by
  refine Blind.get (fun _ _ => rfl) fun s => Blind.bind (Blind.liftE _) fun ns => ?_
  split
  · exact Blind.pure _
  · refine Blind.bind (blind_insertShortcuts _ _ _) fun qs => ?_
    split
    · exact Blind.pure _
    · split
      · exact Blind.raise _
      · refine Blind.get (fun s D => ?_) fun s => Blind.liftE _
        unfold State.inspectMetrics
        simp only [mixedMetrics_dmd, mixedMetric_dmd]

theorem blind_igpPaths (env : Env) (g : NxG) (es : List ℕ) (a b : String) :
    Blind (igpPaths env g es a b) := by
  refine Blind.get (fun _ _ => rfl) fun s => ?_
  cases g.allShortestPaths a b with
  | error e => cases e <;> first | exact Blind.pure _ | exact Blind.raise _
  | ok ps =>
    simp only []
    cases s.kind with
    | perf =>
      simp only []
      split
      · exact Blind.pure _
      · exact Blind.raise _
    | flex => exact Blind.bind (blind_findIgpShortcuts _ _ _) fun _ => Blind.pure _

/-- a place is determined by the end points -/
theorem Place.unique {env : Env} {s : State} {g : NxG} {es : List ℕ} {a b : String}
    {p q : Option (List (List Item))} (hp : Place env s g es a b p) (hq : Place env s g es a b q) :
    p = q := by
  rcases hp with ⟨ls, h1, h2, rfl⟩ | ⟨h1, D, h2⟩ <;> rcases hq with ⟨ls', h1', h2', rfl⟩ | ⟨h1', D', h2'⟩
  · rw [h2.unique h2']
  · exact absurd (h2.unique h1') h1
  · exact absurd (h2'.unique h1) h1'
  · have := blind_igpPaths env g es a b s D
    rw [h2] at this
    have this' := blind_igpPaths env g es a b s D'
    rw [h2'] at this'
    cases hr : igpPaths env g es a b s with
    | error e t => rw [hr] at this; cases this
    | ok r t =>
      rw [hr] at this this'
      simp only [withDmds, EStateM.Result.ok.injEq] at this this'
      rw [this.1, this'.1]

end NTM
