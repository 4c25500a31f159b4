import Verif.Proof.TwistDmd

/-!
# Demand routing of states that agree but for an overlay
-/

namespace NTM

open Spec

/-- equal values, the same overlay, and only the cached groups changed -/
def RD {α : Type} (o : Ov) (s : State) (a b : α) (s' t' : State) : Prop :=
  b = a ∧ t' = s'.twist o ∧ ∃ g, s' = { s with groups := g }

theorem rwp_ite {α β : Type} {c : Prop} [Decidable c] {f f' : Py α} {g g' : Py β}
    {Q : α → β → State → State → Prop} {s t : State}
    (h1 : c → rwp f g Q s t) (h2 : ¬ c → rwp f' g' Q s t) :
    rwp (if c then f else f') (if c then g else g') Q s t := by
  by_cases h : c
  · rw [if_pos h, if_pos h]; exact h1 h
  · rw [if_neg h, if_neg h]; exact h2 h

section
variable {s : State} {o : Ov}

theorem rd_lspGroups (env : Env) :
    rwp (lspGroups env) (lspGroups env) (RD o s) s (s.twist o) := by
  unfold rwp lspGroups
  by_cases h : s.groups = []
  · have h' : (s.twist o).groups = [] := h
    rw [if_neg (by simp [h]), if_neg (by simp [h'])]
    exact ⟨rfl, rfl, _, rfl⟩
  · have h' : (s.twist o).groups ≠ [] := h
    rw [if_pos h, if_pos h']
    exact ⟨rfl, rfl, s.groups, rfl⟩

theorem rd_ridingLsps (hk : o.kind = s.kind) (env : Env) (key : String) :
    rwp (ridingLsps env key) (ridingLsps env key) (RD o s) s (s.twist o) := by
  unfold ridingLsps
  refine rwp_bind (rwp_mono (rd_lspGroups env) ?_)
  rintro _ g s' _ ⟨rfl, rfl, g', rfl⟩
  refine rwp_bind (rwp_get ?_)
  have e : ((dictGet g key).getD [] |>.filter fun l =>
      !((({ s with groups := g' } : State).twist o).lsp l).path.saysUnrouted) =
      ((dictGet g key).getD [] |>.filter fun l => !(s.lsp l).path.saysUnrouted) := rfl
  rw [e]
  show rwp (match ((dictGet g key).getD [] |>.filter fun l => !(s.lsp l).path.saysUnrouted) with
    | [] => _ | ls => _) _ _ _ _
  cases ((dictGet g key).getD [] |>.filter fun l => !(s.lsp l).path.saysUnrouted) with
  | nil => exact rwp_pure ⟨rfl, rfl, _, rfl⟩
  | cons l ls =>
    refine rwp_bind (rwp_liftE
      (twist_effMetrics (s := { s with groups := g' }) (.inl hk) _) fun ms hms => ?_)
    refine rwp_bind (rwp_liftE rfl fun m hm => ?_)
    exact rwp_pure ⟨twist_withMetric (s := { s with groups := g' }) (.inl hk) _ _, rfl, _, rfl⟩

theorem rd_bestLsps (hk : o.kind = s.kind) (env : Env) (key : String) :
    rwp (bestLsps env key) (bestLsps env key) (RD o s) s (s.twist o) := by
  unfold bestLsps
  refine rwp_bind (rwp_mono (rd_lspGroups env) ?_)
  rintro _ g s' _ ⟨rfl, rfl, g', rfl⟩
  refine rwp_bind (rwp_get ?_)
  cases hd : dictGet g key with
  | none => exact rwp_pure ⟨rfl, rfl, _, rfl⟩
  | some cands =>
    simp only []
    refine rwp_bind (rwp_liftE
      (twist_effMetrics (s := { s with groups := g' }) (.inl hk) _) fun ms hms => ?_)
    cases hm : pyMin ms with
    | error e =>
      cases e <;> first | exact rwp_raise | exact rwp_pure ⟨rfl, rfl, _, rfl⟩
    | ok m =>
      simp only []
      refine rwp_bind (rwp_liftE
        (twist_effMetrics (s := { s with groups := g' }) (.inl hk) _) fun _ _ => ?_)
      refine rwp_pure ⟨?_, rfl, _, rfl⟩
      rw [twist_withMetric (s := { s with groups := g' }) (.inl hk)]
      rfl

theorem RD.trans_groups {α : Type} {g : List (String × List ℕ)} {a b : α} {s' t' : State}
    (h : RD o ({ s with groups := g } : State) a b s' t') : RD o s a b s' t' := by
  obtain ⟨h1, h2, g', rfl⟩ := h
  exact ⟨h1, h2, g', rfl⟩

theorem findShortcut_dst (env : Env) {s1 s2 : State} (h : s1.lspDst = s2.lspDst) (u : String)
    (vs : List String) : findShortcut env s1 u vs = findShortcut env s2 u vs := by
  induction vs with
  | nil => rfl
  | cons v vs ih => unfold findShortcut; rw [ih, h]

theorem rd_findShortcut (hk : o.kind = s.kind) (env : Env) (s0 : State) (u : String)
    (vs : List String) :
    rwp (findShortcut env s0 u vs) (findShortcut env s0 u vs) (RD o s) s (s.twist o) := by
  induction vs generalizing s with
  | nil => exact rwp_pure ⟨rfl, rfl, s.groups, rfl⟩
  | cons v vs ih =>
    unfold findShortcut
    refine rwp_bind (rwp_mono (rd_bestLsps hk env _) ?_)
    rintro _ ls s' _ ⟨rfl, rfl, g, rfl⟩
    cases ls with
    | nil => exact rwp_mono (ih (s := { s with groups := g }) hk) fun _ _ _ _ h => h.trans_groups
    | cons l ls => exact rwp_pure ⟨rfl, rfl, _, rfl⟩

theorem rd_shortcutLsps (hk : o.kind = s.kind) (env : Env) (path us : List String)
    (skip : Option String) :
    rwp (shortcutLsps env path us skip) (shortcutLsps env path us skip) (RD o s) s (s.twist o) := by
  induction us generalizing s skip with
  | nil => exact rwp_pure ⟨rfl, rfl, s.groups, rfl⟩
  | cons u us ih =>
    unfold shortcutLsps
    refine rwp_bind (rwp_get ?_)
    refine rwp_ite (fun _ => ih hk _) fun _ => ?_
    · 
      refine rwp_bind (rwp_liftE rfl fun n hn => ?_)
      have e : ((s.twist o).node n).shortcuts = (s.node n).shortcuts := rfl
      rw [e]
      by_cases hn : (s.node n).shortcuts = true
      · rw [if_pos hn, if_pos hn]
        rw [findShortcut_dst env (s1 := s.twist o) (s2 := s) rfl]
        refine rwp_bind (rwp_mono (rd_findShortcut hk env s u _) ?_)
        rintro _ f s' _ ⟨rfl, rfl, g, rfl⟩
        cases f with
        | none => exact rwp_mono (ih (s := { s with groups := g }) hk _) fun _ _ _ _ h => h.trans_groups
        | some x =>
          refine rwp_bind (rwp_mono (ih (s := { s with groups := g }) hk _) ?_)
          rintro _ f s' _ ⟨rfl, rfl, g', rfl⟩
          exact rwp_pure ⟨rfl, rfl, _, rfl⟩
      · rw [if_neg hn, if_neg hn]; exact ih hk _

theorem rd_foldlM {α β : Type} {f : β → α → Py β}
    (hf : ∀ (s : State), o.kind = s.kind → ∀ b a, rwp (f b a) (f b a) (RD o s) s (s.twist o))
    (hk : o.kind = s.kind) (xs : List α) (b : β) :
    rwp (xs.foldlM f b) (xs.foldlM f b) (RD o s) s (s.twist o) := by
  induction xs generalizing s b with
  | nil => exact rwp_pure ⟨rfl, rfl, s.groups, rfl⟩
  | cons x xs ih =>
    rw [List.foldlM_cons]
    refine rwp_bind (rwp_mono (hf s hk b x) ?_)
    rintro _ c s' _ ⟨rfl, rfl, g, rfl⟩
    exact rwp_mono (ih (s := { s with groups := g }) hk _) fun _ _ _ _ h => h.trans_groups

theorem twist_insertLsps (groups : List (List ℕ)) (p : List ℕ) :
    (s.twist o).insertLsps groups p = s.insertLsps groups p := rfl

theorem rd_insertShortcuts (hk : o.kind = s.kind) (env : Env) (nps : List (List String))
    (paths : List (List ℕ)) :
    rwp (insertShortcuts env nps paths) (insertShortcuts env nps paths) (RD o s) s (s.twist o) := by
  unfold insertShortcuts
  refine rwp_bind (rwp_mono (rd_foldlM (fun s hk b np => ?_) hk nps none) ?_)
  · refine rwp_bind (rwp_mono (rd_shortcutLsps hk env np np none) ?_)
    rintro _ c s' _ ⟨rfl, rfl, g, rfl⟩
    exact rwp_pure ⟨rfl, rfl, _, rfl⟩
  · rintro _ c s' _ ⟨rfl, rfl, g, rfl⟩
    cases c with
    | none => exact rwp_raise
    | some groups =>
      refine rwp_bind (rwp_get ?_)
      by_cases hg : groups = []
      · rw [if_pos hg, if_pos hg]; exact rwp_pure ⟨rfl, rfl, _, rfl⟩
      · rw [if_neg hg, if_neg hg]; exact rwp_pure ⟨rfl, rfl, _, rfl⟩

theorem twist_mixedMetric (hk : o.kind = s.kind) (p : List Item) :
    (s.twist o).mixedMetric p = s.mixedMetric p := by
  induction p with
  | nil => rfl
  | cons x p ih =>
    cases x with
    | ifc i => unfold State.mixedMetric; rw [ih]; rfl
    | lsp l => unfold State.mixedMetric; rw [ih, twist_effMetric (.inl hk)]

theorem twist_inspectMetrics (hk : o.kind = s.kind) (ps : List (List Item)) :
    (s.twist o).inspectMetrics ps = s.inspectMetrics ps := by
  have e : (s.twist o).mixedMetrics ps = s.mixedMetrics ps := by
    induction ps with
    | nil => rfl
    | cons p ps ih => unfold State.mixedMetrics; rw [ih, twist_mixedMetric hk]
  unfold State.inspectMetrics
  rw [e]
  simp only [twist_mixedMetric hk]

theorem rd_findIgpShortcuts (hk : o.kind = s.kind) (env : Env) (paths : List (List ℕ))
    (nps : List (List String)) :
    rwp (findIgpShortcuts env paths nps) (findIgpShortcuts env paths nps) (RD o s) s (s.twist o) := by
  unfold findIgpShortcuts
  refine rwp_bind (rwp_get ?_)
  refine rwp_bind (rwp_liftE rfl fun ns hns => ?_)
  have e : (ns.all fun n => !((s.twist o).node n).shortcuts) = ns.all fun n => !(s.node n).shortcuts :=
    rfl
  rw [e]
  by_cases h : (ns.all fun n => !(s.node n).shortcuts) = true
  · rw [if_pos h]; exact rwp_pure ⟨rfl, rfl, s.groups, rfl⟩
  · rw [if_neg h]
    refine rwp_bind (rwp_mono (rd_insertShortcuts hk env nps paths) ?_)
    rintro _ ps s' _ ⟨rfl, rfl, g, rfl⟩
    by_cases h1 : ps.length = 1
    · rw [if_pos h1]; exact rwp_pure ⟨rfl, rfl, _, rfl⟩
    · rw [if_neg h1]
      by_cases h2 : ps.length = 0
      · rw [if_pos h2]; exact rwp_raise
      · rw [if_neg h2]
        refine rwp_bind (rwp_get ?_)
        exact rwp_liftE (twist_inspectMetrics (s := { s with groups := g }) hk ps) fun _ _ => ⟨rfl, rfl, _, rfl⟩

theorem rd_igpPaths (hk : o.kind = s.kind) (env : Env) (g : NxG) (es : List ℕ) (a b : String) :
    rwp (igpPaths env g es a b) (igpPaths env g es a b) (RD o s) s (s.twist o) := by
  unfold igpPaths
  refine rwp_bind (rwp_get ?_)
  cases hg : g.allShortestPaths a b with
  | error e => cases e <;> first | exact rwp_raise | exact rwp_pure ⟨rfl, rfl, s.groups, rfl⟩
  | ok nxSp =>
    simp only []
    have e : (s.twist o).kind = s.kind := hk
    rw [e]
    cases s.kind with
    | perf =>
      simp only []
      show rwp (match allSome (nxSp.map fun p => (s.convertPerf p).toOption) with
        | some l => _ | none => _) (match allSome (nxSp.map fun p => (s.convertPerf p).toOption) with
        | some l => _ | none => _) _ _ _
      cases allSome (nxSp.map fun p => (s.convertPerf p).toOption) with
      | none => exact rwp_raise
      | some l => exact rwp_pure ⟨rfl, rfl, s.groups, rfl⟩
    | flex =>
      simp only []
      refine rwp_bind (rwp_mono (rd_findIgpShortcuts hk env _ _) ?_)
      rintro _ ps s' _ ⟨rfl, rfl, g, rfl⟩
      exact rwp_pure ⟨rfl, rfl, _, rfl⟩

/-- what demand routing leaves alone -/
def DFrame (s s' : State) : Prop :=
  ∃ D g, s' = { s with dmd := D, groups := g } ∧
    ∀ d, D d = { s.dmd d with path := (D d).path, detail := (s.dmd d).detail }

theorem twist_updDmd_path (s : State) (o : Ov) (d : ℕ) (p : Option (List (List Item))) :
    (s.twist o).updDmd d (fun x => { x with path := p }) =
      (s.updDmd d fun x => { x with path := p }).twist o := by
  unfold State.twist State.updDmd
  simp only [State.mk.injEq, true_and, and_true]
  funext k
  by_cases h : k = d
  · subst h; simp only [if_true]
  · simp only [h, if_false]

theorem DFrame.refl (s : State) : DFrame s s := ⟨s.dmd, s.groups, rfl, fun _ => rfl⟩

theorem DFrame.trans {s s1 s2 : State} (h1 : DFrame s s1) (h2 : DFrame s1 s2) : DFrame s s2 := by
  obtain ⟨D, g, rfl, e⟩ := h1
  obtain ⟨D', g', rfl, e'⟩ := h2
  refine ⟨D', g', rfl, fun d => ?_⟩
  rw [e' d]
  show ({ D d with path := _, detail := (D d).detail } : Dmd) = _
  rw [e d]

theorem DFrame.path (s : State) (d : ℕ) (p : Option (List (List Item))) :
    DFrame s (s.updDmd d fun x => { x with path := p }) := by
  refine ⟨_, s.groups, rfl, fun k => ?_⟩
  by_cases h : k = d
  · subst h; simp only [if_true]
  · simp only [h, if_false]

theorem DFrame.groups (s : State) (g : List (String × List ℕ)) :
    DFrame s ({ s with groups := g } : State) := ⟨s.dmd, g, rfl, fun _ => rfl⟩

theorem rd_routeDemand (hk : o.kind = s.kind) (env : Env) (g : NxG) (es : List ℕ) (d : ℕ) :
    rwp (routeDemand env g es d) (routeDemand env g es d)
      (fun _ _ s' t' => t' = s'.twist o ∧ DFrame s s') s (s.twist o) := by
  unfold routeDemand
  refine rwp_bind (rwp_modify ?_)
  rw [twist_updDmd_path]
  have h0 := DFrame.path s d (some [])
  have hk1 : o.kind = (s.updDmd d fun x => { x with path := some [] }).kind := hk
  generalize (s.updDmd d fun x => { x with path := some [] }) = s1 at h0 hk1
  refine rwp_bind (rwp_get ?_)
  refine rwp_bind (rwp_mono (rd_ridingLsps hk1 env _) ?_)
  rintro _ ls s' _ ⟨rfl, rfl, g', rfl⟩
  have h1 := h0.trans (.groups s1 g')
  have hk2 : o.kind = ({ s1 with groups := g' } : State).kind := hk1
  cases ls with
  | nil =>
    simp only []
    refine rwp_bind (rwp_mono (rd_igpPaths hk2 env g es _ _) ?_)
    rintro _ p s' _ ⟨rfl, rfl, g'', rfl⟩
    exact rwp_modify ⟨twist_updDmd_path _ _ _ _, h1.trans ((DFrame.groups _ g'').trans (.path _ d p))⟩
  | cons l ls =>
    exact rwp_modify ⟨twist_updDmd_path _ _ _ _, h1.trans (.path _ d _)⟩

end

end NTM
