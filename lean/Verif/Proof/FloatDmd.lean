import Verif.Proof.FloatLsp
import Verif.Proof.TwistLoad
import Verif.Proof.FloatTotal

/-!
# Demand routing after a floating point LSP phase
-/

namespace NTM

open Spec

/-- the reservations round to the same tenths -/
def Fits (o : Gl) (s : State) : Prop := ∀ i ∈ s.ifs, pyRound 1 (o.raw i) = s.reservedBw i

/-- equal values, the same overlay, and only the cached groups changed -/
def GD {α : Type} (o : Gl) (s : State) (a b : α) (s' t' : State) : Prop :=
  b = a ∧ t' = s'.gloss o ∧ ∃ g, s' = { s with groups := g }

section
variable {s : State} {o : Gl}

theorem Fits.reservable (h : Fits o s) {i : ℕ} (hi : i ∈ s.ifs) :
    (s.gloss o).reservable i = s.reservable i := by
  unfold State.reservable
  have e : (s.gloss o).reservedBw i = s.reservedBw i := h i hi
  rw [e]
  rfl

theorem Fits.considered (h : Fits o s) (a : Bool) (b : ℚ) (c : Bool) :
    (s.gloss o).considered a b c = s.considered a b c := by
  unfold State.considered
  refine List.filter_congr fun i hi => ?_
  rw [h.reservable hi]
  rfl

theorem Fits.convertFlex (h : Fits o s) (b : ℚ) (p : List String) :
    (s.gloss o).convertFlex b p = s.convertFlex b p := by
  unfold State.convertFlex
  refine List.map_congr_left fun hop _ => ?_
  refine List.filter_congr fun i hi => ?_
  rw [h.reservable (List.mem_filter.1 hi).1]

theorem gloss_getShortestPath (h : Fits o s) (a b : String) (needed : ℚ) :
    (s.gloss o).getShortestPath a b needed = s.getShortestPath a b needed := by
  have h1 : (s.gloss o).graphPerf false needed false = s.graphPerf false needed false := by
    unfold State.graphPerf; simp only []; rw [h.considered]; rfl
  have h2 : (s.gloss o).graphFlex false needed false = s.graphFlex false needed false := by
    unfold State.graphFlex; simp only []; rw [h.considered]; rfl
  have h3 : (s.gloss o).convertFlex needed = s.convertFlex needed := funext fun p => h.convertFlex _ p
  unfold State.getShortestPath
  rw [h1, h2, h3]
  rfl

theorem manualView_gloss (x : Lsp) (p : LspPath) (r : Bw) (u : Option ℚ) :
    Lsp.manualView { x with path := p, reserved := r, setup := u } = x.manualView := by
  unfold Lsp.manualView Lsp.readMetric
  cases x.initialMetric with
  | none => rfl
  | some m =>
    simp only []
    split
    · rfl
    · split <;> rfl

theorem gloss_says (l : ℕ) :
    ((s.gloss o).lsp l).path.saysUnrouted = (s.lsp l).path.saysUnrouted := by
  show ((s.lsp l).path.withHd _).saysUnrouted = _
  cases (s.lsp l).path <;> rfl

theorem gloss_effMetric (h : Fits o s) (l : ℕ) : (s.gloss o).effMetric l = s.effMetric l := by
  unfold State.effMetric
  have e : ((s.gloss o).lsp l).manualView = (s.lsp l).manualView := manualView_gloss (s.lsp l) _ _ _
  rw [gloss_getShortestPath h, e, gloss_says]
  rfl

theorem gloss_effMetrics (h : Fits o s) (ls : List ℕ) :
    (s.gloss o).effMetrics ls = s.effMetrics ls := by
  induction ls with
  | nil => rfl
  | cons l ls ih =>
    unfold State.effMetrics
    rw [ih, gloss_effMetric h]

theorem gloss_withMetric (h : Fits o s) (m : Metric) (ls : List ℕ) :
    (s.gloss o).withMetric m ls = s.withMetric m ls := by
  unfold State.withMetric
  refine List.filter_congr fun l _ => ?_
  rw [gloss_effMetric h]

end

section
variable {s : State} {o : Gl}

theorem gd_lspGroups (env : Env) :
    rwp (lspGroups env) (lspGroups env) (GD o s) s (s.gloss o) := by
  unfold rwp lspGroups
  by_cases h : s.groups = []
  · have h' : (s.gloss o).groups = [] := h
    rw [if_neg (by simp [h]), if_neg (by simp [h'])]
    exact ⟨rfl, rfl, _, rfl⟩
  · have h' : (s.gloss o).groups ≠ [] := h
    rw [if_pos h, if_pos h']
    exact ⟨rfl, rfl, s.groups, rfl⟩

theorem gd_ridingLsps (hk : Fits o s) (env : Env) (key : String) :
    rwp (ridingLsps env key) (ridingLsps env key) (GD o s) s (s.gloss o) := by
  unfold ridingLsps
  refine rwp_bind (rwp_mono (gd_lspGroups env) ?_)
  rintro _ g s' _ ⟨rfl, rfl, g', rfl⟩
  refine rwp_bind (rwp_get ?_)
  have e : ((dictGet g key).getD [] |>.filter fun l =>
      !((({ s with groups := g' } : State).gloss o).lsp l).path.saysUnrouted) =
      ((dictGet g key).getD [] |>.filter fun l => !(s.lsp l).path.saysUnrouted) :=
    List.filter_congr fun l _ => by rw [gloss_says]
  rw [e]
  show rwp (match ((dictGet g key).getD [] |>.filter fun l => !(s.lsp l).path.saysUnrouted) with
    | [] => _ | ls => _) _ _ _ _
  cases ((dictGet g key).getD [] |>.filter fun l => !(s.lsp l).path.saysUnrouted) with
  | nil => exact rwp_pure ⟨rfl, rfl, _, rfl⟩
  | cons l ls =>
    refine rwp_bind (rwp_liftE
      (gloss_effMetrics (s := { s with groups := g' }) hk _) fun ms hms => ?_)
    refine rwp_bind (rwp_liftE rfl fun m hm => ?_)
    exact rwp_pure ⟨gloss_withMetric (s := { s with groups := g' }) hk _ _, rfl, _, rfl⟩

theorem gd_bestLsps (hk : Fits o s) (env : Env) (key : String) :
    rwp (bestLsps env key) (bestLsps env key) (GD o s) s (s.gloss o) := by
  unfold bestLsps
  refine rwp_bind (rwp_mono (gd_lspGroups env) ?_)
  rintro _ g s' _ ⟨rfl, rfl, g', rfl⟩
  refine rwp_bind (rwp_get ?_)
  cases hd : dictGet g key with
  | none => exact rwp_pure ⟨rfl, rfl, _, rfl⟩
  | some cands =>
    simp only []
    have e : (cands.filter fun l =>
        !((({ s with groups := g' } : State).gloss o).lsp l).path.saysUnrouted) =
        cands.filter fun l => !(s.lsp l).path.saysUnrouted :=
      List.filter_congr fun l _ => by rw [gloss_says]
    rw [e]
    refine rwp_bind (rwp_liftE
      (gloss_effMetrics (s := { s with groups := g' }) hk _) fun ms hms => ?_)
    cases hm : pyMin ms with
    | error e =>
      cases e <;> first | exact rwp_raise | exact rwp_pure ⟨rfl, rfl, _, rfl⟩
    | ok m =>
      simp only []
      refine rwp_bind (rwp_liftE
        (gloss_effMetrics (s := { s with groups := g' }) hk _) fun _ _ => ?_)
      refine rwp_pure ⟨?_, rfl, _, rfl⟩
      rw [gloss_withMetric (s := { s with groups := g' }) hk]
      exact List.filter_congr fun l _ => by rw [gloss_says]

theorem GD.trans_groups {α : Type} {g : List (String × List ℕ)} {a b : α} {s' t' : State}
    (h : GD o ({ s with groups := g } : State) a b s' t') : GD o s a b s' t' := by
  obtain ⟨h1, h2, g', rfl⟩ := h
  exact ⟨h1, h2, g', rfl⟩

theorem gd_findShortcut (hk : Fits o s) (env : Env) (s0 : State) (u : String)
    (vs : List String) :
    rwp (findShortcut env s0 u vs) (findShortcut env s0 u vs) (GD o s) s (s.gloss o) := by
  induction vs generalizing s with
  | nil => exact rwp_pure ⟨rfl, rfl, s.groups, rfl⟩
  | cons v vs ih =>
    unfold findShortcut
    refine rwp_bind (rwp_mono (gd_bestLsps hk env _) ?_)
    rintro _ ls s' _ ⟨rfl, rfl, g, rfl⟩
    cases ls with
    | nil => exact rwp_mono (ih (s := { s with groups := g }) hk) fun _ _ _ _ h => h.trans_groups
    | cons l ls => exact rwp_pure ⟨rfl, rfl, _, rfl⟩

theorem gd_shortcutLsps (hk : Fits o s) (env : Env) (path us : List String)
    (skip : Option String) :
    rwp (shortcutLsps env path us skip) (shortcutLsps env path us skip) (GD o s) s (s.gloss o) := by
  induction us generalizing s skip with
  | nil => exact rwp_pure ⟨rfl, rfl, s.groups, rfl⟩
  | cons u us ih =>
    unfold shortcutLsps
    refine rwp_bind (rwp_get ?_)
    refine rwp_ite (fun _ => ih hk _) fun _ => ?_
    · 
      refine rwp_bind (rwp_liftE rfl fun n hn => ?_)
      have e : ((s.gloss o).node n).shortcuts = (s.node n).shortcuts := rfl
      rw [e]
      by_cases hn : (s.node n).shortcuts = true
      · rw [if_pos hn, if_pos hn]
        rw [findShortcut_dst env (s1 := s.gloss o) (s2 := s) rfl]
        refine rwp_bind (rwp_mono (gd_findShortcut hk env s u _) ?_)
        rintro _ f s' _ ⟨rfl, rfl, g, rfl⟩
        cases f with
        | none => exact rwp_mono (ih (s := { s with groups := g }) hk _) fun _ _ _ _ h => h.trans_groups
        | some x =>
          refine rwp_bind (rwp_mono (ih (s := { s with groups := g }) hk _) ?_)
          rintro _ f s' _ ⟨rfl, rfl, g', rfl⟩
          exact rwp_pure ⟨rfl, rfl, _, rfl⟩
      · rw [if_neg hn, if_neg hn]; exact ih hk _

theorem gd_foldlM {α β : Type} {f : β → α → Py β}
    (hf : ∀ (s : State), Fits o s → ∀ b a, rwp (f b a) (f b a) (GD o s) s (s.gloss o))
    (hk : Fits o s) (xs : List α) (b : β) :
    rwp (xs.foldlM f b) (xs.foldlM f b) (GD o s) s (s.gloss o) := by
  induction xs generalizing s b with
  | nil => exact rwp_pure ⟨rfl, rfl, s.groups, rfl⟩
  | cons x xs ih =>
    rw [List.foldlM_cons]
    refine rwp_bind (rwp_mono (hf s hk b x) ?_)
    rintro _ c s' _ ⟨rfl, rfl, g, rfl⟩
    exact rwp_mono (ih (s := { s with groups := g }) hk _) fun _ _ _ _ h => h.trans_groups

theorem gloss_insertLsps (groups : List (List ℕ)) (p : List ℕ) :
    (s.gloss o).insertLsps groups p = s.insertLsps groups p := rfl

theorem gd_insertShortcuts (hk : Fits o s) (env : Env) (nps : List (List String))
    (paths : List (List ℕ)) :
    rwp (insertShortcuts env nps paths) (insertShortcuts env nps paths) (GD o s) s (s.gloss o) := by
  unfold insertShortcuts
  refine rwp_bind (rwp_mono (gd_foldlM (fun s hk b np => ?_) hk nps none) ?_)
  · refine rwp_bind (rwp_mono (gd_shortcutLsps hk env np np none) ?_)
    rintro _ c s' _ ⟨rfl, rfl, g, rfl⟩
    exact rwp_pure ⟨rfl, rfl, _, rfl⟩
  · rintro _ c s' _ ⟨rfl, rfl, g, rfl⟩
    cases c with
    | none => exact rwp_raise
    | some groups =>
      refine rwp_bind (rwp_get ?_)
      by_cases hg : groups = []
      · rw [if_pos hg, if_pos hg]; exact rwp_pure ⟨rfl, rfl, _, rfl⟩
      · rw [if_neg hg, if_neg hg]; exact rwp_pure ⟨rfl, rfl, _, rfl⟩

theorem gloss_mixedMetric (hk : Fits o s) (p : List Item) :
    (s.gloss o).mixedMetric p = s.mixedMetric p := by
  induction p with
  | nil => rfl
  | cons x p ih =>
    cases x with
    | ifc i => unfold State.mixedMetric; rw [ih]; rfl
    | lsp l => unfold State.mixedMetric; rw [ih, gloss_effMetric hk]

theorem gloss_inspectMetrics (hk : Fits o s) (ps : List (List Item)) :
    (s.gloss o).inspectMetrics ps = s.inspectMetrics ps := by
  have e : (s.gloss o).mixedMetrics ps = s.mixedMetrics ps := by
    induction ps with
    | nil => rfl
    | cons p ps ih => unfold State.mixedMetrics; rw [ih, gloss_mixedMetric hk]
  unfold State.inspectMetrics
  rw [e]
  simp only [gloss_mixedMetric hk]

theorem gd_findIgpShortcuts (hk : Fits o s) (env : Env) (paths : List (List ℕ))
    (nps : List (List String)) :
    rwp (findIgpShortcuts env paths nps) (findIgpShortcuts env paths nps) (GD o s) s (s.gloss o) := by
  unfold findIgpShortcuts
  refine rwp_bind (rwp_get ?_)
  refine rwp_bind (rwp_liftE rfl fun ns hns => ?_)
  have e : (ns.all fun n => !((s.gloss o).node n).shortcuts) = ns.all fun n => !(s.node n).shortcuts :=
    rfl
  rw [e]
  by_cases h : (ns.all fun n => !(s.node n).shortcuts) = true
  · rw [if_pos h]; exact rwp_pure ⟨rfl, rfl, s.groups, rfl⟩
  · rw [if_neg h]
    refine rwp_bind (rwp_mono (gd_insertShortcuts hk env nps paths) ?_)
    rintro _ ps s' _ ⟨rfl, rfl, g, rfl⟩
    by_cases h1 : ps.length = 1
    · rw [if_pos h1]; exact rwp_pure ⟨rfl, rfl, _, rfl⟩
    · rw [if_neg h1]
      by_cases h2 : ps.length = 0
      · rw [if_pos h2]; exact rwp_raise
      · rw [if_neg h2]
        refine rwp_bind (rwp_get ?_)
        exact rwp_liftE (gloss_inspectMetrics (s := { s with groups := g }) hk ps) fun _ _ => ⟨rfl, rfl, _, rfl⟩

theorem gd_igpPaths (hk : Fits o s) (env : Env) (g : NxG) (es : List ℕ) (a b : String) :
    rwp (igpPaths env g es a b) (igpPaths env g es a b) (GD o s) s (s.gloss o) := by
  unfold igpPaths
  refine rwp_bind (rwp_get ?_)
  cases hg : g.allShortestPaths a b with
  | error e => cases e <;> first | exact rwp_raise | exact rwp_pure ⟨rfl, rfl, s.groups, rfl⟩
  | ok nxSp =>
    simp only []
    have e : (s.gloss o).kind = s.kind := rfl
    rw [e]
    cases s.kind with
    | perf =>
      simp only []
      show rwp (match allSome (nxSp.map fun p => (s.convertPerf p).toOption) with
        | some l => _ | none => _) (match allSome (nxSp.map fun p => (s.convertPerf p).toOption) with
        | some l => _ | none => _) _ _ _
      cases allSome (nxSp.map fun p => (s.convertPerf p).toOption) with
      | none => exact rwp_raise
      | some l => exact rwp_pure ⟨rfl, rfl, s.groups, rfl⟩
    | flex =>
      simp only []
      refine rwp_bind (rwp_mono (gd_findIgpShortcuts hk env _ _) ?_)
      rintro _ ps s' _ ⟨rfl, rfl, g, rfl⟩
      exact rwp_pure ⟨rfl, rfl, _, rfl⟩

theorem gloss_updDmd (s : State) (o : Gl) (d : ℕ) (f : Dmd → Dmd) :
    (s.gloss o).updDmd d f = (s.updDmd d f).gloss o := rfl

theorem gd_routeDemand (hk : Fits o s) (env : Env) (g : NxG) (es : List ℕ) (d : ℕ) :
    rwp (routeDemand env g es d) (routeDemand env g es d)
      (fun _ _ s' t' => t' = s'.gloss o ∧ DFrame s s') s (s.gloss o) := by
  unfold routeDemand
  refine rwp_bind (rwp_modify ?_)
  rw [gloss_updDmd]
  have h0 := DFrame.path s d (some [])
  have hk1 : Fits o (s.updDmd d fun x => { x with path := some [] }) := hk
  generalize (s.updDmd d fun x => { x with path := some [] }) = s1 at h0 hk1
  refine rwp_bind (rwp_get ?_)
  refine rwp_bind (rwp_mono (gd_ridingLsps hk1 env _) ?_)
  rintro _ ls s' _ ⟨rfl, rfl, g', rfl⟩
  have h1 := h0.trans (.groups s1 g')
  have hk2 : Fits o ({ s1 with groups := g' } : State) := hk1
  cases ls with
  | nil =>
    simp only []
    refine rwp_bind (rwp_mono (gd_igpPaths hk2 env g es _ _) ?_)
    rintro _ p s' _ ⟨rfl, rfl, g'', rfl⟩
    exact rwp_modify ⟨gloss_updDmd _ _ _ _, h1.trans ((DFrame.groups _ g'').trans (.path _ d p))⟩
  | cons l ls =>
    exact rwp_modify ⟨gloss_updDmd _ _ _ _, h1.trans (.path _ d _)⟩

theorem gl_interfaces_eq (s : State) (o : Gl) (l : ℕ) :
    ((s.gloss o).lsp l).path.interfaces = (s.lsp l).path.interfaces := by
  show ((s.lsp l).path.withHd _).interfaces = _
  cases (s.lsp l).path <;> rfl

theorem gloss_setTraffic (s : State) (o : Gl) (i : ℕ) (v : Traffic) :
    (s.gloss o).updIfc i (fun x => { x with traffic := v }) =
      (s.updIfc i fun x => { x with traffic := v }).gloss o := by
  unfold State.gloss State.updIfc
  simp only [State.mk.injEq, true_and, and_true]
  funext k
  by_cases hk : k = i
  · subst hk; simp only [if_true]
  · simp only [hk, if_false]

theorem gl_addTraffic (fl : ℚ → ℚ) (i : ℕ) (q : ℚ) :
    rwp (addTrafficFl fl i q) (addTrafficFl fl i q)
      (fun _ _ s' t' => t' = s'.gloss o ∧ IFrame s s') s (s.gloss o) := by
  unfold rwp addTrafficFl
  have e : ((s.gloss o).ifc i).traffic = (s.ifc i).traffic := rfl
  cases h : (s.ifc i).traffic with
  | down => simp only [e, h]
  | val t =>
    simp only [e, h]
    refine ⟨gloss_setTraffic _ _ _ _, _, s.groups, rfl, fun k => ?_⟩
    by_cases hk : k = i
    · subst hk; simp only [if_true]
    · simp only [hk, if_false]

theorem gl_forEach {α : Type} {f : α → Py Unit}
    (hf : ∀ (s : State) x, rwp (f x) (f x) (fun _ _ s' t' => t' = s'.gloss o ∧ IFrame s s')
      s (s.gloss o)) (xs : List α) :
    rwp (forEach xs f) (forEach xs f) (fun _ _ s' t' => t' = s'.gloss o ∧ IFrame s s')
      s (s.gloss o) := by
  refine rwp_loop (R := fun s' t' => t' = s'.gloss o ∧ IFrame s s') xs ?_ ⟨rfl, .refl _⟩
  rintro x - s1 _ ⟨rfl, h⟩
  exact rwp_mono (hf s1 x) fun _ _ _ _ h' => ⟨h'.1, h.trans h'.2⟩

theorem gl_interfaces (l : ℕ) (f : ℕ → Py Unit)
    (hf : ∀ (s : State) x, rwp (f x) (f x) (fun _ _ s' t' => t' = s'.gloss o ∧ IFrame s s')
      s (s.gloss o)) :
    rwp (do
        let s ← get
        let ifs ← liftE (s.lsp l).path.interfaces
        forEach ifs f)
      (do
        let s ← get
        let ifs ← liftE (s.lsp l).path.interfaces
        forEach ifs f)
      (fun _ _ s' t' => t' = s'.gloss o ∧ IFrame s s') s (s.gloss o) := by
  refine rwp_bind (rwp_get ?_)
  refine rwp_bind (rwp_liftE (gl_interfaces_eq s o l) fun is _ => ?_)
  exact gl_forEach hf is

theorem gl_applyItem (fl : ℚ → ℚ) (k : Kind) (infos : List PathInfo) (x : Item) :
    rwp (applyItemFl fl k infos x) (applyItemFl fl k infos x)
      (fun _ _ s' t' => t' = s'.gloss o ∧ IFrame s s') s (s.gloss o) := by
  cases k <;> cases x
  · exact gl_addTraffic _ _ _
  · exact rwp_raise
  · refine gl_forEach (fun s p => ?_) infos
    exact rwp_ite (fun _ => gl_addTraffic _ _ _) fun _ => rwp_pure ⟨rfl, .refl _⟩
  · exact gl_interfaces _ _ fun s i => gl_addTraffic _ _ _

theorem PFrame.updDetail (s : State) (d : ℕ) (f : Dmd → Option (List PathInfo)) :
    PFrame s (s.updDmd d fun x => { x with detail := f x }) := by
  refine ⟨s.ifc, _, s.groups, rfl, fun _ => rfl, fun k => ?_⟩
  by_cases hk : k = d
  · subst hk; simp only [if_true]
  · simp only [hk, if_false]

theorem Fits.pframe {s s' : State} (hk : Fits o s) (h : PFrame s s') : Fits o s' := by
  obtain ⟨I, D, g, rfl, e, -⟩ := h
  intro i hi
  rw [hk i hi]
  show pyRound 1 _ = pyRound 1 (I i).reservedRaw
  rw [e i]

theorem gl_loadDemand (hk : Fits o s) (fl : ℚ → ℚ) (env : Env) (d : ℕ) :
    rwp (loadDemandFl fl env d) (loadDemandFl fl env d)
      (fun _ _ s' t' => t' = s'.gloss o ∧ PFrame s s') s (s.gloss o) := by
  unfold loadDemandFl
  refine rwp_bind (rwp_get ?_)
  show rwp (match (s.dmd d).path with | none => _ | some _ => _) (match (s.dmd d).path with
    | none => _ | some _ => _) _ _ _
  cases hp : (s.dmd d).path with
  | none => exact rwp_pure ⟨rfl, .refl _⟩
  | some paths =>
    refine rwp_bind (rwp_mono (gd_bestLsps hk env _) ?_)
    rintro _ ls s' _ ⟨rfl, rfl, g, rfl⟩
    have hg := (IFrame.groups s g).pframe
    generalize ({ s with groups := g } : State) = s1 at hg
    refine rwp_bind (rwp_get ?_)
    cases ls with
    | nil =>
      simp only []
      refine rwp_bind (rwp_liftE rfl fun infos _ => ?_)
      refine rwp_bind (rwp_modify ?_)
      rw [gloss_updDmd]
      refine rwp_mono (gl_forEach (fun s x => gl_applyItem fl _ _ _) _) fun _ _ s' t' h => ?_
      exact ⟨h.1, hg.trans ((PFrame.updDetail s1 d fun _ => some infos).trans h.2.pframe)⟩
    | cons l ls =>
      simp only []
      refine rwp_bind (rwp_mono (gl_forEach (fun s x => gl_interfaces x _
        fun s i => gl_addTraffic fl _ _) (l :: ls)) ?_)
      rintro _ _ s2 _ ⟨rfl, h2⟩
      refine rwp_modify ⟨rfl, hg.trans (h2.pframe.trans ?_)⟩
      exact PFrame.updDetail s2 d fun x => some (lspDetailFl fl s2.kind x.traffic (l :: ls))

theorem gloss_resetTraffic (s : State) (o : Gl) :
    (s.gloss o).resetTraffic = s.resetTraffic.gloss o := by
  unfold State.gloss State.resetTraffic
  simp only [State.mk.injEq, true_and, and_true]
  funext k
  by_cases hk : k ∈ s.ifs
  · simp only [hk, if_true]
  · simp only [hk, if_false]

/-- demand routing on top of the floating point LSP phase follows that on top of the exact one -/
theorem gl_routeDemands (hk : Fits o s) (fl : ℚ → ℚ) (env : Env)
    (hc : (s.gloss o).consideredFl fl false 0 false = s.considered false 0 false) :
    rwp (routeDemandsFl fl env) (routeDemandsFull fl env)
      (fun _ _ s' t' => t' = s'.gloss o ∧ PFrame s s') s (s.gloss o) := by
  unfold routeDemandsFl routeDemandsFull
  refine rwp_bind (rwp_get ?_)
  simp only []
  rw [hc]
  suffices h : ∀ g, g = (s.gloss o).graphOn (s.considered false 0 false) →
      rwp (do
          forEach s.dmds (routeDemand env g (s.considered false 0 false))
          updateUtilizationFl fl env)
        (do
          forEach s.dmds (routeDemand env ((s.gloss o).graphOn (s.considered false 0 false))
            (s.considered false 0 false))
          updateUtilizationFl fl env)
        (fun _ _ s' t' => t' = s'.gloss o ∧ PFrame s s') s (s.gloss o) by
    refine h _ ?_
    unfold State.graphOn
    show _ = match s.kind with | .perf => _ | .flex => _
    cases s.kind <;> rfl
  rintro _ rfl
  refine rwp_bind (rwp_mono (rwp_loop (R := fun s' t' => t' = s'.gloss o ∧ DFrame s s') s.dmds ?_
    ⟨rfl, .refl _⟩) ?_)
  · rintro d - s1 _ ⟨rfl, h⟩
    exact rwp_mono (gd_routeDemand (hk.pframe h.pframe) env _ _ d)
      fun _ _ _ _ h' => ⟨h'.1, h.trans h'.2⟩
  · rintro _ _ s1 _ ⟨rfl, h⟩
    unfold updateUtilizationFl
    refine rwp_bind (rwp_modify ?_)
    rw [gloss_resetTraffic]
    have h1 := h.pframe.trans (IFrame.reset s1).pframe
    generalize s1.resetTraffic = s2 at h1
    refine rwp_bind (rwp_get ?_)
    refine rwp_loop (R := fun s' t' => t' = s'.gloss o ∧ PFrame s s') _ ?_ ⟨rfl, h1⟩
    rintro d - s3 _ ⟨rfl, h3⟩
    exact rwp_mono (gl_loadDemand (hk.pframe h3) fl env d)
      fun _ _ _ _ h' => ⟨h'.1, h3.trans h'.2⟩

end

end NTM
