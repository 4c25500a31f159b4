import Verif.Proof.TwistRoute

/-!
# Loading demands in states that agree but for an overlay
-/

namespace NTM

open Spec

/-- only demand paths, path details, interface traffic and the cached groups differ -/
def PFrame (s s' : State) : Prop :=
  ∃ I D g, s' = { s with ifc := I, dmd := D, groups := g } ∧
    (∀ i, I i = { s.ifc i with traffic := (I i).traffic }) ∧
    ∀ d, D d = { s.dmd d with path := (D d).path, detail := (D d).detail }

theorem PFrame.refl (s : State) : PFrame s s :=
  ⟨s.ifc, s.dmd, s.groups, rfl, fun _ => rfl, fun _ => rfl⟩

theorem PFrame.trans {s s1 s2 : State} (h1 : PFrame s s1) (h2 : PFrame s1 s2) : PFrame s s2 := by
  obtain ⟨I, D, g, rfl, e, f⟩ := h1
  obtain ⟨I', D', g', rfl, e', f'⟩ := h2
  refine ⟨I', D', g', rfl, fun i => ?_, fun d => ?_⟩
  · rw [e' i]
    show ({ I i with traffic := _ } : Ifc) = _
    rw [e i]
  · rw [f' d]
    show ({ D d with path := _, detail := _ } : Dmd) = _
    rw [f d]

theorem DFrame.pframe {s s' : State} (h : DFrame s s') : PFrame s s' := by
  obtain ⟨D, g, rfl, e⟩ := h
  refine ⟨s.ifc, D, g, rfl, fun _ => rfl, fun d => ?_⟩
  rw [e d]

theorem PFrame.kind {s s' : State} (h : PFrame s s') : s'.kind = s.kind := by
  obtain ⟨I, D, g, rfl, -⟩ := h; rfl

theorem PFrame.lsp {s s' : State} (h : PFrame s s') : s'.lsp = s.lsp := by
  obtain ⟨I, D, g, rfl, -⟩ := h; rfl

theorem PFrame.lsps {s s' : State} (h : PFrame s s') : s'.lsps = s.lsps := by
  obtain ⟨I, D, g, rfl, -⟩ := h; rfl

theorem PFrame.ifs {s s' : State} (h : PFrame s s') : s'.ifs = s.ifs := by
  obtain ⟨I, D, g, rfl, -⟩ := h; rfl

theorem PFrame.dmds {s s' : State} (h : PFrame s s') : s'.dmds = s.dmds := by
  obtain ⟨I, D, g, rfl, -⟩ := h; rfl

theorem PFrame.ckt {s s' : State} (h : PFrame s s') (i : ℕ) :
    (s'.ifc i).cktId = (s.ifc i).cktId ∧ (s'.ifc i).inCkt = (s.ifc i).inCkt := by
  obtain ⟨I, D, g, rfl, e, -⟩ := h
  show (I i).cktId = _ ∧ (I i).inCkt = _
  rw [e i]
  exact ⟨rfl, rfl⟩

/-- the demands are untouched -/
def IFrame (s s' : State) : Prop :=
  ∃ I g, s' = { s with ifc := I, groups := g } ∧
    ∀ i, I i = { s.ifc i with traffic := (I i).traffic }

theorem IFrame.refl (s : State) : IFrame s s := ⟨s.ifc, s.groups, rfl, fun _ => rfl⟩

theorem IFrame.trans {s s1 s2 : State} (h1 : IFrame s s1) (h2 : IFrame s1 s2) : IFrame s s2 := by
  obtain ⟨I, g, rfl, e⟩ := h1
  obtain ⟨I', g', rfl, e'⟩ := h2
  refine ⟨I', g', rfl, fun i => ?_⟩
  rw [e' i]
  show ({ I i with traffic := _ } : Ifc) = _
  rw [e i]

theorem IFrame.pframe {s s' : State} (h : IFrame s s') : PFrame s s' := by
  obtain ⟨I, g, rfl, e⟩ := h
  exact ⟨I, s.dmd, g, rfl, e, fun _ => rfl⟩

theorem IFrame.dmd {s s' : State} (h : IFrame s s') : s'.dmd = s.dmd := by
  obtain ⟨I, g, rfl, -⟩ := h; rfl

theorem IFrame.groups (s : State) (g : List (String × List ℕ)) :
    IFrame s ({ s with groups := g } : State) := ⟨s.ifc, g, rfl, fun _ => rfl⟩

section
variable {s : State} {o : Ov}

theorem twist_setTraffic (s : State) (o : Ov) (i : ℕ) (v : Traffic) :
    (s.twist o).updIfc i (fun x => { x with traffic := v }) =
      (s.updIfc i fun x => { x with traffic := v }).twist o := by
  unfold State.twist State.updIfc
  simp only [State.mk.injEq, true_and, and_true]
  funext k
  by_cases hk : k = i
  · subst hk; simp only [if_true]
  · simp only [hk, if_false]

theorem rt_addTraffic (i : ℕ) (q : ℚ) :
    rwp (addTraffic i q) (addTraffic i q) (fun _ _ s' t' => t' = s'.twist o ∧ IFrame s s')
      s (s.twist o) := by
  unfold rwp addTraffic
  have e : ((s.twist o).ifc i).traffic = (s.ifc i).traffic := rfl
  cases h : (s.ifc i).traffic with
  | down => simp only [e, h]
  | val t =>
    simp only [e, h]
    refine ⟨twist_setTraffic _ _ _ _, _, s.groups, rfl, fun k => ?_⟩
    by_cases hk : k = i
    · subst hk; simp only [if_true]
    · simp only [hk, if_false]

theorem rt_forEach {α : Type} {f : α → Py Unit}
    (hf : ∀ (s : State) x, rwp (f x) (f x) (fun _ _ s' t' => t' = s'.twist o ∧ IFrame s s')
      s (s.twist o)) (xs : List α) :
    rwp (forEach xs f) (forEach xs f) (fun _ _ s' t' => t' = s'.twist o ∧ IFrame s s')
      s (s.twist o) := by
  refine rwp_loop (R := fun s' t' => t' = s'.twist o ∧ IFrame s s') xs ?_ ⟨rfl, .refl _⟩
  rintro x - s1 _ ⟨rfl, h⟩
  exact rwp_mono (hf s1 x) fun _ _ _ _ h' => ⟨h'.1, h.trans h'.2⟩

theorem rt_interfaces (l : ℕ) (f : ℕ → Py Unit)
    (hf : ∀ (s : State) x, rwp (f x) (f x) (fun _ _ s' t' => t' = s'.twist o ∧ IFrame s s')
      s (s.twist o)) :
    rwp (do
        let s ← get
        let ifs ← liftE (s.lsp l).path.interfaces
        forEach ifs f)
      (do
        let s ← get
        let ifs ← liftE (s.lsp l).path.interfaces
        forEach ifs f)
      (fun _ _ s' t' => t' = s'.twist o ∧ IFrame s s') s (s.twist o) := by
  refine rwp_bind (rwp_get ?_)
  refine rwp_bind (rwp_liftE rfl fun is _ => ?_)
  exact rt_forEach hf is

theorem rt_applyItem (k : Kind) (infos : List PathInfo) (x : Item) :
    rwp (applyItem k infos x) (applyItem k infos x)
      (fun _ _ s' t' => t' = s'.twist o ∧ IFrame s s') s (s.twist o) := by
  cases k <;> cases x
  · exact rt_addTraffic _ _
  · exact rwp_raise
  · refine rt_forEach (fun s p => ?_) infos
    exact rwp_ite (fun _ => rt_addTraffic _ _) fun _ => rwp_pure ⟨rfl, .refl _⟩
  · exact rt_interfaces _ _ fun s i => rt_addTraffic _ _

/-- the path details agree on `d`, and nothing changed for the other demands -/
def Detailed (o : Ov) (s : State) (d : ℕ) (s' t' : State) : Prop :=
  ∃ v, t' = s'.twist { o with det := upd o.det d v } ∧ (s'.dmd d).detail = v ∧
    PFrame s s' ∧ (∀ e, (s'.dmd e).path = (s.dmd e).path) ∧
    ∀ e, e ≠ d → (s'.dmd e).detail = (s.dmd e).detail

theorem twist_detail (s : State) (o : Ov) (d : ℕ) (v : Option (List PathInfo)) :
    (s.twist o).updDmd d (fun x => { x with detail := v }) =
      (s.updDmd d fun x => { x with detail := v }).twist { o with det := upd o.det d v } := by
  unfold State.twist State.updDmd upd
  simp only [State.mk.injEq, true_and, and_true]
  funext k
  by_cases hk : k = d
  · subst hk; simp only [if_true]
  · simp only [hk, if_false]

theorem detailed_mk {s0 s : State} (h : IFrame s0 s) (o : Ov) (d : ℕ)
    (v : Option (List PathInfo)) :
    Detailed o s0 d (s.updDmd d fun x => { x with detail := v })
      ((s.updDmd d fun x => { x with detail := v }).twist { o with det := upd o.det d v }) := by
  refine ⟨v, rfl, ?_, h.pframe.trans ⟨s.ifc, _, s.groups, rfl, fun _ => rfl, fun k => ?_⟩,
    fun e => ?_, fun e he => ?_⟩
  · simp [State.updDmd]
  · by_cases hk : k = d
    · subst hk; simp only [if_true]
    · simp only [hk, if_false]
  · rw [← h.dmd]
    unfold State.updDmd
    by_cases hk : e = d
    · subst hk; simp only [if_true]
    · simp only [hk, if_false]
  · rw [← h.dmd]
    simp [State.updDmd, he]

theorem Detailed.load {s0 s s' t' : State} {o : Ov} {d : ℕ}
    (h : Detailed o s0 d s (s.twist { o with det := upd o.det d v }))
    (hv : (s.dmd d).detail = v)
    (e : t' = s'.twist { o with det := upd o.det d v }) (hi : IFrame s s') :
    Detailed o s0 d s' t' := by
  obtain ⟨w, -, -, hp, h1, h2⟩ := h
  refine ⟨v, e, ?_, hp.trans hi.pframe, fun x => ?_, fun x hx => ?_⟩
  · rw [hi.dmd]; exact hv
  · rw [hi.dmd]; exact h1 x
  · rw [hi.dmd]; exact h2 x hx

theorem rt_loadDemand (hk : o.kind = s.kind) (env : Env) (d : ℕ) :
    rwp (loadDemand env d) (loadDemand env d)
      (fun _ _ s' t' => ((s.dmd d).path = none ∧ s' = s ∧ t' = s.twist o) ∨
        Detailed o s d s' t') s (s.twist o) := by
  unfold loadDemand
  refine rwp_bind (rwp_get ?_)
  show rwp (match (s.dmd d).path with | none => _ | some _ => _) (match (s.dmd d).path with
    | none => _ | some _ => _) _ _ _
  cases hp : (s.dmd d).path with
  | none => exact rwp_pure (.inl ⟨rfl, rfl, rfl⟩)
  | some paths =>
    refine rwp_mono (Q := fun _ _ s' t' => Detailed o s d s' t') ?_ fun _ _ _ _ h => .inr h
    refine rwp_bind (rwp_mono (rd_bestLsps hk env _) ?_)
    rintro _ ls s' _ ⟨rfl, rfl, g, rfl⟩
    have hg := IFrame.groups s g
    have hk' : o.kind = ({ s with groups := g } : State).kind := hk
    generalize ({ s with groups := g } : State) = s1 at hg hk'
    refine rwp_bind (rwp_get ?_)
    have ek : (s1.twist o).kind = s1.kind := hk'
    cases ls with
    | nil =>
      simp only []
      rw [ek]
      refine rwp_bind (rwp_liftE rfl fun infos _ => ?_)
      refine rwp_bind (rwp_modify ?_)
      rw [twist_detail]
      have hd := detailed_mk hg o d (some infos)
      have hv : ((s1.updDmd d fun x => { x with detail := some infos }).dmd d).detail =
        some infos := by simp [State.updDmd]
      refine rwp_mono (rt_forEach (fun s x => rt_applyItem _ _ _) _) fun _ _ s' t' h => ?_
      exact hd.load hv h.1 h.2
    | cons l ls =>
      simp only []
      refine rwp_bind (rwp_mono (rt_forEach (fun s x => rt_interfaces x _
        fun s i => rt_addTraffic _ _) (l :: ls)) ?_)
      rintro _ _ s2 _ ⟨rfl, h2⟩
      refine rwp_modify ?_
      have e2 : (s2.twist o).kind = s2.kind := by
        show o.kind = _
        rw [hk', h2.pframe.kind]
      have e3 : ∀ (f : Dmd → Option (List PathInfo)) (t : State),
          (t.updDmd d fun x => { x with detail := f x }) =
          t.updDmd d fun x => { x with detail := f (t.dmd d) } := by
        intro f t
        unfold State.updDmd
        simp only [State.mk.injEq, true_and, and_true]
        funext k
        by_cases hk : k = d
        · subst hk; simp only [if_true]
        · simp only [hk, if_false]
      rw [e3 (fun x => some (lspDetail s2.kind x.traffic (l :: ls))) s2, e2,
        e3 (fun x => some (lspDetail s2.kind x.traffic (l :: ls))) (s2.twist o), twist_detail]
      exact detailed_mk (hg.trans h2) o d _

theorem twist_resetTraffic (s : State) (o : Ov) :
    (s.twist o).resetTraffic = s.resetTraffic.twist o := by
  unfold State.twist State.resetTraffic
  simp only [State.mk.injEq, true_and, and_true]
  funext k
  by_cases hk : k ∈ s.ifs
  · simp only [hk, if_true]
  · simp only [hk, if_false]

theorem IFrame.reset (s : State) : IFrame s s.resetTraffic := by
  refine ⟨_, s.groups, rfl, fun k => ?_⟩
  by_cases hk : k ∈ s.ifs
  · simp only [hk, if_true]
  · simp only [hk, if_false]

/-- the relation after demand routing: the path details agree for every routed demand of the
model -/
def LoadedAlike (o : Ov) (s0 : State) (done : List ℕ) (s t : State) : Prop :=
  ∃ det, t = s.twist { o with det := det } ∧ PFrame s0 s ∧
    ∀ d ∈ done, (s.dmd d).path ≠ none → det d = (s.dmd d).detail

theorem rt_routeDemands (hk : o.kind = s.kind) (env : Env) :
    rwp (routeDemands env) (routeDemands env)
      (fun _ _ s' t' => LoadedAlike o s s.dmds s' t') s (s.twist o) := by
  unfold routeDemands
  refine rwp_bind (rwp_get ?_)
  have ek : (s.twist o).kind = s.kind := hk
  rw [ek]
  refine rwp_bind (rwp_mono (rwp_loop (R := fun s' t' => t' = s'.twist o ∧ DFrame s s') s.dmds ?_
    ⟨rfl, .refl _⟩) ?_)
  · rintro d - s1 _ ⟨rfl, h⟩
    have hk1 : o.kind = s1.kind := by rw [h.pframe.kind]; exact hk
    exact rwp_mono (rd_routeDemand hk1 env _ _ d) fun _ _ _ _ h' => ⟨h'.1, h.trans h'.2⟩
  · rintro _ _ s1 _ ⟨rfl, h⟩
    unfold updateUtilization
    refine rwp_bind (rwp_modify ?_)
    rw [twist_resetTraffic]
    have h1 := h.pframe.trans (IFrame.reset s1).pframe
    generalize s1.resetTraffic = s2 at h1
    refine rwp_bind (rwp_get ?_)
    have e2 : s2.dmds = s.dmds := h1.dmds
    show rwp (forEach s2.dmds _) (forEach s2.dmds _) _ _ _
    rw [e2]
    refine rwp_forEach (I := fun done s' t' => LoadedAlike o s done s' t') s.dmds [] ?_
      ⟨o.det, rfl, h1, fun d hd => by simp at hd⟩
    rintro pre d post - s3 _ ⟨det, rfl, h3, hd⟩
    have hk3 : ({ o with det := det } : Ov).kind = s3.kind := by rw [h3.kind]; exact hk
    refine rwp_mono (rt_loadDemand hk3 env d) fun _ _ s' t' h' => ?_
    rcases h' with ⟨hn, rfl, rfl⟩ | ⟨v, rfl, hv, hp, hpath, hdet⟩
    · refine ⟨det, rfl, h3, fun e he hne => ?_⟩
      rcases List.mem_append.1 he with he | he
      · exact hd e he hne
      · rw [List.mem_singleton] at he
        subst he
        exact absurd hn hne
    · refine ⟨upd det d v, rfl, h3.trans hp, fun e he hne => ?_⟩
      unfold upd
      by_cases hed : e = d
      · subst hed; rw [if_pos rfl, hv]
      · rw [if_neg hed, hdet e hed]
        rcases List.mem_append.1 he with he | he
        · exact hd e he (by rw [← hpath e]; exact hne)
        · rw [List.mem_singleton] at he
          exact absurd he hed

end

end NTM
