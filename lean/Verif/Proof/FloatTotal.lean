import Verif.Proof.Float
import Verif.Proof.Rel
import Verif.Proof.Circuits
import Verif.Proof.SimFrame

/-!
# The floating point run completes when the exact run does
-/

namespace NTM

open Spec

variable {fl : ℚ → ℚ}

/-- `t` is `s` with other loads and details, and the same interfaces down -/
structure Alike (s t : State) : Prop where
  load : IsLoad s t
  down : ∀ i, (t.ifc i).traffic = .down ↔ (s.ifc i).traffic = .down

theorem Alike.refl (s : State) : Alike s s := ⟨.refl s, fun _ => Iff.rfl⟩

theorem Alike.updDmd {s t : State} (h : Alike s t) (d : ℕ) (f g : Dmd → Dmd)
    (hf : ∀ x, f x = { x with detail := (f x).detail })
    (hg : ∀ x, g x = { x with detail := (g x).detail }) :
    Alike (s.updDmd d f) (t.updDmd d g) := by
  refine ⟨⟨fun e => ?_, ?_⟩, h.down⟩
  · unfold State.updDmd
    simp only []
    by_cases he : e = d
    · simp only [he, if_true]
      rw [hg, hf, h.load.dmd d]
    · simp only [he, if_false]
      exact h.load.dmd e
  · have := h.load.eq
    unfold State.updDmd
    conv_lhs => rw [this]
    rfl

theorem Alike.updIfc {s t : State} (h : Alike s t) (i : ℕ) (v w : ℚ) :
    Alike (s.updIfc i fun x => { x with traffic := .val v })
      (t.updIfc i fun x => { x with traffic := .val w }) := by
  have e : ∀ j, t.ifc j = { s.ifc j with traffic := (t.ifc j).traffic } := by
    intro j
    conv_lhs => rw [h.load.eq]
    rfl
  refine ⟨⟨h.load.dmd, ?_⟩, fun j => ?_⟩
  · conv_lhs => rw [h.load.eq]
    unfold State.updIfc State.withLoad
    simp only []
    congr 1
    funext j
    by_cases hj : j = i <;> simp [hj]
  · unfold State.updIfc
    simp only []
    by_cases hj : j = i
    · simp [hj]
    · simp only [hj, if_false]
      exact h.down j

theorem rwp_addTraffic {s t : State} (h : Alike s t) (i : ℕ) (q q' : ℚ) :
    rwp (addTraffic i q) (addTrafficFl fl i q') (fun _ _ s' t' => Alike s' t') s t := by
  unfold rwp addTraffic addTrafficFl
  have hd := h.down i
  cases hs : (s.ifc i).traffic with
  | down => rw [hd.2 hs]
  | val a =>
    cases ht : (t.ifc i).traffic with
    | down => rw [hd.1 ht] at hs; cases hs
    | val b => exact h.updIfc i _ _

/-- two loops over lists of the same shape -/
theorem rwp_forEach₂ {β γ : Type} {R : State → State → Prop} {S : β → γ → Prop}
    {f : β → Py Unit} {g : γ → Py Unit} {bs : List β} {cs : List γ} (hbc : List.Forall₂ S bs cs)
    (hstep : ∀ b c, S b c → ∀ s t, R s t → rwp (f b) (g c) (fun _ _ s' t' => R s' t') s t)
    {s t : State} (h : R s t) :
    rwp (forEach bs f) (forEach cs g) (fun _ _ s' t' => R s' t') s t := by
  induction hbc generalizing s t with
  | nil => exact h
  | cons hS _ ih =>
    refine rwp_bind ?_
    exact rwp_mono (hstep _ _ hS s t h) fun _ _ s' t' h' => ih h'

theorem rwp_lspGroups {env : Env} {s t : State} (h : Alike s t) :
    rwp (lspGroups env) (lspGroups env) (fun a b s' t' => a = b ∧ Alike s' t') s t := by
  have e1 : t.groups = s.groups := by rw [h.load.eq]; rfl
  have e2 : buildGroups env t.lsps t.lspSrc t.lspDst = buildGroups env s.lsps s.lspSrc s.lspDst := by
    rw [h.load.eq]; rfl
  unfold rwp lspGroups
  simp only [e1, e2]
  by_cases hg : s.groups ≠ []
  · rw [if_pos hg, if_pos hg]
    exact ⟨rfl, h⟩
  · rw [if_neg hg, if_neg hg]
    refine ⟨rfl, ⟨h.load.dmd, ?_⟩, h.down⟩
    conv_lhs => rw [h.load.eq]
    rfl

theorem rwp_bestLsps {env : Env} {s t : State} (h : Alike s t) (key : String) :
    rwp (bestLsps env key) (bestLsps env key) (fun a b s' t' => a = b ∧ Alike s' t') s t := by
  unfold bestLsps
  refine rwp_bind (rwp_mono (rwp_lspGroups h) fun g g' s t h => ?_)
  obtain ⟨rfl, h⟩ := h
  refine rwp_bind (rwp_get ?_)
  have e1 : ∀ ls, t.effMetrics ls = s.effMetrics ls := by
    intro ls; rw [h.load.eq]; exact effMetrics_withLoad _ _ _ _
  have e2 : t.lsp = s.lsp := h.load.lsp
  have e3 : ∀ m ls, t.withMetric m ls = s.withMetric m ls := by
    intro m ls
    unfold State.withMetric
    rw [h.load.eq]
    rfl
  rw [e2]
  cases dictGet g key with
  | none => exact ⟨rfl, h⟩
  | some cands =>
    simp only []
    refine rwp_bind (rwp_liftE (e1 _) fun ms _ => ?_)
    split
    · exact ⟨rfl, h⟩
    · exact rwp_raise
    · refine rwp_bind (rwp_liftE (e1 _) fun ms' _ => ?_)
      exact ⟨by rw [e3], h⟩

theorem pathInfos_shape (r r' : ℚ → ℚ) (deg : String → ℕ) (tail : Item → String) (q : ℚ)
    (ps : List (List Item)) :
    match pathInfos r deg tail q ps, pathInfos r' deg tail q ps with
    | .ok a, .ok b => List.Forall₂ (fun x y : PathInfo => x.items = y.items) a b
    | .error e, .error e' => e = e'
    | _, _ => False := by
  induction ps with
  | nil => exact .nil
  | cons p ps ih =>
    unfold pathInfos pathInfo
    cases hm : ((cumSplits deg tail 1 p).map Prod.snd).max? with
    | none => simp only [hm]
    | some m =>
      simp only [hm]
      cases h1 : pathInfos r deg tail q ps <;> cases h2 : pathInfos r' deg tail q ps <;>
        rw [h1, h2] at ih
      · exact ih
      · exact ih
      · exact ih
      · exact .cons rfl ih

theorem rwp_applyItem {s t : State} (h : Alike s t) (k : Kind) {a b : List PathInfo}
    (hab : List.Forall₂ (fun x y : PathInfo => x.items = y.items) a b) (x : Item) :
    rwp (applyItem k a x) (applyItemFl fl k b x) (fun _ _ s' t' => Alike s' t') s t := by
  unfold applyItem applyItemFl
  cases k <;> cases x
  · exact rwp_addTraffic h _ _ _
  · exact rwp_raise
  · refine rwp_forEach₂ hab (fun p p' e s t h => ?_) h
    rw [e]
    split
    · exact rwp_addTraffic h _ _ _
    · exact h
  · refine rwp_bind (rwp_get ?_)
    refine rwp_bind (rwp_liftE (by rw [h.load.lsp]) fun is _ => ?_)
    exact rwp_loop _ (fun i _ s t h => rwp_addTraffic h _ _ _) h

theorem rwp_loadDemand {env : Env} {s t : State} (h : Alike s t) (d : ℕ) :
    rwp (loadDemand env d) (loadDemandFl fl env d) (fun _ _ s' t' => Alike s' t') s t := by
  unfold loadDemand loadDemandFl
  refine rwp_bind (rwp_get ?_)
  have hp : (t.dmd d).path = (s.dmd d).path := by rw [h.load.dmd d]
  rw [hp, h.load.dmdSrc, h.load.dmdDst]
  cases (s.dmd d).path with
  | none => exact h
  | some ps =>
    simp only []
    refine rwp_bind (rwp_mono (rwp_bestLsps h _) fun ls ls' s t h => ?_)
    obtain ⟨rfl, h⟩ := h
    refine rwp_bind (rwp_get ?_)
    have hq : (t.dmd d).traffic = (s.dmd d).traffic := by rw [h.load.dmd d]
    cases ls with
    | nil =>
      simp only []
      rw [h.load.tail, h.load.kind, hq]
      refine rwp_bind (rwp_liftE' ?_)
      have hsh := pathInfos_shape (match s.kind with
          | .perf => pyRound 4
          | .flex => id)
        (match s.kind with
          | .perf => fun x => fl (pyRound 4 (fl x))
          | .flex => fl) (outDeg s.itemTail ps) s.itemTail (s.dmd d).traffic ps
      revert hsh
      generalize pathInfos _ _ _ _ _ = A
      generalize pathInfos _ _ _ _ _ = B
      cases A <;> cases B <;> intro hsh
      · exact hsh
      · exact hsh
      · exact hsh
      · refine rwp_bind (rwp_modify ?_)
        exact rwp_loop _ (fun x _ s t h => rwp_applyItem h _ hsh x)
          (h.updDmd d _ _ (fun _ => rfl) fun _ => rfl)
    | cons l0 ls =>
      simp only []
      refine rwp_bind (rwp_mono (rwp_loop _ (fun l _ s t h => ?_) h) fun _ _ s t h => ?_)
      · refine rwp_bind (rwp_get ?_)
        refine rwp_bind (rwp_liftE (by rw [h.load.lsp]) fun is _ => ?_)
        exact rwp_loop _ (fun i _ s t h => rwp_addTraffic h _ _ _) h
      · exact rwp_modify (h.updDmd d _ _ (fun _ => rfl) fun _ => rfl)

theorem rwp_routeDemands (env : Env) (s : State) :
    rwp (routeDemands env) (routeDemandsFl fl env) (fun _ _ s' t' => Alike s' t') s s := by
  unfold routeDemands routeDemandsFl
  refine rwp_bind (rwp_get ?_)
  refine rwp_bind ?_
  generalize forEach s.dmds _ = f
  unfold rwp
  cases hf : f s with
  | error e _ => rfl
  | ok _ u =>
    show rwp (updateUtilization env) (updateUtilizationFl fl env) _ u u
    unfold updateUtilization updateUtilizationFl
    refine rwp_bind (rwp_modify ?_)
    refine rwp_bind (rwp_get ?_)
    exact rwp_loop _ (fun d _ s t h => rwp_loadDemand h d) (.refl _)

/-- validation does not look at loads -/
theorem validate_blind {env env' : Env} {s s' t : State} (h : validate env s = .ok () t)
    (hset : CktIdsSet s) {D : ℕ → Dmd} {T : ℕ → Traffic} (hs : s' = s.withLoad D T) :
    ∃ v, validate env' s' = .ok () v := by
  obtain ⟨u, hw, -, hok⟩ := validate_well hset h
  have hc := hw.core.1 hok.core
  have hcore : ValidCore s' := by rw [hs]; exact ⟨hc.hops, hc.cap, hc.shortcuts, hc.links, hc.names⟩
  have hset' : CktIdsSet s' := by rw [hs]; exact hset
  have hlinks : s'.kind = .perf → SingleLinks s' := fun hk =>
    single_of_multipleLinks (hcore.links hk)
  have hm : s'.matchable = s.matchable := by rw [hs]; rfl
  have hcap : ∀ i, (s'.ifc i).capacity = (s.ifc i).capacity := by intro i; rw [hs]; rfl
  obtain ⟨v, -, hv⟩ := validate_complete env' (s := s')
    (by
      rintro ⟨i, hi, hno⟩
      rw [hm] at hi
      obtain ⟨j, hj, h1, h2⟩ := hw.rev i hi
      refine hno ⟨j, hm ▸ hj, ?_, ?_⟩
      · rw [hs]; exact h1
      · rw [hs]; exact h2)
    (by
      intro hk e he
      rw [hm] at he
      have := hw.found (by rw [hs] at hk; exact hk) e he
      rw [hs]
      exact this)
    (by
      intro u' hp
      refine ValidCore.ok (hp.core.2 hcore) ?_
      have hw' : PairedWell s' u' := { hp with single := hlinks, set := hset' }
      intro c hc
      have hmem := linked_determined (u := u) (v := u') hw (fun c hc => by
        have h2 := (hp.ends c hc).2.1
        have h3 := hw'.opposite hc
        have h1 := hw'.first hc
        rw [hm] at h1
        rw [hs] at h2 h3
        exact ⟨h1, h2, h3⟩) hc
      obtain ⟨B, I, heq⟩ := hp.eq
      obtain ⟨B', I', heq'⟩ := hw.eq
      have e1 : ∀ k, (u'.ifc k).capacity = (s'.ifc k).capacity := by intro k; rw [heq]; rfl
      have e2 : ∀ k, (u.ifc k).capacity = (s.ifc k).capacity := by intro k; rw [heq']; rfl
      rw [e1, e1, hcap, hcap]
      rcases hmem with hm | hm
      · have := hok.capacity _ hm
        rwa [e2, e2] at this
      · have := hok.capacity _ hm
        rw [e2, e2] at this
        exact this.symm)
  exact ⟨_, hv⟩

theorem Alike.symm {s t : State} (h : Alike s t) : Alike t s := by
  have e : ∀ j, t.ifc j = { s.ifc j with traffic := (t.ifc j).traffic } := by
    intro j
    conv_lhs => rw [h.load.eq]
    rfl
  refine ⟨⟨fun d => ?_, ?_⟩, fun i => (h.down i).symm⟩
  · rw [h.load.dmd d]
  · rw [h.load.eq]
    rfl

theorem SameCfg.cktIds {s t : State} (h : SameCfg s t) (hc : CktIdsSet s) : CktIdsSet t := by
  intro hk i hi
  rw [h.ifc i]
  exact hc (h.kind ▸ hk) i (h.ifs ▸ hi)

/-- the two runs up to their final validation -/
theorem runs_alike (env : Env) {s : State} (hc : CktIdsSet s) :
    (∃ s3 t3, updateSimulation env s = validate env s3 ∧
      updateSimulationFl fl env s = validate env t3 ∧ Alike s3 t3 ∧ CktIdsSet s3 ∧ CktIdsSet t3 ∧
      SameCfg s s3) ∨
    ∃ e u v, updateSimulation env s = .error e u ∧ updateSimulationFl fl env s = .error e v := by
  have key : ∀ (f g h : Py Unit) (x : State), (f >>= fun _ => g >>= fun _ => h) x =
      match f x with
      | .error e u => .error e u
      | .ok _ u => match g u with
        | .error e v => .error e v
        | .ok _ v => h v := by
    intro f g h x
    show EStateM.bind f _ x = _
    unfold EStateM.bind
    cases f x with
    | error => rfl
    | ok a u =>
      show EStateM.bind g _ u = _
      unfold EStateM.bind
      cases hg : g u <;> simp only [hg]
  have e1 : updateSimulation env s =
      (routeLsps env >>= fun _ => routeDemands env >>= fun _ => validate env) s.resetSim := rfl
  have e2 : updateSimulationFl fl env s =
      (routeLsps env >>= fun _ => routeDemandsFl fl env >>= fun _ => validate env) s.resetSim := rfl
  rw [key] at e1 e2
  have h1 : SameCfg s s.resetSim := (SameCfg.frame.refl s).resetSim
  cases hl : routeLsps env s.resetSim with
  | error e u =>
    rw [hl] at e1 e2
    exact .inr ⟨e, u, u, e1, e2⟩
  | ok _ u =>
    rw [hl] at e1 e2
    simp only [] at e1 e2
    have h2 := of_wp_ok (stays_routeLsps (s0 := s) env _ h1) hl
    have hr := rwp_routeDemands (fl := fl) env u
    unfold rwp at hr
    cases ha : routeDemands env u <;> cases hb : routeDemandsFl fl env u <;>
      simp only [ha, hb] at hr e1 e2
    next a v b w =>
      have h3 := of_wp_ok (stays_routeDemands (s0 := s) env _ h2) ha
      have hcv := h3.cktIds hc
      refine .inl ⟨v, w, e1, e2, hr, hcv, ?_, h3⟩
      have := hr.load.eq
      rw [this]
      exact hcv
    next e v e' w =>
      subst hr
      exact .inr ⟨e, v, w, e1, e2⟩

/-- one run completes if and only if the other does -/
theorem float_completes (env : Env) {s : State} (hc : CktIdsSet s) :
    (∃ s', updateSimulation env s = .ok () s') ↔ ∃ t', updateSimulationFl fl env s = .ok () t' := by
  rcases runs_alike (fl := fl) env hc with ⟨s3, t3, e1, e2, ha, c1, c2, -⟩ | ⟨e, u, v, e1, e2⟩
  · rw [e1, e2]
    constructor
    · rintro ⟨s', h⟩
      exact validate_blind h c1 ha.load.eq
    · rintro ⟨t', h⟩
      exact validate_blind h c2 ha.symm.load.eq
  · rw [e1, e2]
    constructor <;> rintro ⟨_, h⟩ <;> cases h

end NTM
