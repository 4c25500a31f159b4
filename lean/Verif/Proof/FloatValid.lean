import Verif.Proof.FloatDmd
import Verif.Proof.HopSum
import Verif.Proof.TwistValid

/-!
# Validation after a floating point run
-/

namespace NTM

open Spec

theorem rwp_left {α β : Type} {f : Py α} {g : Py β} {Q : α → β → State → State → Prop} {s t : State}
    (h : rwp f g Q s t) {a : α} {s' : State} (hf : f s = .ok a s') :
    ∃ b t', g t = .ok b t' ∧ Q a b s' t' := by
  unfold rwp at h
  rw [hf] at h
  cases hg : g t with
  | ok b t' => rw [hg] at h; exact ⟨b, t', rfl, h⟩
  | error e t' => rw [hg] at h; exact absurd h id

/-- only circuits, circuit ids and `in_ckt` differ -/
def MFrame (s s' : State) : Prop :=
  ∃ I ck, s' = { s with ifc := I, circuits := ck } ∧
    ∀ i, I i = { s.ifc i with cktId := (I i).cktId, inCkt := (I i).inCkt }

theorem MFrame.refl (s : State) : MFrame s s := ⟨s.ifc, s.circuits, rfl, fun _ => rfl⟩

theorem MFrame.trans {s s1 s2 : State} (h1 : MFrame s s1) (h2 : MFrame s1 s2) : MFrame s s2 := by
  obtain ⟨I, D, rfl, e⟩ := h1
  obtain ⟨I', D', rfl, e'⟩ := h2
  refine ⟨I', D', rfl, fun i => ?_⟩
  rw [e' i]
  show ({ I i with cktId := _, inCkt := _ } : Ifc) = _
  rw [e i]

theorem MFrame.updIfc (s : State) (i : ℕ) (f : Ifc → Ifc)
    (hf : ∀ x, f x = { x with cktId := (f x).cktId, inCkt := (f x).inCkt }) :
    MFrame s (s.updIfc i f) := by
  refine ⟨_, s.circuits, rfl, fun k => ?_⟩
  by_cases h : k = i
  · subst h; simp only [if_true]; exact hf _
  · simp only [h, if_false]

section
variable {s s0 t : State} {o : Gl}

theorem gloss_updIfc (s : State) (o : Gl) (a : ℕ) (f : Ifc → Ifc)
    (h : ∀ (x : Ifc) r, f { x with reservedRaw := r } = { f x with reservedRaw := r }) :
    (s.gloss o).updIfc a f = (s.updIfc a f).gloss o := by
  unfold State.gloss State.updIfc
  simp only [State.mk.injEq, true_and, and_true]
  funext k
  by_cases hk : k = a
  · subst hk; simp only [if_true]; exact h _ _
  · simp only [hk, if_false]

theorem gv_pairPerf (es : List ℕ) (k : ℤ) (acc : List (ℕ × ℕ)) :
    rwp (pairPerf es k acc) (pairPerf es k acc)
      (fun a b s' t' => b = a ∧ t' = s'.gloss o ∧ MFrame s s') s (s.gloss o) := by
  induction es generalizing s k acc with
  | nil => exact rwp_pure ⟨rfl, rfl, .refl _⟩
  | cons e es ih =>
    unfold pairPerf
    refine rwp_bind (rwp_get ?_)
    show rwp (match s.ifcFromNodes (s.tail e) (s.head e), s.ifcFromNodes (s.head e) (s.tail e) with
      | some a, some b => _ | _, _ => _) (match s.ifcFromNodes (s.tail e) (s.head e),
        s.ifcFromNodes (s.head e) (s.tail e) with | some a, some b => _ | _, _ => _) _ _ _
    cases ha : s.ifcFromNodes (s.tail e) (s.head e) with
    | none => exact rwp_raise
    | some a =>
      cases hb : s.ifcFromNodes (s.head e) (s.tail e) with
      | none => exact rwp_raise
      | some b =>
        simp only []
        refine rwp_ite (fun _ => ?_) fun _ => ih _ _
        refine rwp_bind (rwp_set ?_)
        rw [gloss_updIfc _ _ _ _ fun _ _ => rfl, gloss_updIfc _ _ _ _ fun _ _ => rfl]
        refine rwp_mono (ih _ _) ?_
        rintro x y s' t' ⟨h1, h2, h3⟩
        exact ⟨h1, h2, (MFrame.updIfc _ _ _ fun _ => rfl).trans
          ((MFrame.updIfc _ _ _ fun _ => rfl).trans h3)⟩

theorem gv_pairFlex (es : List ℕ) (acc : List (ℕ × ℕ)) :
    rwp (pairFlex es acc) (pairFlex es acc)
      (fun a b s' t' => b = a ∧ t' = s'.gloss o ∧ MFrame s s') s (s.gloss o) := by
  induction es generalizing s acc with
  | nil => exact rwp_pure ⟨rfl, rfl, .refl _⟩
  | cons e es ih =>
    unfold pairFlex
    refine rwp_bind (rwp_get ?_)
    show rwp (match s.ifcsFromNodes (s.tail e) (s.head e) (s.ifc e).cktId,
        s.ifcsFromNodes (s.head e) (s.tail e) (s.ifc e).cktId
      with | some (a :: _), some (b :: _) => _ | _, _ => _)
      (match s.ifcsFromNodes (s.tail e) (s.head e) (s.ifc e).cktId,
        s.ifcsFromNodes (s.head e) (s.tail e) (s.ifc e).cktId
      with | some (a :: _), some (b :: _) => _ | _, _ => _) _ _ _
    cases ha : s.ifcsFromNodes (s.tail e) (s.head e) (s.ifc e).cktId with
    | none => exact rwp_raise
    | some la =>
      cases la with
      | nil => exact rwp_raise
      | cons a la =>
        cases hb : s.ifcsFromNodes (s.head e) (s.tail e) (s.ifc e).cktId with
        | none => exact rwp_raise
        | some lb =>
          cases lb with
          | nil => exact rwp_raise
          | cons b lb =>
            simp only []
            refine rwp_ite (fun _ => ?_) fun _ => ih _
            refine rwp_bind (rwp_set ?_)
            rw [gloss_updIfc _ _ _ _ fun _ _ => rfl, gloss_updIfc _ _ _ _ fun _ _ => rfl]
            refine rwp_mono (ih _) ?_
            rintro x y s' t' ⟨h1, h2, h3⟩
            exact ⟨h1, h2, (MFrame.updIfc _ _ _ fun _ => rfl).trans
              ((MFrame.updIfc _ _ _ fun _ => rfl).trans h3)⟩

theorem gloss_clearInCkt (s : State) (o : Gl) :
    (s.gloss o).clearInCkt = s.clearInCkt.gloss o := by
  unfold State.gloss State.clearInCkt
  simp only [State.mk.injEq, true_and, and_true]
  funext k
  by_cases hk : k ∈ s.ifs
  · simp only [hk, if_true]
  · simp only [hk, if_false]

theorem MFrame.clear (s : State) : MFrame s s.clearInCkt := by
  refine ⟨_, s.circuits, rfl, fun k => ?_⟩
  by_cases hk : k ∈ s.ifs
  · simp only [hk, if_true]
  · simp only [hk, if_false]

theorem MFrame.ckts (s : State) (c : List (ℕ × ℕ)) : MFrame s { s with circuits := c } :=
  ⟨s.ifc, c, rfl, fun _ => rfl⟩

theorem gloss_diEdges (s : State) (o : Gl) (es : List ℕ) :
    (s.gloss o).diEdges es = s.diEdges es := by
  induction es with
  | nil => rfl
  | cons e es ih => unfold State.diEdges; rw [ih]; rfl

theorem gv_makeCircuits (fl : ℚ → ℚ) (env : Env)
    (hc : (s.gloss o).consideredFl fl true 0 false = s.considered true 0 false) :
    rwp (match s.kind with | .perf => makeCircuitsPerf env | .flex => makeCircuitsFlex env)
      (makeCircuitsFl fl env)
      (fun _ _ s' t' => t' = s'.gloss o ∧ MFrame s s') s (s.gloss o) := by
  have ek : (s.gloss o).kind = s.kind := rfl
  cases hk : s.kind with
  | perf =>
    simp only []
    unfold makeCircuitsPerf makeCircuitsFl
    refine rwp_bind (rwp_get ?_)
    simp only []
    rw [hc, ek, hk, gloss_diEdges, gloss_clearInCkt]
    refine rwp_bind (rwp_set ?_)
    simp only []
    refine rwp_bind (rwp_mono (gv_pairPerf (s := s.clearInCkt) (o := o)
      ((env.ordI (s.diEdges (s.considered true 0 false))).filter fun e =>
        s.hasEdge (s.considered true 0 false) (s.head e) (s.tail e)) 1 []) ?_)
    rintro _ c s1 _ ⟨rfl, rfl, h⟩
    exact rwp_ite (fun _ => rwp_raise) fun _ =>
      rwp_modify ⟨rfl, (MFrame.clear s).trans (h.trans (.ckts _ _))⟩
  | flex =>
    simp only []
    unfold makeCircuitsFlex makeCircuitsFl
    refine rwp_bind (rwp_get ?_)
    simp only []
    rw [hc, ek, hk, gloss_clearInCkt]
    refine rwp_bind (rwp_set ?_)
    simp only []
    refine rwp_bind (rwp_mono (gv_pairFlex (s := s.clearInCkt) (o := o)
      ((env.ordI (s.considered true 0 false)).filter fun e =>
        s.hasEdge (s.considered true 0 false) (s.head e) (s.tail e)) []) ?_)
    rintro _ c s1 _ ⟨rfl, rfl, h⟩
    exact rwp_ite (fun _ => rwp_raise) fun _ =>
      rwp_modify ⟨rfl, (MFrame.clear s).trans (h.trans (.ckts _ _))⟩

/-! ### Failing the other end -/

/-- the same state but for reservations that round to the same tenths -/
def VRel (o : Gl) (s0 s t : State) : Prop :=
  (∃ r, t = s.gloss { o with raw := r } ∧ Fits { o with raw := r } s) ∧ CFrame s0 s

theorem gloss_down (s : State) (o : Gl) (a : ℕ) :
    (s.gloss o).downIfc a = (s.downIfc a).gloss { o with raw := upd o.raw a 0 } := by
  unfold State.gloss State.downIfc State.updIfc upd
  simp only [State.mk.injEq, true_and, and_true]
  funext k
  by_cases hk : k = a
  · subst hk; simp only [if_true]
  · simp only [hk, if_false]

theorem VRel.down (h : VRel o s0 s t) (a : ℕ) : VRel o s0 (s.downIfc a) (t.downIfc a) := by
  obtain ⟨⟨r, rfl, h⟩, hf⟩ := h
  refine ⟨⟨upd r a 0, gloss_down s _ a, fun i hi => ?_⟩, hf.trans (.updIfc _ _ _ fun _ => rfl)⟩
  unfold upd State.reservedBw State.downIfc State.updIfc
  by_cases hk : i = a
  · simp only [hk, if_true]
  · simp only [hk, if_false]; exact h i hi

theorem VRel.matchFailed (h : VRel o s0 s t) (c : ℕ × ℕ) :
    rwp (matchFailed c) (NTM.matchFailed c) (fun _ _ s' t' => VRel o s0 s' t') s t := by
  unfold NTM.matchFailed
  refine rwp_bind (rwp_get ?_)
  have e : ∀ i, (t.ifc i).failed = (s.ifc i).failed := by
    obtain ⟨⟨r, rfl, -⟩, -⟩ := h
    exact fun _ => rfl
  rw [e, e]
  refine rwp_ite (fun _ => ?_) fun _ => rwp_pure h
  exact ((h.down c.1).down c.2 : VRel o s0 _ _)

/-! ### The reservations validation derives from the LSPs -/

theorem gloss_lspHops (fl : ℚ → ℚ) (hp : ∀ l ∈ s.lsps, Placed s l)
    (hres : ∀ l ∈ s.lsps, o.res l = (s.lsp l).reserved.fl fl)
    (hself : ∀ l ∈ s.lsps, ∀ b, (s.lsp l).reserved = .val b → pyRound 1 (fl b) = pyRound 1 b) :
    (s.gloss o).lspHopsFl fl =
      .ok ((s.lsps.flatMap (hopsOf s)).map fun x => (x.1, fl x.2)) := by
  unfold State.lspHopsFl
  have hsays : ∀ l, ((s.gloss o).lsp l).path.saysUnrouted = (s.lsp l).path.saysUnrouted :=
    fun l => gloss_says l
  rw [foldlM_ok (g := fun l => (hopsOf s l).map fun x => (x.1, fl x.2)), List.nil_append]
  · congr 1
    show List.flatMap _ (s.lsps.filter _) = _
    have : ∀ L : List ℕ, (∀ l ∈ L, Placed s l) →
        (L.filter fun l => !((s.gloss o).lsp l).path.saysUnrouted).flatMap
          (fun l => (hopsOf s l).map fun x => (x.1, fl x.2)) =
          (L.flatMap (hopsOf s)).map fun x => (x.1, fl x.2) := by
      intro L hL
      induction L with
      | nil => rfl
      | cons l L ih =>
        have ih := ih fun m hm => hL m (by simp [hm])
        rw [List.filter_cons, List.flatMap_cons, hsays, List.map_append]
        rcases hL l (by simp) with ⟨h1, h2⟩ | ⟨p, c, h, b, h1, -, -, -, -⟩
        · rw [if_neg (by rw [h1]; decide), ih]
          have : hopsOf s l = [] := by unfold hopsOf; rw [h1]
          rw [this, List.map_nil, List.nil_append]
        · rw [if_pos (by rw [h1]; rfl), List.flatMap_cons, ih]
    exact this _ hp
  · intro acc l hl
    obtain ⟨hl, hr⟩ := List.mem_filter.1 hl
    have hl : l ∈ s.lsps := hl
    rw [hsays] at hr
    have e1 : ((s.gloss o).lsp l).path = (s.lsp l).path.withHd (o.hd l) := rfl
    have e2 : ((s.gloss o).lsp l).reserved = o.res l := rfl
    rcases hp l hl with ⟨h1, h2⟩ | ⟨p, c, h, b, h1, h2, h3, h4, h5⟩
    · rw [h1] at hr; exact absurd hr (by decide)
    · unfold hopsOf
      rw [e1, e2, hres l hl, h1, h2]
      cases p with
      | nil => exact absurd rfl h3
      | cons i p =>
        simp only [LspPath.withHd, Bw.fl]
        rw [if_pos, hself l hl b h2]
        · rw [List.map_map]
          rfl
        · rw [List.all_eq_true]
          intro j hj
          rw [List.any_eq_true]
          exact ⟨j, h5 j hj, by simp⟩

/-- what the LSPs of `L` contribute to the reservation of `i` -/
def shares (t : State) (i : ℕ) (L : List ℕ) : List ℚ :=
  ((L.flatMap (hopsOf t)).filter fun x => t.ifcKey x.1 = t.ifcKey i).map Prod.snd

theorem shares_cons (t : State) (i l : ℕ) (L : List ℕ) :
    shares t i (l :: L) = shares t i [l] ++ shares t i L := by
  unfold shares
  simp [List.flatMap_cons, List.filter_append]

theorem shares_one {t : State} (hu : UniqueIfcKeys t) {i l : ℕ} (hi : i ∈ t.ifs) (hp : Placed t l) :
    (shares t i [l]).length ≤ 1 := by
  unfold shares
  rw [List.length_map]
  rcases hp with ⟨h1, h2⟩ | ⟨p, c, h, b, h1, h2, h3, h4, h5⟩
  · have : hopsOf t l = [] := by unfold hopsOf; rw [h1]
    simp [this]
  · have e : hopsOf t l = p.map fun j => (j, pyRound 1 b) := by unfold hopsOf; rw [h1, h2]
    simp only [List.flatMap_cons, List.flatMap_nil, List.append_nil, e]
    rw [List.filter_map, List.length_map]
    have hf := h4.filter ((fun x : ℕ × ℚ => decide (t.ifcKey x.1 = t.ifcKey i)) ∘
      fun j => (j, pyRound 1 b))
    have hm : ∀ j ∈ p.filter ((fun x : ℕ × ℚ => decide (t.ifcKey x.1 = t.ifcKey i)) ∘
        fun j => (j, pyRound 1 b)), j = i := by
      intro j hj
      obtain ⟨h6, h7⟩ := List.mem_filter.1 hj
      exact hu j (h5 j h6) i hi (by simpa using h7)
    revert hf hm
    generalize p.filter _ = q
    intro hf hm
    match q with
    | [] => simp
    | [x] => simp
    | x :: y :: q =>
      have h6 := hm x (by simp)
      have h7 := hm y (by simp)
      subst h6; subst h7
      simp at hf

theorem shares_length {t : State} (hu : UniqueIfcKeys t) {i : ℕ} (hi : i ∈ t.ifs) (L : List ℕ)
    (hp : ∀ l ∈ L, Placed t l) : (shares t i L).length ≤ L.length := by
  induction L with
  | nil => exact le_refl _
  | cons l L ih =>
    rw [shares_cons, List.length_append, List.length_cons]
    have h1 := shares_one hu hi (hp l (by simp))
    have h2 := ih fun m hm => hp m (by simp [hm])
    omega

theorem shares_mem {t : State} {i : ℕ} {L : List ℕ} {q : ℚ} (h : q ∈ shares t i L) :
    ∃ l ∈ L, ∃ b, (t.lsp l).reserved = .val b ∧ q = pyRound 1 b := by
  unfold shares at h
  obtain ⟨x, hx, rfl⟩ := List.mem_map.1 h
  obtain ⟨hx, -⟩ := List.mem_filter.1 hx
  obtain ⟨l, hl, hx⟩ := List.mem_flatMap.1 hx
  refine ⟨l, hl, ?_⟩
  unfold hopsOf at hx
  split at hx
  · next h1 h2 =>
    obtain ⟨j, -, rfl⟩ := List.mem_map.1 hx
    exact ⟨_, h2, rfl⟩
  · cases hx

/-- what validation needs the arithmetic to get right -/
structure Sums (fl : ℚ → ℚ) (n : ℕ) (K₀ : ℚ) : Prop where
  dec : ∀ T, Decimal 1 T → |T| ≤ K₀ → pyRound 1 (fl T) = T
  info : ∀ qs : List ℚ, (∀ q ∈ qs, Decimal 1 q ∧ 0 ≤ q) → qs.length ≤ n → qs.sum ≤ K₀ →
    pyRound 1 ((qs.map fl).foldl (fun acc q => fl (acc + q)) 0) = qs.sum

theorem gloss_resSum {fl : ℚ → ℚ} {K₀ : ℚ} (hS : Sums fl s.lsps.length K₀)
    (hu : UniqueIfcKeys s) (hp : ∀ l ∈ s.lsps, Placed s l)
    (hnn : ∀ l ∈ s.lsps, ∀ b, (s.lsp l).reserved = .val b → 0 ≤ b) {i : ℕ} (hi : i ∈ s.ifs)
    (hfit : Fits o s) (hw : Within K₀ s)
    (hok : s.resSumError (s.lsps.flatMap (hopsOf s)) i = false) :
    (s.gloss o).resSumErrorFl fl ((s.lsps.flatMap (hopsOf s)).map fun x => (x.1, fl x.2)) i =
      false := by
  unfold State.resSumError at hok
  unfold State.resSumErrorFl
  simp only [ne_eq, decide_not, Bool.not_eq_false', decide_eq_true_eq] at hok ⊢
  have hd := reservedBw_decimal s i
  have hsum : s.infoReserved (s.lsps.flatMap (hopsOf s)) i = (shares s i s.lsps).sum := rfl
  have hmem : ∀ q ∈ shares s i s.lsps, Decimal 1 q ∧ 0 ≤ q := by
    intro q hq
    obtain ⟨l, hl, b, hb, rfl⟩ := shares_mem hq
    exact ⟨pyRound_decimal _ _, pyRound_nonneg 1 (hnn l hl b hb)⟩
  have hds : Decimal 1 (shares s i s.lsps).sum := by
    have : ∀ L : List ℚ, (∀ q ∈ L, Decimal 1 q) → Decimal 1 L.sum := by
      intro L hL
      induction L with
      | nil => exact ⟨0, by simp⟩
      | cons q L ih =>
        rw [List.sum_cons]
        exact (hL q (by simp)).add (ih fun x hx => hL x (by simp [hx]))
    exact this _ fun q hq => (hmem q hq).1
  rw [hsum, pyRound_of_decimal hd, pyRound_of_decimal hds] at hok
  have e1 : (s.gloss o).reservedFl fl i = fl (s.reservedBw i) := gloss_reservedFl (hfit i hi)
  rw [e1, hS.dec _ hd (hw i hi)]
  have e2 : (s.gloss o).infoReservedFl fl
      ((s.lsps.flatMap (hopsOf s)).map fun x => (x.1, fl x.2)) i =
      ((shares s i s.lsps).map fl).foldl (fun acc q => fl (acc + q)) 0 := by
    unfold State.infoReservedFl shares
    rw [List.filter_map, List.map_map, List.map_map]
    rfl
  rw [e2, hS.info _ hmem (shares_length hu hi _ hp)
    (by rw [← hok]; exact (le_abs_self _).trans (hw i hi)), hok]

/-- **validation of the floating point run succeeds when that of the exact run does** -/
theorem validate_gloss {fl : ℚ → ℚ} {env : Env} {K₀ : ℚ} {s' : State}
    (hmono : Monotone fl) (hS : Sums fl s.lsps.length K₀)
    (hu : UniqueIfcKeys s) (hp : ∀ l ∈ s.lsps, Placed s l)
    (hnn : ∀ l ∈ s.lsps, ∀ b, (s.lsp l).reserved = .val b → 0 ≤ b)
    (hres : ∀ l ∈ s.lsps, o.res l = (s.lsp l).reserved.fl fl)
    (hself : ∀ l ∈ s.lsps, ∀ b, (s.lsp l).reserved = .val b → pyRound 1 (fl b) = pyRound 1 b)
    (hfit : Fits o s) (hw : Within K₀ s)
    (hc : (s.gloss o).consideredFl fl true 0 false = s.considered true 0 false)
    (h : validate env s = .ok () s') :
    ∃ t', validateFl fl env (s.gloss o) = .ok () t' ∧ VRel o s s' t' := by
  rw [validate_eq] at h
  obtain ⟨_, s1, h1, h⟩ := py_bind_inv h
  obtain ⟨_, _, g1, rfl, hm⟩ := rwp_left (gv_makeCircuits fl env hc) h1
  unfold validateFl
  rw [py_bind_ok g1]
  unfold validateTail at h
  rw [py_bind_ok (show (get : Py State) _ = .ok _ _ from rfl)] at h ⊢
  obtain ⟨I, ck, e1, hI⟩ := hm
  have hlsp : s1.lsp = s.lsp := by rw [e1]
  have hlsps : s1.lsps = s.lsps := by rw [e1]
  have hifs : s1.ifs = s.ifs := by rw [e1]
  have hraw : ∀ i, (s1.ifc i).reservedRaw = (s.ifc i).reservedRaw := by
    intro i; rw [e1]; show (I i).reservedRaw = _; rw [hI i]
  have hp1 : ∀ l ∈ s1.lsps, Placed s1 l := by
    intro l hl; rw [hlsps] at hl
    have := hp l hl
    unfold Placed at this ⊢
    rwa [hlsp, hifs]
  have hu1 : UniqueIfcKeys s1 := by
    intro a ha b hb e
    rw [hifs] at ha hb
    refine hu a ha b hb ?_
    have hk : ∀ i, s1.ifcKey i = s.ifcKey i := by
      intro i; rw [e1]; unfold State.ifcKey State.tail
      show ((I i).name, (s.node (I i).node).name) = _
      rw [hI i]
    rwa [hk, hk] at e
  have hfit1 : Fits o s1 := by
    intro i hi
    unfold State.reservedBw
    rw [hraw i]
    exact hfit i (hifs ▸ hi)
  have hw1 : Within K₀ s1 := by
    intro i hi
    unfold State.reservedBw
    rw [hraw i]
    exact hw i (hifs ▸ hi)
  rw [py_bind_ok (show (liftE s1.lspHops : Py _) s1 = .ok _ s1 by rw [lspHops_ok hp1]; rfl)] at h
  rw [py_bind_ok (show (liftE ((s1.gloss o).lspHopsFl fl) : Py _) (s1.gloss o) = .ok _ (s1.gloss o) by
    rw [gloss_lspHops (s := s1) fl hp1 (by rw [hlsp, hlsps]; exact hres)
      (by rw [hlsp, hlsps]; exact hself)]; rfl)]
  simp only [] at h ⊢
  obtain ⟨_, s2, h2, h⟩ := py_bind_inv h
  have h0 : VRel o s1 s1 (s1.gloss o) := ⟨⟨o.raw, rfl, hfit1⟩, .refl _⟩
  obtain ⟨_, t2, g2, hV⟩ := rwp_left (rwp_loop (R := VRel o s1) s1.circuits
    (fun c _ u v huv => huv.matchFailed c) h0) h2
  have g2' : forEach (s1.gloss o).circuits matchFailed (s1.gloss o) = .ok () t2 := g2
  rw [py_bind_ok g2']
  rw [py_bind_ok (show (get : Py State) _ = .ok _ _ from rfl)] at h ⊢
  obtain ⟨⟨r, rfl, hfr⟩, hCF⟩ := hV
  have hA : ∀ (c : Prop) [Decidable c] (e : VErr), ((if c then [e] else []) = [] ↔ ¬ c) := by
    intro c _ e; by_cases hc : c <;> simp [hc]
  have hkk : s1.kind = s.kind := by rw [e1]
  have hCM : CFrame s s1 := ⟨I, ck, e1, fun i => by rw [hI i]⟩
  by_cases hE : (((((((if s1.ifs.any s1.resTooHigh then [VErr.resTooHigh] else []) ++
      if s1.ifs.any (s1.resSumError (s1.lsps.flatMap (hopsOf s1))) then [VErr.resSum] else []) ++
      if State.dupNameReportTruthy s1.dupNameReport then [] else [VErr.dupIfcName]) ++
      if s.kind = .perf ∧ s1.nodes.any (fun n => (s1.node n).shortcuts) then
        [VErr.shortcutNodes] else []) ++
      if s2.circuits.any (fun c => decide ((s2.ifc c.1).capacity ≠ (s2.ifc c.2).capacity))
        then [VErr.capacityMismatch] else []) ++
      if s.kind = .perf ∧ s2.multipleLinks ≠ [] then [VErr.multipleLinks] else []) ++
      if s2.nodes.length ≠ s2.nodeNames.dedup.length then [VErr.dupNodes] else []) = []
  · rw [if_neg (by simpa using hE)] at h
    cases h
    refine ⟨_, ?_, ⟨r, rfl, hfr⟩, hCM.trans hCF⟩
    rw [if_neg]
    · rfl
    · rw [not_not]
      simp only [dupNameReport_truthy, if_true, List.append_nil, List.append_eq_nil_iff, hA] at hE ⊢
      obtain ⟨⟨⟨⟨⟨a1, a2⟩, a4⟩, a5⟩, a6⟩, a7⟩ := hE
      refine ⟨⟨⟨⟨⟨?_, ?_⟩, ?_⟩, ?_⟩, ?_⟩, a7⟩
      · intro hx
        apply a1
        rw [List.any_eq_true] at hx ⊢
        obtain ⟨i, hi, hx⟩ := hx
        refine ⟨i, hi, ?_⟩
        unfold State.resTooHighFl at hx
        rw [gloss_reservedFl (hfit1 i hi)] at hx
        unfold State.resTooHigh
        rw [decide_eq_true_eq] at hx ⊢
        exact lt_of_not_ge fun hge => absurd hx (not_lt.2 (hmono hge))
      · intro hx
        apply a2
        rw [List.any_eq_true] at hx ⊢
        obtain ⟨i, hi, hx⟩ := hx
        refine ⟨i, hi, ?_⟩
        by_contra hne
        rw [Bool.not_eq_true] at hne
        have := gloss_resSum (fl := fl) (by rw [hlsps]; exact hS) hu1 hp1
          (by rw [hlsp, hlsps]; exact hnn) hi hfit1 hw1 hne
        rw [this] at hx
        cases hx
      · rw [← hkk] at a4; exact a4
      · intro hx
        apply a5
        rw [List.any_eq_true] at hx ⊢
        obtain ⟨c, hcm, hx⟩ := hx
        refine ⟨c, hcm, ?_⟩
        rw [decide_eq_true_eq] at hx ⊢
        intro he
        exact hx (congrArg fl he)
      · rw [← hkk] at a6; exact a6
  · rw [if_pos (by simpa using hE)] at h
    cases h

end

end NTM
