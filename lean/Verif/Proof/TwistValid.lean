import Verif.Proof.TwistLoad

/-!
# `validate_model` on states that agree but for an overlay
-/

namespace NTM

open Spec

/-- only circuits, circuit ids, `in_ckt`, failures and reservations differ -/
def CFrame (s s' : State) : Prop :=
  ∃ I ck, s' = { s with ifc := I, circuits := ck } ∧
    ∀ i, I i = { s.ifc i with
      cktId := (I i).cktId, inCkt := (I i).inCkt, failed := (I i).failed
      reservedRaw := (I i).reservedRaw }

theorem CFrame.refl (s : State) : CFrame s s := ⟨s.ifc, s.circuits, rfl, fun _ => rfl⟩

theorem CFrame.trans {s s1 s2 : State} (h1 : CFrame s s1) (h2 : CFrame s1 s2) : CFrame s s2 := by
  obtain ⟨I, D, rfl, e⟩ := h1
  obtain ⟨I', D', rfl, e'⟩ := h2
  refine ⟨I', D', rfl, fun i => ?_⟩
  rw [e' i]
  show ({ I i with cktId := _, inCkt := _, failed := _, reservedRaw := _ } : Ifc) = _
  rw [e i]

theorem CFrame.updIfc (s : State) (i : ℕ) (f : Ifc → Ifc)
    (hf : ∀ x, f x = { x with cktId := (f x).cktId, inCkt := (f x).inCkt
                              failed := (f x).failed, reservedRaw := (f x).reservedRaw }) :
    CFrame s (s.updIfc i f) := by
  refine ⟨_, s.circuits, rfl, fun k => ?_⟩
  by_cases h : k = i
  · subst h; simp only [if_true]; exact hf _
  · simp only [h, if_false]

theorem CFrame.kind {s s' : State} (h : CFrame s s') : s'.kind = s.kind := by
  obtain ⟨I, ck, rfl, -⟩ := h; rfl

theorem CFrame.ifs {s s' : State} (h : CFrame s s') : s'.ifs = s.ifs := by
  obtain ⟨I, ck, rfl, -⟩ := h; rfl

theorem CFrame.lsps {s s' : State} (h : CFrame s s') : s'.lsps = s.lsps := by
  obtain ⟨I, ck, rfl, -⟩ := h; rfl

theorem CFrame.lsp {s s' : State} (h : CFrame s s') : s'.lsp = s.lsp := by
  obtain ⟨I, ck, rfl, -⟩ := h; rfl

theorem CFrame.dmd {s s' : State} (h : CFrame s s') : s'.dmd = s.dmd := by
  obtain ⟨I, ck, rfl, -⟩ := h; rfl

theorem CFrame.dmds {s s' : State} (h : CFrame s s') : s'.dmds = s.dmds := by
  obtain ⟨I, ck, rfl, -⟩ := h; rfl

/-- `in_ckt` agrees on the interfaces of the model, circuit ids agree where they matter -/
structure CRel (o : Ov) (s0 s t : State) : Prop where
  frame : CFrame s0 s
  tw : ∃ id inC ck, t = s.twist { o with id := id, inC := inC, ck := ck } ∧
    (∀ i ∈ s.ifs, inC i = (s.ifc i).inCkt) ∧
    ∀ i ∈ s.ifs, (s.kind = .flex ∨ (s.ifc i).inCkt = true) → id i = (s.ifc i).cktId

section
variable {s s0 t : State} {o : Ov}

theorem twist_mark (s : State) (o : Ov) (a : ℕ) (f g : Ifc → Ifc) {c : CktId} {b : Bool}
    (h : f { s.ifc a with cktId := o.id a, inCkt := o.inC a } =
      { g (s.ifc a) with cktId := c, inCkt := b }) :
    (s.twist o).updIfc a f =
      (s.updIfc a g).twist { o with id := upd o.id a c, inC := upd o.inC a b } := by
  unfold State.twist State.updIfc upd
  simp only [State.mk.injEq, true_and, and_true]
  funext k
  by_cases hk : k = a
  · subst hk; simp only [if_true]; exact h
  · simp only [hk, if_false]

theorem CRel.mark (h : CRel o s0 s t) (a : ℕ) (k : ℤ) :
    CRel o s0 (s.updIfc a fun x => { x with inCkt := true, cktId := .num k })
      (t.updIfc a fun x => { x with inCkt := true, cktId := .num k }) := by
  obtain ⟨hf, id, inC, ck, rfl, h1, h2⟩ := h
  refine ⟨hf.trans (.updIfc _ _ _ fun _ => rfl), upd id a (.num k), upd inC a true, ck,
    twist_mark _ _ _ _ _ rfl, fun i hi => ?_, fun i hi hc => ?_⟩
  · unfold upd State.updIfc
    by_cases hk : i = a
    · simp only [hk, if_true]
    · simp only [hk, if_false]; exact h1 i hi
  · unfold upd
    unfold State.updIfc at hc ⊢
    by_cases hk : i = a
    · simp only [hk, if_true]
    · simp only [hk, if_false] at hc ⊢; exact h2 i hi hc

theorem CRel.flag (h : CRel o s0 s t) (hk : s.kind = .flex) (ha : a ∈ s.ifs) :
    CRel o s0 (s.updIfc a fun x => { x with inCkt := true })
      (t.updIfc a fun x => { x with inCkt := true }) := by
  obtain ⟨hf, id, inC, ck, rfl, h1, h2⟩ := h
  refine ⟨hf.trans (.updIfc _ _ _ fun _ => rfl), upd id a (id a), upd inC a true, ck,
    twist_mark _ _ _ _ _ rfl, fun i hi => ?_, fun i hi hc => ?_⟩
  · unfold upd State.updIfc
    by_cases hk : i = a
    · simp only [hk, if_true]
    · simp only [hk, if_false]; exact h1 i hi
  · unfold upd
    unfold State.updIfc at hc ⊢
    by_cases hk : i = a
    · simp only [hk, if_true]; exact h2 a ha (.inl ‹_›)
    · simp only [hk, if_false] at hc ⊢; exact h2 i hi hc

theorem ifcFromNodes_mem {s : State} {u v : String} {a : ℕ} (h : s.ifcFromNodes u v = some a) :
    a ∈ s.ifs := List.mem_of_find?_eq_some h

theorem ifcsFromNodes_mem {s : State} {u v : String} {c : CktId} {l : List ℕ} {a : ℕ}
    (h : s.ifcsFromNodes u v c = some l) (ha : a ∈ l) : a ∈ s.ifs := by
  unfold State.ifcsFromNodes at h
  split at h
  · cases h; exact List.mem_of_mem_filter ha
  · simp only at h
    split at h
    · cases h
    · cases h; exact List.mem_of_mem_filter ha

theorem CRel.pairPerf (h : CRel o s0 s t) (es : List ℕ) (k : ℤ) (acc : List (ℕ × ℕ)) :
    rwp (pairPerf es k acc) (NTM.pairPerf es k acc)
      (fun a b s' t' => b = a ∧ CRel o s0 s' t') s t := by
  induction es generalizing s t k acc with
  | nil => exact rwp_pure ⟨rfl, h⟩
  | cons e es ih =>
    unfold NTM.pairPerf
    refine rwp_bind (rwp_get ?_)
    obtain ⟨id, inC, ck, rfl, h1, h2⟩ := h.tw
    show rwp (match s.ifcFromNodes (s.tail e) (s.head e), s.ifcFromNodes (s.head e) (s.tail e) with
      | some a, some b => _ | _, _ => _) (match s.ifcFromNodes (s.tail e) (s.head e),
        s.ifcFromNodes (s.head e) (s.tail e) with | some a, some b => _ | _, _ => _) _ _ _
    cases ha : s.ifcFromNodes (s.tail e) (s.head e) with
    | none => exact rwp_raise
    | some a =>
      cases hb : s.ifcFromNodes (s.head e) (s.tail e) with
      | none => exact rwp_raise
      | some b =>
        simp only []
        have ea : ∀ i ∈ s.ifs, ((s.twist { o with id := id, inC := inC, ck := ck }).ifc i).inCkt =
          (s.ifc i).inCkt := fun i hi => h1 i hi
        rw [ea a (ifcFromNodes_mem ha), ea b (ifcFromNodes_mem hb)]
        refine rwp_ite (fun _ => ?_) fun _ => ih h _ _
        refine rwp_bind (rwp_set ?_)
        exact ih ((h.mark a k).mark b k) _ _

theorem CRel.twist_ifcsFromNodes {id : ℕ → CktId} {inC : ℕ → Bool} {ck : List (ℕ × ℕ)}
    (h2 : ∀ i ∈ s.ifs, id i = (s.ifc i).cktId) (u v : String) (c : CktId) :
    (s.twist { o with id := id, inC := inC, ck := ck }).ifcsFromNodes u v c =
      s.ifcsFromNodes u v c := by
  have e : ((s.twist { o with id := id, inC := inC, ck := ck }).ifs.filter fun i =>
      (s.twist { o with id := id, inC := inC, ck := ck }).tail i = u &&
      (s.twist { o with id := id, inC := inC, ck := ck }).head i = v &&
      ((s.twist { o with id := id, inC := inC, ck := ck }).ifc i).cktId = c) =
      s.ifs.filter fun i => s.tail i = u && s.head i = v && (s.ifc i).cktId = c := by
    refine List.filter_congr fun i hi => ?_
    show (decide (s.tail i = u) && decide (s.head i = v) && decide (id i = c)) = _
    rw [h2 i hi]
  cases c with
  | none => rfl
  | _ => simp only [State.ifcsFromNodes, e]

theorem CRel.pairFlex (hk : s.kind = .flex) (h : CRel o s0 s t) (es : List ℕ)
    (hes : ∀ e ∈ es, e ∈ s.ifs) (acc : List (ℕ × ℕ)) :
    rwp (pairFlex es acc) (NTM.pairFlex es acc)
      (fun a b s' t' => b = a ∧ CRel o s0 s' t') s t := by
  induction es generalizing s t acc with
  | nil => exact rwp_pure ⟨rfl, h⟩
  | cons e es ih =>
    unfold NTM.pairFlex
    refine rwp_bind (rwp_get ?_)
    obtain ⟨id, inC, ck, rfl, h1, h2⟩ := h.tw
    have he : ((s.twist { o with id := id, inC := inC, ck := ck }).ifc e).cktId =
      (s.ifc e).cktId := h2 e (hes e (by simp)) (.inl hk)
    rw [he, CRel.twist_ifcsFromNodes fun i hi => h2 i hi (.inl hk),
      CRel.twist_ifcsFromNodes fun i hi => h2 i hi (.inl hk)]
    show rwp (match s.ifcsFromNodes (s.tail e) (s.head e) _, s.ifcsFromNodes (s.head e) (s.tail e) _
      with | some (a :: _), some (b :: _) => _ | _, _ => _)
      (match s.ifcsFromNodes (s.tail e) (s.head e) _, s.ifcsFromNodes (s.head e) (s.tail e) _
      with | some (a :: _), some (b :: _) => _ | _, _ => _) _ _ _
    cases ha : s.ifcsFromNodes (s.tail e) (s.head e) (s.ifc e).cktId with
    | none => exact rwp_raise
    | some la =>
      cases la with
      | nil => exact rwp_raise
      | cons a la =>
        cases hb : s.ifcsFromNodes (s.head e) (s.tail e) (s.ifc e).cktId with
        | none => exact rwp_raise
        | some lb =>
          cases lb with
          | nil => exact rwp_raise
          | cons b lb =>
            simp only []
            have hma : a ∈ s.ifs := ifcsFromNodes_mem ha (by simp)
            have hmb : b ∈ s.ifs := ifcsFromNodes_mem hb (by simp)
            have ea : ∀ i ∈ s.ifs,
              ((s.twist { o with id := id, inC := inC, ck := ck }).ifc i).inCkt =
              (s.ifc i).inCkt := fun i hi => h1 i hi
            rw [ea a hma, ea b hmb]
            refine rwp_ite (fun _ => ?_) fun _ => ih hk h (fun x hx => hes x (by simp [hx])) _
            refine rwp_bind (rwp_set ?_)
            exact ih (s := (s.updIfc a _).updIfc b _) hk ((h.flag hk hma).flag (a := b) hk hmb)
              (fun x hx => hes x (by simp [hx])) _

theorem twist_clearInCkt (s : State) (o : Ov) :
    (s.twist o).clearInCkt =
      s.clearInCkt.twist { o with inC := fun i => if i ∈ s.ifs then false else o.inC i } := by
  unfold State.twist State.clearInCkt
  simp only [State.mk.injEq, true_and, and_true]
  funext k
  by_cases hk : k ∈ s.ifs
  · simp only [hk, if_true]
  · simp only [hk, if_false]

theorem CRel.clear (s : State) (o : Ov)
    (hid : s.kind = .flex → ∀ i ∈ s.ifs, o.id i = (s.ifc i).cktId) :
    CRel o s s.clearInCkt (s.twist o).clearInCkt := by
  refine ⟨⟨_, s.circuits, rfl, fun k => ?_⟩, o.id, _, o.ck, twist_clearInCkt s o,
    fun i hi => ?_, fun i hi hc => ?_⟩
  · by_cases hk : k ∈ s.ifs
    · simp only [hk, if_true]
    · simp only [hk, if_false]
  · have hi' : i ∈ s.ifs := hi
    show (if i ∈ s.ifs then false else _) = (if i ∈ s.ifs then _ else _ : Ifc).inCkt
    rw [if_pos hi', if_pos hi']
  · have hi' : i ∈ s.ifs := hi
    rcases hc with hc | hc
    · show o.id i = (if i ∈ s.ifs then _ else _ : Ifc).cktId
      rw [if_pos hi']
      exact hid hc i hi
    · exfalso
      have : (if i ∈ s.ifs then ({ s.ifc i with inCkt := false } : Ifc) else s.ifc i).inCkt = true :=
        hc
      rw [if_pos hi'] at this
      cases this

theorem CRel.circuits (h : CRel o s0 s t) (c : List (ℕ × ℕ)) :
    CRel o s0 { s with circuits := c } { t with circuits := c } := by
  obtain ⟨hf, id, inC, ck, rfl, h1, h2⟩ := h
  exact ⟨hf.trans ⟨s.ifc, c, rfl, fun _ => rfl⟩, id, inC, c, rfl, h1, h2⟩

theorem twist_diEdges (s : State) (o : Ov) (es : List ℕ) :
    (s.twist o).diEdges es = s.diEdges es := by
  induction es with
  | nil => rfl
  | cons e es ih => unfold State.diEdges; rw [ih]; rfl

theorem CRel.makeCircuitsPerf (env : Env)
    (hid : s.kind = .flex → ∀ i ∈ s.ifs, o.id i = (s.ifc i).cktId) :
    rwp (makeCircuitsPerf env) (NTM.makeCircuitsPerf env)
      (fun _ _ s' t' => CRel o s s' t' ∧ t'.circuits = s'.circuits) s (s.twist o) := by
  unfold NTM.makeCircuitsPerf
  refine rwp_bind (rwp_get ?_)
  refine rwp_bind (rwp_set ?_)
  have e : (s.twist o).diEdges ((s.twist o).considered true 0 false) =
    s.diEdges (s.considered true 0 false) := twist_diEdges s o _
  rw [e]
  refine rwp_bind (rwp_mono ((CRel.clear s o hid).pairPerf
    ((env.ordI (s.diEdges (s.considered true 0 false))).filter fun e =>
      s.hasEdge (s.considered true 0 false) (s.head e) (s.tail e)) 1 []) ?_)
  rintro _ c s1 t1 ⟨rfl, h⟩
  exact rwp_ite (fun _ => rwp_raise) fun _ => rwp_modify ⟨h.circuits _, rfl⟩

theorem CRel.makeCircuitsFlex (env : Env) (hk : s.kind = .flex)
    (hid : s.kind = .flex → ∀ i ∈ s.ifs, o.id i = (s.ifc i).cktId) :
    rwp (makeCircuitsFlex env) (NTM.makeCircuitsFlex env)
      (fun _ _ s' t' => CRel o s s' t' ∧ t'.circuits = s'.circuits) s (s.twist o) := by
  unfold NTM.makeCircuitsFlex
  refine rwp_bind (rwp_get ?_)
  refine rwp_bind (rwp_set ?_)
  refine rwp_bind (rwp_mono (CRel.pairFlex (s := s.clearInCkt) hk (CRel.clear s o hid)
    ((env.ordI (s.considered true 0 false)).filter fun e =>
      s.hasEdge (s.considered true 0 false) (s.head e) (s.tail e)) (fun e he => ?_) []) ?_)
  · have := (env.ordI_perm _).mem_iff.1 (List.mem_of_mem_filter he)
    exact List.mem_of_mem_filter this
  rintro _ c s1 t1 ⟨rfl, h⟩
  exact rwp_ite (fun _ => rwp_raise) fun _ => rwp_modify ⟨h.circuits _, rfl⟩

theorem twist_lspHops (hres : ∀ l ∈ s.lsps, (s.lsp l).path.saysUnrouted = false →
    o.res l = (s.lsp l).reserved) : (s.twist o).lspHops = s.lspHops := by
  unfold State.lspHops
  have key : ∀ (L : List ℕ), (∀ l ∈ L, o.res l = (s.lsp l).reserved) → ∀ acc : List (ℕ × ℚ),
      (L.foldlM (init := acc) fun acc l =>
        match ((s.twist o).lsp l).path with
        | .routed ifs _ _ =>
          match ifs, ((s.twist o).lsp l).reserved with
          | [], _ => .ok acc
          | _, .val q =>
            if ifs.all fun i => (s.twist o).ifs.any fun j =>
                (s.twist o).ifcKey j = (s.twist o).ifcKey i then
              .ok (acc ++ ifs.map fun i => (i, pyRound 1 q))
            else .error .keyError
          | _, _ => .error .typeError
        | _ => .error .keyError : Except Exn (List (ℕ × ℚ))) =
      L.foldlM (init := acc) fun acc l =>
        match (s.lsp l).path with
        | .routed ifs _ _ =>
          match ifs, (s.lsp l).reserved with
          | [], _ => .ok acc
          | _, .val q =>
            if ifs.all fun i => s.ifs.any fun j => s.ifcKey j = s.ifcKey i then
              .ok (acc ++ ifs.map fun i => (i, pyRound 1 q))
            else .error .keyError
          | _, _ => .error .typeError
        | _ => .error .keyError := by
    intro L
    induction L with
    | nil => intro _ _; rfl
    | cons l L ih =>
      intro hL acc
      rw [List.foldlM_cons, List.foldlM_cons]
      have e : ((s.twist o).lsp l).reserved = (s.lsp l).reserved := hL l (by simp)
      rw [e]
      refine congrArg₂ _ rfl (funext fun a => ?_)
      exact ih (fun l hl => hL l (by simp [hl])) a
  refine key _ (fun l hl => ?_) []
  rw [List.mem_filter] at hl
  refine hres l hl.1 ?_
  have := hl.2
  revert this
  show (!(s.lsp l).path.saysUnrouted) = true → _
  simp

theorem CRel.down (h : CRel o s0 s t) (a : ℕ) : CRel o s0 (s.downIfc a) (t.downIfc a) := by
  obtain ⟨hf, id, inC, ck, rfl, h1, h2⟩ := h
  refine ⟨hf.trans (.updIfc _ _ _ fun _ => rfl), id, inC, ck, ?_, fun i hi => ?_, fun i hi hc => ?_⟩
  · unfold State.twist State.downIfc State.updIfc
    simp only [State.mk.injEq, true_and, and_true]
    funext k
    by_cases hk : k = a
    · subst hk; simp only [if_true]
    · simp only [hk, if_false]
  · unfold State.downIfc State.updIfc
    by_cases hk : i = a
    · subst hk; simp only [if_true]; exact h1 i hi
    · simp only [hk, if_false]; exact h1 i hi
  · unfold State.downIfc State.updIfc at hc ⊢
    by_cases hk : i = a
    · subst hk; simp only [if_true] at hc ⊢; exact h2 i hi hc
    · simp only [hk, if_false] at hc ⊢; exact h2 i hi hc

theorem CRel.matchFailed (h : CRel o s0 s t) (hc : t.circuits = s.circuits) (c : ℕ × ℕ) :
    rwp (matchFailed c) (NTM.matchFailed c)
      (fun _ _ s' t' => CRel o s0 s' t' ∧ t'.circuits = s'.circuits) s t := by
  unfold NTM.matchFailed
  refine rwp_bind (rwp_get ?_)
  have e : ∀ i, (t.ifc i).failed = (s.ifc i).failed := by
    obtain ⟨id, inC, ck, rfl, -⟩ := h.tw
    exact fun _ => rfl
  rw [e, e]
  refine rwp_ite (fun _ => ?_) fun _ => rwp_pure ⟨h, hc⟩
  exact (⟨(h.down c.1).down c.2, hc⟩ : CRel o s0 _ _ ∧ _)

/-- **`validate_model` in lockstep** -/
theorem validate_twist (env : Env) (hk : o.kind = s.kind)
    (hid : s.kind = .flex → ∀ i ∈ s.ifs, o.id i = (s.ifc i).cktId)
    (hres : ∀ l ∈ s.lsps, (s.lsp l).path.saysUnrouted = false → o.res l = (s.lsp l).reserved) :
    rwp (validate env) (validate env)
      (fun _ _ s' t' => CRel o s s' t' ∧ t'.circuits = s'.circuits) s (s.twist o) := by
  unfold validate
  refine rwp_bind (rwp_get ?_)
  have ek : (s.twist o).kind = s.kind := hk
  simp only [ek]
  cases hk' : s.kind with
  | perf =>
    refine rwp_bind (rwp_mono (CRel.makeCircuitsPerf env hid) ?_)
    rintro _ _ s1 t1 ⟨h, hc⟩
    refine rwp_bind (rwp_get ?_)
    have hhops : t1.lspHops = s1.lspHops := by
      obtain ⟨id, inC, ck, rfl, -⟩ := h.tw
      refine twist_lspHops (o := { o with id := id, inC := inC, ck := ck }) fun l hl hr => ?_
      rw [h.frame.lsp] at hr ⊢
      rw [h.frame.lsps] at hl
      exact hres l hl hr
    refine rwp_bind (rwp_liftE hhops fun info _ => ?_)
    rw [hc]
    refine rwp_bind (rwp_mono (rwp_loop
      (R := fun s' t' => CRel o s s' t' ∧ t'.circuits = s'.circuits) s1.circuits
      (fun c _ s' t' h => h.1.matchFailed h.2 c) ⟨h, hc⟩) ?_)
    rintro _ _ s2 t2 ⟨h2, hc2⟩
    refine rwp_bind (rwp_get ?_)
    obtain ⟨id, inC, ck, e1, -⟩ := h.tw
    obtain ⟨id2, inC2, ck2, e2, -⟩ := h2.tw
    have f1 : t1.ifs.any t1.resTooHigh = s1.ifs.any s1.resTooHigh := by rw [e1]; rfl
    have f2 : t1.ifs.any (t1.resSumError info) = s1.ifs.any (s1.resSumError info) := by rw [e1]; rfl
    have f3 : t1.dupNameReport = s1.dupNameReport := by rw [e1]; rfl
    have f4 : (t1.nodes.any fun n => (t1.node n).shortcuts) =
      s1.nodes.any fun n => (s1.node n).shortcuts := by rw [e1]; rfl
    have f5 : (t2.circuits.any fun c => decide ((t2.ifc c.1).capacity ≠ (t2.ifc c.2).capacity)) =
        s2.circuits.any fun c => decide ((s2.ifc c.1).capacity ≠ (s2.ifc c.2).capacity) := by
      rw [hc2, e2]; rfl
    have f6 : t2.multipleLinks = s2.multipleLinks := by rw [e2]; rfl
    have f7 : t2.nodes = s2.nodes := by rw [e2]; rfl
    have f8 : t2.nodeNames = s2.nodeNames := by rw [e2]; rfl
    simp only [f1, f2, f3, f4, f5, f6, f7, f8]
    exact rwp_ite (fun _ => rwp_raise) fun _ => rwp_pure ⟨h2, hc2⟩
  | flex =>
    refine rwp_bind (rwp_mono (CRel.makeCircuitsFlex env hk' hid) ?_)
    rintro _ _ s1 t1 ⟨h, hc⟩
    refine rwp_bind (rwp_get ?_)
    have hhops : t1.lspHops = s1.lspHops := by
      obtain ⟨id, inC, ck, rfl, -⟩ := h.tw
      refine twist_lspHops (o := { o with id := id, inC := inC, ck := ck }) fun l hl hr => ?_
      rw [h.frame.lsp] at hr ⊢
      rw [h.frame.lsps] at hl
      exact hres l hl hr
    refine rwp_bind (rwp_liftE hhops fun info _ => ?_)
    rw [hc]
    refine rwp_bind (rwp_mono (rwp_loop
      (R := fun s' t' => CRel o s s' t' ∧ t'.circuits = s'.circuits) s1.circuits
      (fun c _ s' t' h => h.1.matchFailed h.2 c) ⟨h, hc⟩) ?_)
    rintro _ _ s2 t2 ⟨h2, hc2⟩
    refine rwp_bind (rwp_get ?_)
    obtain ⟨id, inC, ck, e1, -⟩ := h.tw
    obtain ⟨id2, inC2, ck2, e2, -⟩ := h2.tw
    have f1 : t1.ifs.any t1.resTooHigh = s1.ifs.any s1.resTooHigh := by rw [e1]; rfl
    have f2 : t1.ifs.any (t1.resSumError info) = s1.ifs.any (s1.resSumError info) := by rw [e1]; rfl
    have f3 : t1.dupNameReport = s1.dupNameReport := by rw [e1]; rfl
    have f4 : (t1.nodes.any fun n => (t1.node n).shortcuts) =
      s1.nodes.any fun n => (s1.node n).shortcuts := by rw [e1]; rfl
    have f5 : (t2.circuits.any fun c => decide ((t2.ifc c.1).capacity ≠ (t2.ifc c.2).capacity)) =
        s2.circuits.any fun c => decide ((s2.ifc c.1).capacity ≠ (s2.ifc c.2).capacity) := by
      rw [hc2, e2]; rfl
    have f6 : t2.multipleLinks = s2.multipleLinks := by rw [e2]; rfl
    have f7 : t2.nodes = s2.nodes := by rw [e2]; rfl
    have f8 : t2.nodeNames = s2.nodeNames := by rw [e2]; rfl
    simp only [f1, f2, f3, f4, f5, f6, f7, f8]
    exact rwp_ite (fun _ => rwp_raise) fun _ => rwp_pure ⟨h2, hc2⟩

end

end NTM
