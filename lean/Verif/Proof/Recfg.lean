import Verif.Proof.Rerun
import Verif.Proof.Restore
import Verif.Proof.Inputs
import Verif.Spec.Carry

/-!
# What a sequence of simulations, failures and repairs leaves alone
-/

namespace NTM

open Spec

/-- `t` has the configuration of `s`, failed states of interfaces apart, and the same results on
objects outside the model -/
structure Recfg (s t : State) : Prop where
  rest : t = { s with ifc := t.ifc, dmd := t.dmd, lsp := t.lsp, circuits := t.circuits
                      groups := t.groups, rngPos := t.rngPos }
  ifc : ∀ i, t.ifc i = { s.ifc i with
    traffic := (t.ifc i).traffic, reservedRaw := (t.ifc i).reservedRaw
    cktId := (t.ifc i).cktId, inCkt := (t.ifc i).inCkt, failed := (t.ifc i).failed }
  ids : s.kind = .flex → ∀ i, (t.ifc i).cktId = (s.ifc i).cktId
  dmd : ∀ d, t.dmd d = { s.dmd d with path := (t.dmd d).path, detail := (t.dmd d).detail }
  lsp : ∀ l, t.lsp l = { s.lsp l with
    path := (t.lsp l).path, reserved := (t.lsp l).reserved, setup := (t.lsp l).setup }
  outIfc : ∀ i, i ∉ s.ifs → (t.ifc i).traffic = (s.ifc i).traffic ∧
    (t.ifc i).reservedRaw = (s.ifc i).reservedRaw
  outDmd : ∀ d, d ∉ s.dmds → (t.dmd d).path = (s.dmd d).path
  outLsp : ∀ l, l ∉ s.lsps → (t.lsp l).path = (s.lsp l).path

namespace Recfg

variable {s t u : State}

theorem ifs (h : Recfg s t) : t.ifs = s.ifs := by rw [h.rest]
theorem kind (h : Recfg s t) : t.kind = s.kind := by rw [h.rest]
theorem nodes (h : Recfg s t) : t.nodes = s.nodes := by rw [h.rest]
theorem node (h : Recfg s t) : t.node = s.node := by rw [h.rest]
theorem srlg (h : Recfg s t) : t.srlg = s.srlg := by rw [h.rest]
theorem srlgs (h : Recfg s t) : t.srlgs = s.srlgs := by rw [h.rest]
theorem dmds (h : Recfg s t) : t.dmds = s.dmds := by rw [h.rest]
theorem lsps (h : Recfg s t) : t.lsps = s.lsps := by rw [h.rest]
theorem next (h : Recfg s t) : t.next = s.next := by rw [h.rest]

theorem refl (s : State) : Recfg s s :=
  ⟨rfl, fun _ => rfl, fun _ _ => rfl, fun _ => rfl, fun _ => rfl, fun _ _ => ⟨rfl, rfl⟩,
    fun _ _ => rfl, fun _ _ => rfl⟩

theorem trans (h : Recfg s t) (g : Recfg t u) : Recfg s u where
  rest := by rw [g.rest, h.rest]
  ifc i := by
    have e1 := h.ifc i
    have e2 := g.ifc i
    rw [e1] at e2
    exact e2
  ids hk i := (g.ids (h.kind.trans hk) i).trans (h.ids hk i)
  dmd i := by
    have e1 := h.dmd i
    have e2 := g.dmd i
    rw [e1] at e2
    exact e2
  lsp i := by
    have e1 := h.lsp i
    have e2 := g.lsp i
    rw [e1] at e2
    exact e2
  outIfc i hi := by
    obtain ⟨a, b⟩ := h.outIfc i hi
    obtain ⟨c, d⟩ := g.outIfc i (by rw [h.ifs]; exact hi)
    exact ⟨c.trans a, d.trans b⟩
  outDmd i hi := (g.outDmd i (by rw [h.dmds]; exact hi)).trans (h.outDmd i hi)
  outLsp i hi := (g.outLsp i (by rw [h.lsps]; exact hi)).trans (h.outLsp i hi)

/-- with the failed states back, only results differ -/
theorem same (h : Recfg s t) (hf : ∀ i, (t.ifc i).failed = (s.ifc i).failed) :
    SameConfig s { t with rngPos := s.rngPos } where
  rest := by
    have := h.rest
    obtain ⟨k, nd, I, D, L, G, ns, is, ds, ls, gs, cs, grp, nx, rp⟩ := t
    simp only [State.mk.injEq, true_and, and_true] at this ⊢
    exact ⟨this.1, this.2.1, this.2.2.2.1, this.2.2.2.2.1, this.2.2.2.2.2.1, this.2.2.2.2.2.2.1, this.2.2.2.2.2.2.2.2⟩
  ifc i _ := by
    have := h.ifc i
    rw [hf i] at this
    exact this
  ids hk i _ := h.ids hk i
  dmd d _ := h.dmd d
  lsp l _ := h.lsp l
  outside := by
    refine ⟨fun i hi => ?_, fun d hd => ?_, fun l hl => ?_⟩
    · have := h.ifc i
      rw [hf i, (h.outIfc i hi).1, (h.outIfc i hi).2] at this
      exact this
    · have := h.dmd d
      rw [h.outDmd d hd] at this
      exact this
    · have := h.lsp l
      rw [h.outLsp l hl] at this
      exact this

theorem net (h : Recfg s t) : SameNet s t where
  kind := h.kind
  nodes := h.nodes
  ifs := h.ifs
  srlgs := h.srlgs
  next := h.next
  name n := by rw [h.node]
  ifcName i := by rw [h.ifc i]
  node i := by rw [h.ifc i]
  remote i := by rw [h.ifc i]
  flexId := h.ids
  srlgName g := by rw [h.srlg]

/-- a completed simulation -/
theorem simulation {env : Env} (ht : Tidy s) (h : updateSimulation env s = .ok () t) :
    Recfg s t := by
  obtain ⟨s1, Δ, r⟩ := sim_spec ht.dmds ht.ends ht.ckts h
  have c := r.cfg
  have hin := of_wp_ok (inputs_simulate env s) h
  refine ⟨?_, fun i => ?_, hin.cktId, c.dmd, c.lsp,
    fun i hi => ⟨r.traffic_outside ht hi, r.reserved_outside ht hi⟩,
    fun d hd => by rw [r.outDmd d hd], fun l hl => by rw [r.lsp_outside ht hl]⟩
  · obtain ⟨c1, c2, c3, c4, c5, c6, c7, c8, c9, -, -, -⟩ := c
    obtain ⟨k, nd, I, D, L, G, ns, is, ds, ls, gs, cs, grp, nx, rp⟩ := t
    simp only at c1 c2 c3 c4 c5 c6 c7 c8 c9
    subst c1 c2 c3 c4 c5 c6 c7 c8 c9
    rfl
  · have := c.ifc i
    rw [this]

theorem simulation_failed {env : Env} (ht : Tidy s) (h : updateSimulation env s = .ok () t) (i : ℕ) :
    (t.ifc i).failed = (s.ifc i).failed := by
  obtain ⟨s1, Δ, r⟩ := sim_spec ht.dmds ht.ends ht.ckts h
  rw [r.cfg.ifc i]

/-- a change of interfaces of the model that spares their configuration -/
theorem onIfcs {f : ℕ → Ifc} (hf : ∀ i, f i = { s.ifc i with
      traffic := (f i).traffic, reservedRaw := (f i).reservedRaw, cktId := (f i).cktId
      inCkt := (f i).inCkt, failed := (f i).failed })
    (hid : s.kind = .flex → ∀ i, (f i).cktId = (s.ifc i).cktId)
    (ho : ∀ i, i ∉ s.ifs → (f i).traffic = (s.ifc i).traffic ∧
      (f i).reservedRaw = (s.ifc i).reservedRaw) (C : List (ℕ × ℕ)) :
    Recfg s { s with ifc := f, circuits := C } :=
  ⟨rfl, hf, hid, fun _ => rfl, fun _ => rfl, ho, fun _ _ => rfl, fun _ _ => rfl⟩

theorem fell {F : ℕ → Bool} (hF : ∀ i, F i = true → i ∈ s.ifs) :
    Recfg s (s.fell F fun _ => false) := by
  refine ⟨rfl, fun i => ?_, fun _ i => ?_, fun _ => rfl, fun _ => rfl, fun i hi => ?_,
    fun _ _ => rfl, fun _ _ => rfl⟩
  · show (if F i then _ else _) = _
    unfold State.fell
    simp only []
    split <;> rfl
  · unfold State.fell
    simp only []
    split <;> rfl
  · have : F i = false := by
      cases h : F i
      · rfl
      · exact absurd (hF i h) hi
    unfold State.fell
    simp [this]

theorem upIfc {i : ℕ} : Recfg s (s.upIfc i) := by
  refine ⟨rfl, fun k => ?_, fun _ k => ?_, fun _ => rfl, fun _ => rfl, fun k hk => ?_,
    fun _ _ => rfl, fun _ _ => rfl⟩
  all_goals
    unfold State.upIfc State.updIfc
    simp only []
    split <;> simp

theorem setReserved {i : ℕ} (hi : i ∈ s.ifs) (v : ℚ) : Recfg s (s.setReserved i v) := by
  refine ⟨rfl, fun k => ?_, fun _ k => ?_, fun _ => rfl, fun _ => rfl, fun k hk => ?_,
    fun _ _ => rfl, fun _ _ => rfl⟩
  · unfold State.setReserved State.updIfc
    simp only []
    split <;> rfl
  · unfold State.setReserved State.updIfc
    simp only []
    split <;> rfl
  · have : k ≠ i := by rintro rfl; exact hk hi
    unfold State.setReserved State.updIfc
    simp [this]

theorem checked (h : Checked s t) : Recfg s t := by
  obtain ⟨C, B, I, F, ht, hid, hF⟩ := h
  have h1 : Recfg (s.withCkt C B I) t := by
    rw [ht]
    exact fell fun i hi => by
      obtain ⟨j, -, h, -⟩ := hF i hi
      exact h
  subst ht
  refine ⟨rfl, fun i => ?_, hid, fun _ => rfl, fun _ => rfl, fun i hi => h1.outIfc i hi,
    fun _ _ => rfl, fun _ _ => rfl⟩
  have := h1.ifc i
  exact this

theorem tidy (h : Recfg s t) (hs : Tidy s) (he : EndsAgree t) : Tidy t where
  nodes := by rw [h.nodes]; exact hs.nodes
  ifs := by rw [h.ifs]; exact hs.ifs
  dmds := by rw [h.dmds]; exact hs.dmds
  lsps := by rw [h.lsps]; exact hs.lsps
  costs := fun i hi => by rw [h.ifc i]; exact hs.costs i (h.ifs ▸ hi)
  ends := he
  ckts := fun hk i hi => by rw [h.ids (h.kind ▸ hk) i]; exact hs.ckts (h.kind ▸ hk) i (h.ifs ▸ hi)

end Recfg

end NTM
