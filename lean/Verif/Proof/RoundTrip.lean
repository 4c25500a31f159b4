import Verif.Proof.Restore

/-!
# Failing and restoring a circuit
-/

namespace NTM

open Spec

theorem lspHops_none {s : State} (h : NoLspRouted s) : s.lspHops = .ok [] := by
  have : s.lsps.filter (fun l => !(s.lsp l).path.saysUnrouted) = [] := by
    rw [List.filter_eq_nil_iff]
    intro l hl
    simp [h l hl]
  unfold State.lspHops
  rw [this]
  rfl

theorem infoReserved_nil (s : State) (i : ℕ) : s.infoReserved [] i = 0 := rfl

/-- the reservations of a valid model without routed LSPs are zero -/
theorem ValidCore.reserved_zero {s : State} (hv : ValidCore s) (hl : NoLspRouted s) {i : ℕ}
    (hi : i ∈ s.ifs) : s.reservedBw i = 0 := by
  obtain ⟨info, h1, h2⟩ := hv.hops
  rw [lspHops_none hl] at h1
  cases h1
  have := h2 i hi
  rw [infoReserved_nil, pyRound_zero] at this
  unfold State.reservedBw at *
  rwa [pyRound_pyRound] at this

/-- `s` with the reservations of some interfaces cleared -/
def State.cleared (s : State) (F : ℕ → Bool) : State :=
  { s with ifc := fun k => if F k then { s.ifc k with reservedRaw := 0 } else s.ifc k }

theorem cleared_ifc {β : Type} (s : State) (F : ℕ → Bool) (p : Ifc → β)
    (h : ∀ x : Ifc, p { x with reservedRaw := 0 } = p x) (k : ℕ) :
    p ((s.cleared F).ifc k) = p (s.ifc k) := by
  unfold State.cleared
  simp only []
  split
  · exact h _
  · rfl

theorem cleared_net (s : State) (F : ℕ → Bool) : SameNet s (s.cleared F) where
  kind := rfl
  nodes := rfl
  ifs := rfl
  srlgs := rfl
  next := rfl
  name _ := rfl
  ifcName := cleared_ifc s F (·.name) fun _ => rfl
  node := cleared_ifc s F (·.node) fun _ => rfl
  remote := cleared_ifc s F (·.remote) fun _ => rfl
  flexId _ := cleared_ifc s F (·.cktId) fun _ => rfl
  srlgName _ := rfl

theorem cleared_failed (s : State) (F : ℕ → Bool) (k : ℕ) :
    ((s.cleared F).ifc k).failed = (s.ifc k).failed := cleared_ifc s F (·.failed) (fun _ => rfl) k

theorem cleared_cktId (s : State) (F : ℕ → Bool) (k : ℕ) :
    ((s.cleared F).ifc k).cktId = (s.ifc k).cktId := cleared_ifc s F (·.cktId) (fun _ => rfl) k

theorem cleared_looser (s : State) (F : ℕ → Bool) : Looser s (s.cleared F) := by
  intro k
  unfold State.cleared
  simp only []
  split
  · exact ⟨rfl, rfl, rfl, .inr rfl⟩
  · exact ⟨rfl, rfl, rfl, .inl rfl⟩

theorem cleared_core {s : State} (hv : ValidCore s) (hl : NoLspRouted s) (F : ℕ → Bool) :
    ValidCore (s.cleared F) := by
  have hn := cleared_net s F
  have hres : ∀ i ∈ s.ifs, (s.cleared F).reservedBw i = 0 := by
    intro i hi
    rcases (cleared_looser s F i).2.2.2 with h | h
    · have := hv.reserved_zero hl hi
      unfold State.reservedBw at *
      rwa [h]
    · unfold State.reservedBw
      rw [h, pyRound_zero]
  refine ⟨⟨[], lspHops_none hl, ?_⟩, ?_, hv.shortcuts, ?_, hv.names⟩
  · intro i hi
    rw [infoReserved_nil, hres i hi]
  · intro i hi
    rw [hres i hi, (cleared_looser s F i).1]
    have := hv.cap i hi
    rwa [hv.reserved_zero hl hi] at this
  · intro hk
    have := hv.links hk
    unfold State.multipleLinks at *
    simp only [hn.tail, hn.head, hn.ifs] at *
    exact this

/-- a model that validates still validates, without raising, after reservations are cleared -/
theorem validate_cleared {env env' : Env} {s t : State} (hm : MatchInv s) (he : EndsAgree s)
    (hl : NoLspRouted s) (h : validate env s = .ok () t) (F : ℕ → Bool) :
    ∃ v, validate env' (s.cleared F) = .ok () v ∧ Checked (s.cleared F) v ∧
      ∀ k, (v.ifc k).failed = (s.ifc k).failed := by
  obtain ⟨u, hu, -, hv⟩ := validate_ok h
  have hn := cleared_net s F
  have hm' : MatchInv (s.cleared F) := hm.congr hn (cleared_cktId s F)
    (cleared_ifc s F (·.srlgs) fun _ => rfl) (cleared_looser s F)
  have hw : PairedWell s u := { hu with single := hm.1.single, set := hm.1.ids }
  have hcap : ∀ i ∈ s.ifs, ∀ j ∈ s.ifs, Opposite s i j →
      (s.ifc i).capacity = (s.ifc j).capacity := by
    intro i hi j hj hij
    obtain ⟨c, hc, hend⟩ := hu.cover hm.1.single hm.1.ids i (hm.all_matchable hi)
    have hce := hu.ends c hc
    have hco := hw.opposite hc
    obtain ⟨B, I, heq⟩ := hu.eq
    have hcc : ∀ k, (u.ifc k).capacity = (s.ifc k).capacity := by intro k; rw [heq]; rfl
    have := hv.capacity c hc
    rw [hcc, hcc] at this
    rcases hend with e | e
    · rw [e] at hij ⊢
      rw [hm.1.twin_unique hj hce.2.1 hij hco]
      exact this
    · rw [e] at hij ⊢
      rw [hm.1.twin_unique hj hce.1 hij (opposite_symm hco)]
      exact this.symm
  obtain ⟨u', hp, hrun⟩ := validate_complete env' (s := s.cleared F)
    (by
      rintro ⟨i, hi, hno⟩
      have hi' := (mem_matchable.1 hi).1
      obtain ⟨j, hj, hij⟩ := hm'.1.twin i hi'
      exact hno ⟨j, hm'.all_matchable hj, hij.2.1.symm, hij.1.symm⟩)
    (by
      intro hk e he'
      have hes : e ∈ s.ifs := (mem_matchable.1 he').1
      have hf := hu.found hk e (hm.all_matchable hes)
      unfold FlexFound State.ifcsFromNodes at *
      simp only [hn.tail, hn.head, hn.ifs, cleared_cktId] at *
      exact hf)
    (by
      intro u' hp
      refine ValidCore.ok (hp.core.2 (cleared_core (hu.core.1 hv.core) hl F)) ?_
      intro c hc
      have hw' : PairedWell (s.cleared F) u' := { hp with single := hm'.1.single, set := hm'.1.ids }
      obtain ⟨B, I, heq⟩ := hp.eq
      have hcc : ∀ k, (u'.ifc k).capacity = (s.ifc k).capacity := by
        intro k
        rw [heq]
        exact cleared_ifc s F (·.capacity) (fun _ => rfl) k
      rw [hcc, hcc]
      have hce := hp.ends c hc
      exact hcap c.1 hce.1 c.2 hce.2.1 ((hn.opposite _ _).1 (hw'.opposite hc)))
  refine ⟨_, hrun, hp.checked hm'.1.ids, ?_⟩
  intro k
  rw [(hp.checked hm'.1.ids).failed (endsAgree_congr he hn fun i _ => cleared_failed s F i),
    cleared_failed]

/-- failing a circuit that is up and bringing it up again restores every failed status -/
theorem roundTrip {env env' : Env} {s t : State} (hm : MatchInv s) (he : EndsAgree s)
    (hl : NoLspRouted s) (h : validate env s = .ok () t) {i : ℕ} (hi : i ∈ s.ifs)
    (hup : (s.ifc i).failed = false)
    (h1 : (s.node (s.ifc i).node).failed = false) (h2 : (s.node (s.ifc i).remote).failed = false)
    (h3 : s.ifcHeld i = false) (e : Bool) :
    ∃ u v, failInterface (s.ifc i).name (s.tail i) s = .ok () u ∧
      unfailInterface env' (s.ifc i).name (s.tail i) e u = .ok () v ∧
      (u.ifc i).failed = true ∧ (∀ k, (v.ifc k).failed = (s.ifc k).failed) ∧
      v.node = s.node ∧ v.srlg = s.srlg ∧ v.dmd = s.dmd ∧ v.lsp = s.lsp ∧
      (∀ k ∈ s.ifs, v.reservedBw k = s.reservedBw k ∧ (v.ifc k).traffic = (s.ifc k).traffic) := by
  have hw := hm.1
  obtain ⟨r, hr, hir⟩ := hw.twin i hi
  have hupr : (s.ifc r).failed = false := by rw [← he i hi r hr hir]; exact hup
  have hfail := failInterface_eq hw hm.2.1 hi hr hir
  set u := s.fell (pairOf i r) (fun _ => false) with hudef
  have hn : SameNet s u := fell_sameNet s _ _
  have hmu : MatchInv u := hm.fell _ _
  have hiu : i ∈ u.ifs := hi
  have hru : r ∈ u.ifs := hr
  have hiru : Opposite u i r := (hn.opposite i r).2 hir
  have hrem := remote_eq hmu.2.1 hiu hru hiru
  have hget := getIfc_eq hmu.1 hiu
  rw [hn.ifcName, hn.tail] at hget
  have hnode : u.node = s.node := rfl
  have hup1 : (u.node (u.ifc i).node).failed = false := by rw [hn.node]; exact h1
  have hup2 : (u.node (u.ifc i).remote).failed = false := by rw [hn.remote]; exact h2
  have e1 : (s.ifc r).node = (s.ifc i).remote :=
    hw.node_inj (hw.ends r hr).1 (hw.ends i hi).2 hir.2.1.symm
  have e2 : (s.ifc r).remote = (s.ifc i).node :=
    hw.node_inj (hw.ends r hr).2 (hw.ends i hi).1 hir.1.symm
  have u1 : (u.node (u.ifc r).node).failed = false := by rw [hn.node, e1]; exact h2
  have u2 : (u.node (u.ifc r).remote).failed = false := by rw [hn.remote, e2]; exact h1
  have hheld : ∀ k, u.ifcHeld k = s.ifcHeld k := by
    intro k
    unfold State.ifcHeld
    rw [fell_ifcSrlgs]
    rfl
  have hh := ifcHeld_opposite hm.2.2.1 hi hr hir
  have hbr := bringUp_spec hmu.1 hru hiu (opposite_symm hiru) u1 u2
  have hbring : bringUp r i u = .ok () (s.cleared (pairOf i r)) := by
    cases hb : bringUp r i u with
    | error x w =>
      rcases of_wp_error hbr hb with ⟨k1, -⟩ | ⟨-, k2, -⟩
      · rw [hheld, ← hh, h3] at k1; cases k1
      · rw [hheld, h3] at k2; cases k2
    | ok x w =>
      obtain ⟨-, -, rfl⟩ := of_wp_ok hbr hb
      congr 1
      rw [hudef]
      unfold State.cleared State.setReserved State.upIfc State.updIfc State.fell pairOf
      simp only []
      congr 1
      funext k
      have hx : ∀ x : Ifc, x.failed = false → { x with reservedRaw := 0, failed := false } =
          { x with reservedRaw := 0 } := by
        intro x hx; cases x; simp_all
      by_cases k1 : k = i <;> by_cases k2 : k = r
      · have e : r = i := k2.symm.trans k1
        simp [k1, e, hup]
      · subst k1; simp [k2, hup]
      · subst k2; simp [k1, hupr]
      · simp [k1, k2]
  obtain ⟨v, hv, hck, hfl⟩ := validate_cleared (env' := env') hm he hl h (pairOf i r)
  refine ⟨u, v, hfail, ?_, ?_, hfl, ?_⟩
  · rw [unfailInterface_eq env' _ _ e hmu.1 hget hrem, if_pos ⟨hup1, hup2⟩, py_bind_ok hbring]
    exact hv
  · rw [hudef, fell_failed]
    simp [pairOf]
  · obtain ⟨C, B, I, G, rfl, -, hG⟩ := hck
    refine ⟨rfl, rfl, rfl, rfl, ?_⟩
    obtain ⟨w, hw', -, hv'⟩ := validate_ok h
    have hcore := hw'.core.1 hv'.core
    intro k hk
    constructor
    · rw [hcore.reserved_zero hl hk]
      unfold State.reservedBw
      have : (((s.cleared (pairOf i r)).withCkt C B I).fell G fun _ => false).ifc k =
        if G k then { ((s.cleared (pairOf i r)).withCkt C B I).ifc k with failed := true, reservedRaw := 0 }
          else ((s.cleared (pairOf i r)).withCkt C B I).ifc k := rfl
      rw [this]
      split
      · exact pyRound_zero 1
      · have hz := (cleared_core hcore hl (pairOf i r)).reserved_zero hl hk
        exact hz
    · have h0 : ((s.cleared (pairOf i r)).ifc k).traffic = (s.ifc k).traffic :=
        cleared_ifc s _ (·.traffic) (fun _ => rfl) k
      rw [← h0]
      unfold State.fell
      simp only []
      split <;> rfl

end NTM
