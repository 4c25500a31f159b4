import Verif.Proof.Failure
import Verif.Proof.Simulation

/-!
# Invariants of histories of failures and repairs
-/

namespace NTM

open Spec

/-- what one validation does: it sets circuits and ids, and fails interfaces whose opposite
direction is not in the same state -/
def Checked (s t : State) : Prop :=
  ∃ C B I F, t = (s.withCkt C B I).fell F (fun _ => false) ∧
    (s.kind = .flex → ∀ i, (t.ifc i).cktId = (s.ifc i).cktId) ∧
    ∀ i, F i = true → ∃ j ∈ s.ifs, i ∈ s.ifs ∧ Opposite s i j ∧ (s.ifc i).failed ≠ (s.ifc j).failed

theorem repair_fell (u : State) : u.repair = u.fell (fun i => u.misIn u.circuits i) (fun _ => false) := by
  unfold State.repair State.repairOver State.fell
  simp

theorem Paired.checked {s u : State} (hset : CktIdsSet s) (h : Paired s u) : Checked s u.repair := by
  obtain ⟨B, I, hu⟩ := h.eq
  refine ⟨u.circuits, B, I, fun i => u.misIn u.circuits i, ?_, ?_, ?_⟩
  · rw [repair_fell, ← hu]
  · intro hk i
    rw [repair_fell, fell_cktId]
    exact h.flexIds hk i
  · intro i hi
    obtain ⟨c, hc, hend, hne⟩ := misIn_iff.1 hi
    obtain ⟨h1, h2, h3, h4⟩ := h.ends c hc
    have hf : ∀ k, (u.ifc k).failed = (s.ifc k).failed := by intro k; rw [hu]; rfl
    rw [hf, hf] at hne
    have hopp : Opposite s c.1 c.2 := ⟨h3, h4, fun hk => by
      have := h.sameId hset c hc
      rwa [h.flexIds hk, h.flexIds hk] at this⟩
    rcases hend with rfl | rfl
    · exact ⟨c.2, h2, h1, hopp, hne⟩
    · exact ⟨c.1, h1, h2, opposite_symm hopp, hne.symm⟩

theorem Paired.checked' {s u : State} (h : Paired s u) : Checked s u := by
  obtain ⟨B, I, hu⟩ := h.eq
  exact ⟨u.circuits, B, I, fun _ => false, by rw [fell_none, ← hu], h.flexIds, by simp⟩

theorem validate_checked (env : Env) {s : State} (hset : CktIdsSet s) :
    wp (validate env) (fun _ t => Checked s t) (fun _ t => Checked s t) s := by
  refine wp_mono (validate_spec env s) ?_ ?_
  · rintro _ t ⟨u, h1, rfl, -⟩
    exact h1.checked hset
  · rintro _ t ⟨B, I, ⟨C, rfl, h2, -⟩ | ⟨u, h1, rfl | rfl, -⟩⟩
    · exact ⟨C, B, I, fun _ => false, rfl, h2, by simp⟩
    · exact h1.checked'
    · exact h1.checked hset

theorem Checked.sameNet {s t : State} (h : Checked s t) : SameNet s t := by
  obtain ⟨C, B, I, F, ht, hid, -⟩ := h
  have h1 : SameNet (s.withCkt C B I) t := ht ▸ fell_sameNet _ _ _
  exact
    { kind := h1.kind, nodes := h1.nodes, ifs := h1.ifs, srlgs := h1.srlgs, next := h1.next, name := h1.name
      ifcName := h1.ifcName, node := h1.node, remote := h1.remote, flexId := hid
      srlgName := h1.srlgName }

theorem Checked.srlg {s t : State} (h : Checked s t) : t.srlg = s.srlg ∧ t.node = s.node ∧
    t.next = s.next ∧ (∀ i, (t.ifc i).srlgs = (s.ifc i).srlgs) ∧
    (∀ i, (s.ifc i).failed = true → (t.ifc i).failed = true) := by
  obtain ⟨C, B, I, F, ht, -, -⟩ := h
  subst ht
  refine ⟨rfl, rfl, rfl, fun i => ?_, fun i hi => ?_⟩
  · rw [fell_ifcSrlgs]; rfl
  · rw [fell_failed, Bool.or_eq_true]; right; exact hi

theorem Checked.failed {s t : State} (h : Checked s t) (he : EndsAgree s) (i : ℕ) :
    (t.ifc i).failed = (s.ifc i).failed := by
  obtain ⟨C, B, I, F, ht, -, hF⟩ := h
  subst ht
  rw [fell_failed]
  cases hi : F i with
  | false => rfl
  | true =>
    obtain ⟨j, hj, hi', hopp, hne⟩ := hF i hi
    exact absurd (he i hi' j hj hopp) hne

theorem SameCfg.sameNet {s t : State} (h : SameCfg s t) : SameNet s t where
  kind := h.kind
  nodes := h.nodes
  ifs := h.ifs
  srlgs := h.srlgs
  next := h.next
  name n := by rw [h.node]
  ifcName i := by rw [h.ifc]
  node i := by rw [h.ifc]
  remote i := by rw [h.ifc]
  flexId _ i := by rw [h.ifc]
  srlgName g := by rw [h.srlg]

theorem upIfc_sameNet (s : State) (i : ℕ) (f : Ifc → Ifc)
    (hf : ∀ x, (f x).name = x.name ∧ (f x).node = x.node ∧ (f x).remote = x.remote ∧
      (f x).cktId = x.cktId) : SameNet s (s.updIfc i f) where
  kind := rfl
  nodes := rfl
  ifs := rfl
  srlgs := rfl
  next := rfl
  name _ := rfl
  ifcName n := by unfold State.updIfc; simp only []; split <;> simp [hf]
  node n := by unfold State.updIfc; simp only []; split <;> simp [hf]
  remote n := by unfold State.updIfc; simp only []; split <;> simp [hf]
  flexId _ n := by unfold State.updIfc; simp only []; split <;> simp [hf]
  srlgName _ := rfl

theorem upNode_sameNet (s : State) (n : ℕ) (f : Node → Node)
    (hf : ∀ x, (f x).name = x.name) : SameNet s (s.updNode n f) where
  kind := rfl
  nodes := rfl
  ifs := rfl
  srlgs := rfl
  next := rfl
  name m := by unfold State.updNode; simp only []; split <;> simp [hf]
  ifcName _ := rfl
  node _ := rfl
  remote _ := rfl
  flexId _ _ := rfl
  srlgName _ := rfl

theorem setSrlg_sameNet (s : State) (g : ℕ) (b : Bool) : SameNet s (s.setSrlg g b) where
  kind := rfl
  nodes := rfl
  ifs := rfl
  srlgs := rfl
  next := rfl
  name _ := rfl
  ifcName _ := rfl
  node _ := rfl
  remote _ := rfl
  flexId _ _ := rfl
  srlgName h := by unfold State.setSrlg State.updSrlg; simp only []; split <;> rfl

/-- interface `i` is brought up -/
def State.upIfc (s : State) (i : ℕ) : State := s.updIfc i fun x => { x with failed := false }

/-- node `n` is brought up -/
def State.upNode (s : State) (n : ℕ) : State := s.updNode n fun x => { x with failed := false }

theorem setIfcFailed_false (i : ℕ) (s : State) :
    setIfcFailed i false s =
      if s.ifcHeld i then
        .error (.model "Interface must be failed since it is a member of failed SRLGs")
          (s.downIfc i)
      else if (s.node (s.ifc i).node).failed = false ∧ (s.node (s.ifc i).remote).failed = false
      then .ok () (s.upIfc i) else .ok () (s.downIfc i) := rfl

theorem setNodeFailed_false (n : ℕ) (s : State) :
    setNodeFailed n false s =
      if s.nodeHeld n then
        .error (.model "Node must be failed since it is a member of failed SRLGs")
          (s.updNode n fun x => { x with failed := true })
      else .ok () (s.upNode n) := rfl

theorem setReserved_cfg (s : State) (i : ℕ) (v : ℚ) : SameCfg s (s.setReserved i v) :=
  (SameCfg.frame.refl s).updIfc i fun _ => rfl

/-- validation keeps what `Checked` keeps -/
theorem validate_stays {I : State → Prop} (env : Env) (hw : ∀ s, I s → Wired s)
    (hc : ∀ s t, I s → Checked s t → I t) : Stays I (validate env) := fun s h =>
  wp_mono (validate_checked env (hw s h).ids) (fun _ t ht => hc s t h ht)
    (fun _ t ht => hc s t h ht)

/-- an invariant of bringing interfaces up -/
structure UpInv (I : State → Prop) : Prop where
  wired : ∀ s, I s → Wired s
  zero : ∀ s i, I s → i ∈ s.ifs → I (s.setReserved i 0)
  valid : ∀ env, Stays I (NTM.validate env)
  held : ∀ s i, I s → i ∈ s.ifs → s.ifcHeld i = true → I (s.downIfc i)
  bring : ∀ s i j, I s → i ∈ s.ifs → j ∈ s.ifs → Opposite s i j →
    (s.node (s.ifc i).node).failed = false → (s.node (s.ifc i).remote).failed = false →
    s.ifcHeld i = false →
    if s.ifcHeld j then I ((s.upIfc i).downIfc j) else I ((s.upIfc i).upIfc j)

/-- an invariant of bringing interfaces and nodes up -/
structure NodeUpInv (I : State → Prop) : Prop extends UpInv I where
  nodeUp : ∀ s n, I s → n ∈ s.nodes → s.nodeHeld n = false → I (s.upNode n)
  nodeHeld : ∀ s n, I s → n ∈ s.nodes → s.nodeHeld n = true →
    I (s.updNode n fun x => { x with failed := true })

/-- an invariant of failing and repairing -/
structure FailInv (I : State → Prop) : Prop extends NodeUpInv I where
  fell : ∀ s F N, I s → TwinClosed s F → NodeClosed s F N → I (s.fell F N)
  srlgUp : ∀ s g, I s → g ∈ s.srlgs → I (s.setSrlg g false)
  srlgDown : ∀ s g, I s → g ∈ s.srlgs →
    I ((s.fell (srlgReach s g) (srlgMembers s g)).setSrlg g true)

section
variable {I : State → Prop} (hI : FailInv I)
include hI

theorem FailInv.failInterface (a b : String) : Stays I (NTM.failInterface a b) := by
  intro s h
  refine wp_mono (failInterface_spec s a b) ?_ ?_
  · rintro _ t ⟨i, hi, j, hj, -, hij, rfl⟩
    exact hI.fell s _ _ h (pairOf_closed (hI.wired s h) hi hj hij) ⟨fun _ h => by simp at h, fun _ _ h => by simp at h⟩
  · rintro _ t rfl; exact h

theorem FailInv.failNode (nm : String) : Stays I (NTM.failNode nm) := by
  intro s h
  refine wp_mono (failNode_spec (hI.wired s h) nm) ?_ ?_
  · rintro _ t ⟨n, hn, hname, rfl⟩
    refine hI.fell s _ _ h (atNode_closed s nm) ⟨fun k hk => ?_, ?_⟩
    · rw [decide_eq_true_eq] at hk
      rw [hk]; exact hn
    intro i hi hh
    simp only [decide_eq_true_eq] at hh
    unfold atNode
    simp only [Bool.and_eq_true, Bool.or_eq_true, decide_eq_true_eq]
    rcases hh with rfl | rfl
    · exact ⟨hi, .inl hname⟩
    · exact ⟨hi, .inr hname⟩
  · rintro _ t ⟨F, hF, rfl⟩
    exact hI.fell s _ _ h hF ⟨fun _ h => by simp at h, fun _ _ h => by simp at h⟩

theorem FailInv.failSrlg (nm : String) : Stays I (NTM.failSrlg nm) := by
  intro s h
  refine wp_mono (failSrlg_spec (hI.wired s h) nm) ?_ ?_
  · rintro _ t ⟨g, hg, -, rfl⟩
    exact hI.srlgDown s g h hg
  · rintro _ t ⟨F, N, hF, hN, rfl⟩
    exact hI.fell s F N h hF hN

theorem FailInv.ifcFail (i : ℕ) (s : State) (h : I s) (hi : i ∈ s.ifs) :
    wp (NTM.ifcFail i) (fun _ t => I t) (fun _ t => I t) s := by
  unfold NTM.ifcFail
  simp only [wp_bind, wp_get, wp_liftE]
  cases hj : s.remoteIfc i with
  | error e => exact h
  | ok j =>
    simp only []
    obtain ⟨h3, h4, -⟩ := remote_opposite hi hj
    rw [wp_ok (setIfcFailed_true i s), wp_ok (setIfcFailed_true j _), failPair_eq]
    exact hI.fell s _ _ h (pairOf_closed (hI.wired s h) h3 hi (opposite_symm h4))
      ⟨fun _ h => by simp at h, fun _ _ h => by simp at h⟩

theorem FailInv.ifcUnfail (i : ℕ) (s : State) (h : I s) (hi : i ∈ s.ifs) :
    wp (NTM.ifcUnfail i) (fun _ t => I t) (fun _ t => I t) s := by
  unfold NTM.ifcUnfail
  simp only [wp_bind, wp_get, wp_liftE]
  cases hj : s.remoteIfc i with
  | error e => exact h
  | ok j =>
    simp only []
    obtain ⟨h3, h4, -⟩ := remote_opposite hi hj
    refine wp_ite (fun hup => ?_) (fun _ => h)
    rw [wp_bind]
    by_cases hh : s.ifcHeld i = true
    · unfold wp
      rw [setIfcFailed_false, if_pos hh]
      exact hI.held s i h hi hh
    · have hh : s.ifcHeld i = false := by simpa using hh
      have hb := hI.bring s i j h hi h3 h4 hup.1 hup.2 hh
      unfold wp
      rw [setIfcFailed_false, if_neg (by simp [hh]), if_pos hup]
      simp only []
      rw [setIfcFailed_false]
      have hheld : (s.upIfc i).ifcHeld j = s.ifcHeld j := by
        unfold State.ifcHeld State.upIfc State.updIfc
        simp only []
        split
        · next e => subst e; rfl
        · rfl
      have hends : ((s.upIfc i).node ((s.upIfc i).ifc j).node).failed = false ∧
          ((s.upIfc i).node ((s.upIfc i).ifc j).remote).failed = false := by
        have hw := hI.wired s h
        have e1 : (s.ifc j).node = (s.ifc i).remote :=
          hw.node_inj (hw.ends j h3).1 (hw.ends i hi).2 h4.2.1.symm
        have e2 : (s.ifc j).remote = (s.ifc i).node :=
          hw.node_inj (hw.ends j h3).2 (hw.ends i hi).1 h4.1.symm
        have hsn := upIfc_sameNet s i (fun x => { x with failed := false }) (fun _ => ⟨rfl, rfl, rfl, rfl⟩)
        have hn1 := hsn.node j
        have hn2 := hsn.remote j
        change ((s.upIfc i).ifc j).node = _ at hn1
        change ((s.upIfc i).ifc j).remote = _ at hn2
        rw [hn1, hn2, e1, e2]
        exact ⟨hup.2, hup.1⟩
      rw [hheld, if_pos hends]
      by_cases hk : s.ifcHeld j = true
      · rw [if_pos hk] at hb ⊢
        exact hb
      · rw [if_neg hk] at hb ⊢
        exact hb

end

theorem upIfc_held (s : State) (i j : ℕ) : (s.upIfc i).ifcHeld j = s.ifcHeld j := by
  unfold State.ifcHeld State.upIfc State.updIfc
  simp only []
  split
  · next e => subst e; rfl
  · rfl

theorem setReserved_held (s : State) (i j : ℕ) (v : ℚ) :
    (s.setReserved i v).ifcHeld j = s.ifcHeld j := by
  unfold State.ifcHeld State.setReserved State.updIfc
  simp only []
  split
  · next e => subst e; rfl
  · rfl

theorem upIfc_net (s : State) (i : ℕ) : SameNet s (s.upIfc i) :=
  upIfc_sameNet s i _ fun _ => ⟨rfl, rfl, rfl, rfl⟩

theorem setReserved_net (s : State) (i : ℕ) (v : ℚ) : SameNet s (s.setReserved i v) :=
  upIfc_sameNet s i _ fun _ => ⟨rfl, rfl, rfl, rfl⟩

/-- `unfail_interface` when both end nodes are up, before the validation -/
def bringUp (r i : ℕ) : Py Unit := do
  setIfcFailed r false
  modify fun s => s.setReserved r 0
  setIfcFailed i false
  modify fun s => s.setReserved i 0

/-- the three outcomes of `bringUp` -/
theorem bringUp_spec {s : State} (hw : Wired s) {r i : ℕ} (hr : r ∈ s.ifs) (hi : i ∈ s.ifs)
    (hopp : Opposite s r i) (hup : (s.node (s.ifc r).node).failed = false)
    (hup' : (s.node (s.ifc r).remote).failed = false) :
    wp (bringUp r i)
      (fun _ t => s.ifcHeld r = false ∧ s.ifcHeld i = false ∧
        t = (((s.upIfc r).setReserved r 0).upIfc i).setReserved i 0)
      (fun _ t => (s.ifcHeld r = true ∧ t = s.downIfc r) ∨
        (s.ifcHeld r = false ∧ s.ifcHeld i = true ∧
          t = ((s.upIfc r).setReserved r 0).downIfc i)) s := by
  unfold bringUp
  rw [wp_bind]
  by_cases hh : s.ifcHeld r = true
  · unfold wp
    rw [setIfcFailed_false, if_pos hh]
    exact .inl ⟨hh, rfl⟩
  have hh : s.ifcHeld r = false := by simpa using hh
  rw [wp_ok (show setIfcFailed r false s = .ok () (s.upIfc r) by
    rw [setIfcFailed_false, if_neg (by simp [hh]), if_pos ⟨hup, hup'⟩])]
  simp only [wp_bind, wp_modify]
  have hn : SameNet s ((s.upIfc r).setReserved r 0) :=
    SameNet.frame.trans (upIfc_net s r) (setReserved_net _ r 0)
  have e1 : (s.ifc i).node = (s.ifc r).remote :=
    hw.node_inj (hw.ends i hi).1 (hw.ends r hr).2 hopp.2.1.symm
  have e2 : (s.ifc i).remote = (s.ifc r).node :=
    hw.node_inj (hw.ends i hi).2 (hw.ends r hr).1 hopp.1.symm
  by_cases hk : s.ifcHeld i = true
  · unfold wp
    rw [setIfcFailed_false, setReserved_held, upIfc_held, if_pos hk]
    exact .inr ⟨hh, hk, rfl⟩
  · have hk : s.ifcHeld i = false := by simpa using hk
    rw [wp_ok (show setIfcFailed i false ((s.upIfc r).setReserved r 0) =
        .ok () (((s.upIfc r).setReserved r 0).upIfc i) by
      rw [setIfcFailed_false, setReserved_held, upIfc_held, if_neg (by simp [hk]), hn.node,
        hn.remote, e1, e2, if_pos ⟨hup', hup⟩])]
    exact ⟨hh, hk, rfl⟩

theorem unfailInterface_eq (env : Env) (a b : String) (raiseExc : Bool) {s : State} (hw : Wired s)
    {i r : ℕ} (hi : s.getIfc a b = .ok i) (hr : s.remoteIfc i = .ok r) :
    unfailInterface env a b raiseExc s =
      if (s.node (s.ifc i).node).failed = false ∧ (s.node (s.ifc i).remote).failed = false then
        (do bringUp r i; validate env) s
      else if raiseExc then
        .error (.model "Local and/or remote node are failed") s else .ok () s := by
  obtain ⟨h1, h2⟩ := getIfc_ok hi
  obtain ⟨h3, h4, -⟩ := remote_opposite h1 hr
  have e1 : (s.ifc r).node = (s.ifc i).remote :=
    hw.node_inj (hw.ends r h3).1 (hw.ends i h1).2 h4.2.1.symm
  have g1 : s.getNode (s.tail i) = .ok (s.ifc i).node := getNode_eq hw (hw.ends i h1).1
  have g2 : s.getNode (s.tail r) = .ok (s.ifc i).remote := by
    rw [← e1]; exact getNode_eq hw (hw.ends r h3).1
  unfold unfailInterface
  rw [py_bind_ok (show (get : Py State) s = .ok s s from rfl), hi,
    py_bind_ok (show liftE (.ok i) s = .ok i s from rfl), hr,
    py_bind_ok (show liftE (.ok r) s = .ok r s from rfl), g1,
    py_bind_ok (show liftE (.ok (s.ifc i).node) s = .ok (s.ifc i).node s from rfl), g2]
  cases hu1 : (s.node (s.ifc i).node).failed with
  | true =>
    simp only [Bool.true_eq_false, false_and, if_false]
    cases raiseExc <;> rfl
  | false =>
    simp only [true_and, if_true]
    cases hu2 : (s.node (s.ifc i).remote).failed with
    | true =>
      simp only [Bool.true_eq_false, if_false]
      rw [py_bind_ok (show liftE (.ok (s.ifc i).remote) s = .ok (s.ifc i).remote s from rfl)]
      simp only [hu2]
      cases raiseExc <;> rfl
    | false =>
      simp only [if_true]
      rw [py_bind_ok (show liftE (.ok (s.ifc i).remote) s = .ok (s.ifc i).remote s from rfl)]
      simp only [hu2]
      unfold bringUp
      simp only [bind_assoc]
      rfl

theorem bring_down (s : State) (r i : ℕ) :
    ((s.upIfc r).setReserved r 0).downIfc i = ((s.upIfc r).downIfc i).setReserved r 0 := by
  unfold State.upIfc State.downIfc State.setReserved State.updIfc
  simp only []
  congr 1
  funext k
  by_cases h1 : k = i <;> by_cases h2 : k = r <;> simp only [h1, h2, if_true, if_false] <;>
    (try (split <;> rfl))

theorem bring_up (s : State) (r i : ℕ) :
    (((s.upIfc r).setReserved r 0).upIfc i).setReserved i 0 =
      (((s.upIfc r).upIfc i).setReserved r 0).setReserved i 0 := by
  unfold State.upIfc State.setReserved State.updIfc
  simp only []
  congr 1
  funext k
  by_cases h1 : k = i <;> by_cases h2 : k = r <;> simp only [h1, h2, if_true, if_false] <;>
    (try (split <;> rfl))

section
variable {I : State → Prop} (hI : UpInv I)
include hI

theorem UpInv.unfailInterface (env : Env) (a b : String) (e : Bool) :
    Stays I (NTM.unfailInterface env a b e) := by
  intro s h
  have hw := hI.wired s h
  cases hi : s.getIfc a b with
  | error x =>
    unfold wp NTM.unfailInterface
    rw [py_bind_ok (show (get : Py State) s = .ok s s from rfl), hi]
    exact h
  | ok i =>
    cases hr : s.remoteIfc i with
    | error x =>
      unfold wp NTM.unfailInterface
      rw [py_bind_ok (show (get : Py State) s = .ok s s from rfl), hi,
        py_bind_ok (show liftE (.ok i) s = .ok i s from rfl), hr]
      exact h
    | ok r =>
      obtain ⟨h1, h2⟩ := getIfc_ok hi
      obtain ⟨h3, h4, -⟩ := remote_opposite h1 hr
      unfold wp
      rw [unfailInterface_eq env a b e hw hi hr]
      by_cases hup : (s.node (s.ifc i).node).failed = false ∧
          (s.node (s.ifc i).remote).failed = false
      · rw [if_pos hup]
        have e1 : (s.ifc r).node = (s.ifc i).remote :=
          hw.node_inj (hw.ends r h3).1 (hw.ends i h1).2 h4.2.1.symm
        have e2 : (s.ifc r).remote = (s.ifc i).node :=
          hw.node_inj (hw.ends r h3).2 (hw.ends i h1).1 h4.1.symm
        have u1 : (s.node (s.ifc r).node).failed = false := by rw [e1]; exact hup.2
        have u2 : (s.node (s.ifc r).remote).failed = false := by rw [e2]; exact hup.1
        change wp (do bringUp r i; NTM.validate env) (fun _ t => I t) (fun _ t => I t) s
        rw [wp_bind]
        refine wp_mono (bringUp_spec hw h3 h1 (opposite_symm h4) u1 u2) ?_ ?_
        · rintro _ t ⟨k1, k2, rfl⟩
          rw [bring_up]
          refine hI.valid env _ (hI.zero _ _ (hI.zero _ _ ?_ h3) h1)
          have := hI.bring s r i h h3 h1 (opposite_symm h4) u1 u2 k1
          rwa [if_neg (by simp [k2])] at this
        · rintro _ t (⟨k1, rfl⟩ | ⟨k1, k2, rfl⟩)
          · exact hI.held s r h h3 k1
          · rw [bring_down]
            refine hI.zero _ _ ?_ h3
            have := hI.bring s r i h h3 h1 (opposite_symm h4) u1 u2 k1
            rwa [if_pos k2] at this
      · rw [if_neg hup]
        cases e <;> exact h

end

section
variable {I : State → Prop} (hI : NodeUpInv I)
include hI

theorem NodeUpInv.setNodeFailed_false (n : ℕ) (s : State) (h : I s) (hn : n ∈ s.nodes) :
    wp (setNodeFailed n false) (fun _ t => I t) (fun _ t => I t) s := by
  unfold wp
  rw [NTM.setNodeFailed_false]
  by_cases hh : s.nodeHeld n = true
  · rw [if_pos hh]; exact hI.nodeHeld s n h hn hh
  · rw [if_neg hh]; exact hI.nodeUp s n h hn (by simpa using hh)

theorem NodeUpInv.unfailNode (env : Env) (nm : String) : Stays I (NTM.unfailNode env nm) := by
  intro s h
  unfold NTM.unfailNode
  simp only [wp_bind, wp_get, wp_liftE]
  cases hn : s.getNode nm with
  | error e => exact h
  | ok n =>
    simp only []
    refine wp_mono (hI.setNodeFailed_false n s h (getNode_ok hn).1) ?_ (fun _ _ h => h)
    intro _ t ht
    refine Stays.forEach _ _ (fun i _ => ?_) t ht
    refine Stays.bind Stays.get fun u => Stays.ite ?_ (Stays.pure ())
    refine Stays.bind (hI.unfailInterface env _ _ _) fun _ => Stays.bind Stays.get fun v => ?_
    exact Stays.bind (Stays.liftE _) fun r => hI.unfailInterface env _ _ _

end

theorem Stays.ignoreModelExn {I : State → Prop} {x : Py Unit} (h : Stays I x) : Stays I (NTM.ignoreModelExn x) := by
  intro s hs
  have := h s hs
  unfold wp NTM.ignoreModelExn pyTry at *
  cases hx : x s with
  | ok a t => simp only [hx] at this ⊢; exact this
  | error e t =>
    simp only [hx] at this ⊢
    cases e <;> exact this

theorem FailInv.unfailSrlg {I : State → Prop} (hI : FailInv I) (env : Env) (nm : String) : Stays I (NTM.unfailSrlg env nm) := by
  intro s h
  unfold NTM.unfailSrlg
  simp only [wp_bind, wp_get, wp_liftE]
  cases hg : s.getSrlg nm with
  | error e => exact h
  | ok g =>
    simp only [wp_modify]
    refine wp_mono (Stays.forEach (I := I) _ _ (fun n _ => ?_) _ (hI.srlgUp s g h (getSrlg_ok hg).1)) ?_
      (fun _ _ h => h)
    · exact Stays.bind Stays.get fun u =>
        Stays.ite (Stays.ignoreModelExn (hI.unfailNode env _)) (Stays.pure ())
    · intro _ t ht
      refine Stays.forEach (I := I) _ _ (fun i _ => ?_) t ht
      exact Stays.bind Stays.get fun u =>
        Stays.ite (Stays.ignoreModelExn (hI.unfailInterface env _ _ _)) (Stays.pure ())

end NTM
