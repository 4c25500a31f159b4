import Verif.Proof.RoundTrip
import Verif.Spec.Examples

/-!
# C36–C46: failures, repairs and shared risk link groups
-/

namespace NTM

open Spec

/-- The square with two SRLGs: "g" holds the circuit A-B and the node C, "h" holds the circuit
A-B as well. -/
def Ex.risk (k : Kind) : State := Ex.mk k
  [{ name := "A" }, { name := "B" }, { name := "C", srlgs := [0] }, { name := "D" }]
  ((Ex.link "ab" 0 1 10 100 1).map (fun i => { i with srlgs := [0, 1] }) ++
    Ex.link "bd" 1 3 10 100 2 ++ Ex.link "ac" 0 2 10 100 3 ++ Ex.link "cd" 2 3 10 100 4)
  [{ src := 0, dst := 3, traffic := 10, name := "x" }]
  [] [{ name := "g" }, { name := "h" }]

theorem py_bind_error {α β : Type} {x : Py α} {f : α → Py β} {s t : State} {e : Exn}
    (h : x s = .error e t) : (x >>= f) s = .error e t := by
  show EStateM.bind x f s = _
  unfold EStateM.bind
  rw [h]

/-- Validation turns a well-formed model into one in which every interface and its remote
carry the same circuit id: the hypotheses of the theorems below hold of validated models. -/
theorem validated_wired {env : Env} {s t : State} (hw : Wired s) (hr : RsvpReady s)
    (hs : SrlgsMatch s) (hv : validate env s = .ok () t) :
    Wired t ∧ IdsMatch t ∧ RsvpReady t ∧ SrlgsMatch t ∧ EndsAgree t := by
  obtain ⟨u, hu, rfl, hok⟩ := validate_ok hv
  have hwell : PairedWell s u := { hu with single := hw.single, set := hw.ids }
  have hck := hu.checked hw.ids
  have hm : Wired u.repair := hw.congr hck.sameNet
  obtain ⟨C, B, I, F, he, hid, hF⟩ := hck
  have hl : Looser s u.repair := by
    rw [he]
    exact (show Looser s (s.withCkt C B I) from fun _ => ⟨rfl, rfl, rfl, .inl rfl⟩).trans
      (looser_fell _ _ _)
  have hall : ∀ i ∈ s.ifs, i ∈ s.matchable := fun i hi => mem_matchable.2 ⟨hi, (hr i hi).2⟩
  have hcov : ∀ i ∈ s.ifs, ∃ c ∈ u.circuits, IsEnd i c := fun i hi =>
    hu.cover hw.single hw.ids i (hall i hi)
  have hidm : IdsMatch u := by
    have hn : SameNet s u := hu.checked'.sameNet
    cases hk : s.kind with
    | flex => exact (hw.idsMatch hk).congr hn (hu.flexIds hk)
    | perf => exact Paired.idsMatch hw hr hu
  refine ⟨hm, ?_, ready_congr hr (by rw [he]; rfl) hl, ?_, ?_⟩
  · rw [repair_fell]
    exact hidm.congr (fell_sameNet _ _ _) (fell_cktId _ _ _)
  · refine srlgsMatch_congr hs (hu.checked hw.ids).sameNet ?_
    intro i
    rw [he, fell_ifcSrlgs]
    rfl
  · intro i hi j hj hij
    have hsn := (hu.checked hw.ids).sameNet
    rw [hsn.ifs] at hi hj
    rw [hsn.opposite] at hij
    obtain ⟨c, hc, hend⟩ := hcov i hi
    have hce := hu.ends c hc
    have hco := hwell.opposite hc
    have hrep := repair_failed hu.apart hc
    rcases hend with e | e
    · rw [e] at hij ⊢
      rw [hw.twin_unique hj hce.2.1 hij hco, hrep.1, hrep.2]
    · rw [e] at hij ⊢
      rw [hw.twin_unique hj hce.1 hij (opposite_symm hco), hrep.1, hrep.2]

example (k : Kind) : Wired (Ex.risk k) ∧ RsvpReady (Ex.risk k) ∧ SrlgsMatch (Ex.risk k) ∧
    validate Env.default (Ex.risk k) = .ok () (finalState (validate Env.default) (Ex.risk k)) := by
  cases k <;> exact ⟨by decide +kernel, by decide +kernel, by decide +kernel,
    ok_of_raised (by decide +kernel)⟩

/-- **C36** `fail_interface(name, node)` fails the named interface and the one in the opposite
direction, clearing their reservations, and changes nothing else. -/
theorem C36_fail_interface {s : State} (hw : Wired s) (hid : IdsMatch s) {i j : ℕ}
    (hi : i ∈ s.ifs) (hj : j ∈ s.ifs) (hij : Opposite s i j) :
    ∃ t, failInterface (s.ifc i).name (s.tail i) s = .ok () t ∧
      FailedOnly s t (fun k => k = i ∨ k = j) (fun _ => False) := by
  refine ⟨_, failInterface_eq hw hid hi hj hij, ?_⟩
  have := fell_failedOnly s (pairOf i j) (fun _ => false)
  simpa [FailedOnly, pairOf] using this

/-- **C36** on a model that has just been validated -/
theorem C36_fail_interface_validated {env : Env} {s₀ s : State} (hw : Wired s₀)
    (hr : RsvpReady s₀) (hs : SrlgsMatch s₀) (hv : validate env s₀ = .ok () s) {i : ℕ}
    (hi : i ∈ s.ifs) :
    ∃ j t, j ∈ s.ifs ∧ Opposite s i j ∧ failInterface (s.ifc i).name (s.tail i) s = .ok () t ∧
      FailedOnly s t (fun k => k = i ∨ k = j) (fun _ => False) := by
  obtain ⟨h1, h2, -⟩ := validated_wired hw hr hs hv
  obtain ⟨j, hj, hij⟩ := h1.twin i hi
  obtain ⟨t, ht⟩ := C36_fail_interface h1 h2 hi hj hij
  exact ⟨j, t, hj, hij, ht⟩

example (k : Kind) : Wired (Ex.risk k) ∧ IdsMatch (Ex.risk k) ∧ 2 ∈ (Ex.risk k).ifs ∧
    3 ∈ (Ex.risk k).ifs ∧ Opposite (Ex.risk k) 2 3 := by
  cases k <;> decide +kernel

/-- **C37** `fail_node(name)` fails the node and every interface on it or facing it, and
changes nothing else. -/
theorem C37_fail_node {s : State} (hw : Wired s) (hid : IdsMatch s) {n : ℕ} (hn : n ∈ s.nodes) :
    ∃ t, failNode (s.node n).name s = .ok () t ∧
      FailedOnly s t (fun k => k ∈ s.ifs ∧ ((s.ifc k).node = n ∨ (s.ifc k).remote = n))
        (fun m => m = n) := by
  refine ⟨_, failNode_eq hw hid hn, ?_⟩
  have := fell_failedOnly s (atNode s (s.node n).name) (fun k => k = n)
  have hiff : (fun k => atNode s (s.node n).name k = true) =
      fun k => k ∈ s.ifs ∧ ((s.ifc k).node = n ∨ (s.ifc k).remote = n) := by
    funext k
    unfold atNode State.tail State.head
    simp only [Bool.and_eq_true, Bool.or_eq_true, decide_eq_true_eq]
    refine propext (and_congr_right fun hk => ?_)
    constructor
    · exact Or.imp (hw.node_inj (hw.ends k hk).1 hn) (hw.node_inj (hw.ends k hk).2 hn)
    · exact Or.imp (fun h => by rw [h]) (fun h => by rw [h])
  rw [hiff] at this
  simpa using this

example (k : Kind) : Wired (Ex.risk k) ∧ IdsMatch (Ex.risk k) ∧ 2 ∈ (Ex.risk k).nodes := by
  cases k <;> decide +kernel

/-- **C38** (partial: no node is added to an SRLG that is failed at that moment) In every
history of failures, repairs, validations, simulations and membership changes an interface on
or facing a failed node is failed. -/
theorem C38_no_live_interface_on_dead_node_partial {env : Env} {s t : State} (hw : Wired s)
    (hd : DeadNodesDark s) (hm : MemberNodesDown s)
    (h : History env (fun u c => c.OnModel u ∧ c.NodeJoinsLive u) s t) : DeadNodesDark t :=
  (History.keeps (I := DarkInv) (fun u c hu hc => darkIfcMem.step env c u hu hc.1
    (fun _ => stays_simBody env _ darkInv_cfg (darkInv.valid env)) (fun _ _ _ _ _ _ _ => trivial)
    hc.2) ⟨hw, hd, hm⟩ h).2.1

example (k : Kind) : Wired (Ex.risk k) ∧ DeadNodesDark (Ex.risk k) ∧ MemberNodesDown (Ex.risk k) := by
  cases k <;> decide +kernel

/-- **C38** is false in general: a node that is added to a failed SRLG stays up; `unfail_node`
on it then raises, marks the node failed, and leaves its interfaces up. -/
theorem C38_no_live_interface_on_dead_node_false (k : Kind) :
    ∃ t, History Env.default (fun u c => c.OnModel u) (Ex.risk k) t ∧ ¬ DeadNodesDark t := by
  refine ⟨_, .call (.unfailNode "A") (.call (.joinNode 0 "h" false) (.call (.failSrlg "h")
    (.start _) trivial) ?_) trivial, ?_⟩
  · show 0 ∈ State.nodes _
    cases k <;> decide +kernel
  · cases k <;> decide +kernel

/-- **C39** In every history of failures, repairs, validations, simulations and changes of node
membership the two directions of a circuit have the same failed status. -/
theorem C39_ends_fail_together {env : Env} {s t : State} (hw : Wired s) (he : EndsAgree s)
    (hm : MemberIfcsDown s) (hs : SrlgsMatch s)
    (h : History env (fun u c => c.OnModel u ∧ c.KeepsIfcMembers) s t) : EndsAgree t :=
  (History.keeps (I := EndsInv) (fun u c hu hc => endsMem.step' endsInv_join env c u hu hc.1
    (fun _ => stays_simBody env _ endsInv_cfg (endsInv.valid env)) hc.2) ⟨hw, he, hm, hs⟩ h).2.1

example (k : Kind) : Wired (Ex.risk k) ∧ EndsAgree (Ex.risk k) ∧ MemberIfcsDown (Ex.risk k) ∧
    SrlgsMatch (Ex.risk k) := by
  cases k <;> decide +kernel

/-- **C39** does not extend to `Interface.remove_from_srlg`: it brings up one end only. -/
theorem C39_interface_membership_false (k : Kind) :
    ∃ t, History Env.default (fun u c => c.OnModel u) (Ex.risk k) t ∧ ¬ EndsAgree t := by
  refine ⟨_, .call (.leaveIfc 0 "h") (.call (.failSrlg "h") (.start _) trivial) ?_, ?_⟩
  · show 0 ∈ State.ifs _
    cases k <;> decide +kernel
  · cases k <;> decide +kernel

/-- **C40** `fail_srlg(name)` fails the SRLG, its member nodes, the interfaces on or facing a
member node, its member interfaces and their opposite directions, and nothing else. -/
theorem C40_fail_srlg {s : State} (hw : Wired s) (hid : IdsMatch s) {g : ℕ} (hg : g ∈ s.srlgs) :
    ∃ u, failSrlg (s.srlg g).name s = .ok ()
        { u with srlg := fun h => if h = g then { s.srlg g with failed := true } else s.srlg h } ∧
      FailedOnly s u
        (fun k => (k ∈ s.ifs ∧ (NodeIn s g (s.ifc k).node ∨ NodeIn s g (s.ifc k).remote)) ∨
          IfcIn s g k ∨ (k ∈ s.ifs ∧ ∃ i, IfcIn s g i ∧ Opposite s i k))
        (fun n => NodeIn s g n) := by
  refine ⟨s.fell (srlgReach s g) (srlgMembers s g), ?_, ?_⟩
  · rw [failSrlg_eq hw hid hg]
    unfold State.setSrlg State.updSrlg
    congr 1
    simp only []
    congr 1
    funext h
    split
    · next e => subst e; rfl
    · rfl
  · have := fell_failedOnly s (srlgReach s g) (srlgMembers s g)
    have h1 : (fun k => srlgReach s g k = true) =
        (fun k => (k ∈ s.ifs ∧ (NodeIn s g (s.ifc k).node ∨ NodeIn s g (s.ifc k).remote)) ∨
          IfcIn s g k ∨ (k ∈ s.ifs ∧ ∃ i, IfcIn s g i ∧ Opposite s i k)) := by
      funext k
      unfold srlgReach
      rw [Bool.or_eq_true]
      refine propext (or_congr ?_ ?_)
      · unfold atNodes atNode State.tail State.head NodeIn
        simp only [List.any_eq_true, Bool.and_eq_true, Bool.or_eq_true, decide_eq_true_eq]
        constructor
        · rintro ⟨n, hn, hgn, hk, he⟩
          refine ⟨hk, he.imp ?_ ?_⟩ <;> intro h
          · rw [hw.node_inj (hw.ends k hk).1 hn h]; exact ⟨hn, hgn⟩
          · rw [hw.node_inj (hw.ends k hk).2 hn h]; exact ⟨hn, hgn⟩
        · rintro ⟨hk, h | h⟩
          · exact ⟨_, h.1, h.2, hk, .inl rfl⟩
          · exact ⟨_, h.1, h.2, hk, .inr rfl⟩
      · unfold circuitsOf IfcIn
        simp only [decide_eq_true_eq, List.mem_filter]
        constructor
        · rintro ⟨i, hi, rfl | ⟨hk, ho⟩⟩
          · exact .inl hi
          · exact .inr ⟨hk, i, hi, ho⟩
        · rintro (h | ⟨hk, i, hi, ho⟩)
          · exact ⟨k, h, .inl rfl⟩
          · exact ⟨i, hi, .inr ⟨hk, ho⟩⟩
    have h2 : (fun n => srlgMembers s g n = true) = fun n => NodeIn s g n := by
      funext n
      unfold srlgMembers NodeIn
      simp
    rwa [h1, h2] at this

example (k : Kind) : Wired (Ex.risk k) ∧ IdsMatch (Ex.risk k) ∧ 0 ∈ (Ex.risk k).srlgs ∧
    NodeIn (Ex.risk k) 0 2 ∧ IfcIn (Ex.risk k) 0 1 := by
  cases k <;> decide +kernel

/-- **C41** Assigning `failed = False` to an interface that belongs to a failed SRLG raises and
leaves it failed. -/
theorem C41_interface_setter {s : State} {i g : ℕ} (hg : g ∈ (s.ifc i).srlgs)
    (hf : (s.srlg g).failed = true) :
    ∃ msg t, setIfcFailed i false s = .error (.model msg) t ∧ (t.ifc i).failed = true := by
  have hh : s.ifcHeld i = true := ifcHeld_iff.2 ⟨g, hg, hf⟩
  refine ⟨_, _, by rw [setIfcFailed_false, if_pos hh], ?_⟩
  rw [downIfc_failed, if_pos rfl]

/-- **C41** Assigning `failed = False` to a node that belongs to a failed SRLG raises and
leaves it failed. -/
theorem C41_node_setter {s : State} {n g : ℕ} (hg : g ∈ (s.node n).srlgs)
    (hf : (s.srlg g).failed = true) :
    ∃ msg t, setNodeFailed n false s = .error (.model msg) t ∧ (t.node n).failed = true := by
  have hh : s.nodeHeld n = true := nodeHeld_iff.2 ⟨g, hg, hf⟩
  refine ⟨_, _, by rw [setNodeFailed_false, if_pos hh], ?_⟩
  unfold State.updNode
  simp

/-- **C41** `unfail_node` on a member of a failed SRLG raises and leaves the node failed. -/
theorem C41_unfail_node {env : Env} {s : State} (hw : Wired s) {n g : ℕ} (hn : n ∈ s.nodes)
    (hg : g ∈ (s.node n).srlgs) (hf : (s.srlg g).failed = true) :
    ∃ msg t, unfailNode env (s.node n).name s = .error (.model msg) t ∧
      (t.node n).failed = true := by
  obtain ⟨msg, t, h1, h2⟩ := C41_node_setter hg hf
  refine ⟨msg, t, ?_, h2⟩
  unfold unfailNode
  rw [py_bind_ok (show (get : Py State) s = .ok s s from rfl), getNode_eq hw hn,
    py_bind_ok (show liftE (.ok n) s = .ok n s from rfl)]
  show EStateM.bind _ _ s = _
  unfold EStateM.bind
  rw [h1]

/-- **C41** `unfail_interface` on a failed member of a failed SRLG leaves it failed; it raises,
unless an end node is failed and the caller asked not to raise, when it does nothing. -/
theorem C41_unfail_interface {env : Env} {e : Bool} {s : State} (hw : Wired s) (hid : IdsMatch s)
    (hs : SrlgsMatch s) {i g : ℕ} (hi : i ∈ s.ifs) (hg : g ∈ (s.ifc i).srlgs)
    (hf : (s.srlg g).failed = true) (hd : (s.ifc i).failed = true) :
    (∃ msg t, unfailInterface env (s.ifc i).name (s.tail i) e s = .error (.model msg) t ∧
      (t.ifc i).failed = true) ∨
    (e = false ∧ ((s.node (s.ifc i).node).failed = true ∨ (s.node (s.ifc i).remote).failed = true) ∧
      unfailInterface env (s.ifc i).name (s.tail i) e s = .ok () s) := by
  obtain ⟨r, hr, hir⟩ := hw.twin i hi
  have hrem := remote_eq hid hi hr hir
  rw [unfailInterface_eq env _ _ e hw (getIfc_eq hw hi) hrem]
  by_cases hup : (s.node (s.ifc i).node).failed = false ∧ (s.node (s.ifc i).remote).failed = false
  · left
    rw [if_pos hup]
    have hh : s.ifcHeld r = true := ifcHeld_iff.2 ⟨g, hs r hr i hi (opposite_symm hir) g hg, hf⟩
    have he : ∃ msg, setIfcFailed r false s = .error (.model msg) (s.downIfc r) :=
      ⟨_, by rw [setIfcFailed_false, if_pos hh]⟩
    obtain ⟨msg, he⟩ := he
    refine ⟨msg, s.downIfc r, ?_, ?_⟩
    · unfold bringUp
      simp only [bind_assoc]
      exact py_bind_error he
    · rw [downIfc_failed]
      split
      · rfl
      · exact hd
  · rw [if_neg hup]
    cases e with
    | true => exact .inl ⟨_, s, rfl, hd⟩
    | false =>
      refine .inr ⟨rfl, ?_, rfl⟩
      by_contra hc
      rw [not_or] at hc
      exact hup ⟨by simpa using hc.1, by simpa using hc.2⟩

/-- **C41** `Interface.unfail_interface` on a failed member of a failed SRLG raises and leaves it
failed. -/
theorem C41_interface_method {s : State} {i g : ℕ} (hg : g ∈ (s.ifc i).srlgs)
    (hf : (s.srlg g).failed = true) (hd : (s.ifc i).failed = true) :
    ∃ e t, ifcUnfail i s = .error e t ∧ (t.ifc i).failed = true := by
  unfold ifcUnfail
  rw [py_bind_ok (show (get : Py State) s = .ok s s from rfl)]
  cases hr : s.remoteIfc i with
  | error x => exact ⟨x, s, rfl, hd⟩
  | ok r =>
    rw [py_bind_ok (show liftE (.ok r) s = .ok r s from rfl)]
    by_cases hup : (s.node (s.ifc i).node).failed = false ∧ (s.node (s.ifc i).remote).failed = false
    · rw [if_pos hup]
      obtain ⟨msg, t, he, ht⟩ := C41_interface_setter hg hf
      exact ⟨_, t, py_bind_error he, ht⟩
    · rw [if_neg hup]
      exact ⟨_, s, rfl, hd⟩

example (k : Kind) :
    let s := finalState (failSrlg "g") (Ex.risk k)
    Wired s ∧ IdsMatch s ∧ SrlgsMatch s ∧ 0 ∈ (s.ifc 0).srlgs ∧ 0 ∈ (s.node 2).srlgs ∧
      (s.srlg 0).failed = true ∧ (s.ifc 0).failed = true := by
  cases k <;> decide +kernel

/-- **C42** (partial: nothing is added to an SRLG that is failed at that moment) In every
history all members of a failed SRLG are failed. -/
theorem C42_members_of_failed_srlg_partial {env : Env} {s t : State} (hw : Wired s)
    (hn : MemberNodesDown s) (hi : MemberIfcsDown s)
    (h : History env (fun u c => c.OnModel u ∧ c.JoinsLive u) s t) :
    MemberNodesDown t ∧ MemberIfcsDown t := by
  refine (History.keeps (I := DownInv) (fun u c hu hc => downIfcMem.step env c u hu hc.1
    (fun _ => stays_simBody env _ downInv_cfg (downInv.valid env)) ?_ ?_) ⟨hw, hn, hi⟩ h).2
  · intro i a b e g hg hname
    subst e
    by_contra hf
    exact hc.2 ⟨g, hg, hname, by simpa using hf⟩
  · have := hc.2
    cases c <;> trivial

example (k : Kind) : Wired (Ex.risk k) ∧ MemberNodesDown (Ex.risk k) ∧ MemberIfcsDown (Ex.risk k) := by
  cases k <;> decide +kernel

/-- **C42** is false in general: an object added to a failed SRLG stays up. -/
theorem C42_members_of_failed_srlg_false (k : Kind) :
    (∃ t, History Env.default (fun u c => c.OnModel u) (Ex.risk k) t ∧ ¬ MemberNodesDown t) ∧
    ∃ t, History Env.default (fun u c => c.OnModel u) (Ex.risk k) t ∧ ¬ MemberIfcsDown t := by
  refine ⟨⟨_, .call (.joinNode 0 "h" false) (.call (.failSrlg "h") (.start _) trivial) ?_, ?_⟩,
    ⟨_, .call (.joinIfc 2 "h" false) (.call (.failSrlg "h") (.start _) trivial) ?_, ?_⟩⟩
  · show 0 ∈ State.nodes _
    cases k <;> decide +kernel
  · cases k <;> decide +kernel
  · show 2 ∈ State.ifs _
    cases k <;> decide +kernel
  · cases k <;> decide +kernel

/-- **C43** On a valid model without routed LSPs, failing a circuit that is up, between two live
nodes and in no failed SRLG, and then restoring it succeeds and gives every interface its
failed status back; nodes, SRLGs, demands, LSPs, traffic and reservations are as before. -/
theorem C43_fail_unfail_round_trip {env env' : Env} {e : Bool} {s t : State} (hw : Wired s)
    (hid : IdsMatch s) (hs : SrlgsMatch s) (hr : RsvpReady s) (he : EndsAgree s)
    (hl : NoLspRouted s) (hv : validate env s = .ok () t) {i : ℕ} (hi : i ∈ s.ifs)
    (hup : (s.ifc i).failed = false) (h1 : (s.node (s.ifc i).node).failed = false)
    (h2 : (s.node (s.ifc i).remote).failed = false)
    (h3 : ∀ g ∈ (s.ifc i).srlgs, (s.srlg g).failed = false) :
    ∃ u v, failInterface (s.ifc i).name (s.tail i) s = .ok () u ∧
      unfailInterface env' (s.ifc i).name (s.tail i) e u = .ok () v ∧
      (u.ifc i).failed = true ∧ (∀ k, (v.ifc k).failed = (s.ifc k).failed) ∧
      v.node = s.node ∧ v.srlg = s.srlg ∧ v.dmd = s.dmd ∧ v.lsp = s.lsp ∧
      (∀ k ∈ s.ifs, v.reservedBw k = s.reservedBw k ∧ (v.ifc k).traffic = (s.ifc k).traffic) := by
  refine roundTrip ⟨hw, hid, hs, hr⟩ he hl hv hi hup h1 h2 ?_ e
  by_contra hc
  obtain ⟨g, hg, hf⟩ := ifcHeld_iff.1 (by simpa using hc : s.ifcHeld i = true)
  rw [h3 g hg] at hf
  cases hf

/-- the square after its first simulation -/
def Ex.risk1 (k : Kind) : State := finalState (updateSimulation Env.default) (Ex.risk k)

example (k : Kind) : Wired (Ex.risk1 k) ∧ IdsMatch (Ex.risk1 k) ∧ SrlgsMatch (Ex.risk1 k) ∧
    RsvpReady (Ex.risk1 k) ∧ EndsAgree (Ex.risk1 k) ∧ NoLspRouted (Ex.risk1 k) ∧
    validate Env.default (Ex.risk1 k) = .ok () (finalState (validate Env.default) (Ex.risk1 k)) ∧
    0 ∈ (Ex.risk1 k).ifs ∧ ((Ex.risk1 k).ifc 0).failed = false ∧
    ((Ex.risk1 k).ifc 0).traffic = .val 5 := by
  cases k <;> exact ⟨by decide +kernel, by decide +kernel, by decide +kernel, by decide +kernel,
    by decide +kernel, by decide +kernel, ok_of_raised (by decide +kernel), by decide +kernel,
    by decide +kernel, by decide +kernel⟩

/-- An LSP from A to B reserves 4 on the only circuit. -/
def Ex.ridden (k : Kind) : State := finalState (updateSimulation Env.default) (Ex.mk k
  [{ name := "A" }, { name := "B" }] (Ex.link "ab" 0 1 1 10 1)
  [{ src := 0, dst := 1, traffic := 4, name := "x" }] [{ src := 0, dst := 1, name := "l" }] [])

/-- **C43** is false when an LSP is routed over the circuit: `unfail_interface` raises, because
the reservations that `fail_interface` cleared no longer match the LSP. -/
theorem C43_with_lsp_false (k : Kind) :
    raised (validate Env.default) (Ex.ridden k) = none ∧
    raised (failInterface "ab1" "A") (Ex.ridden k) = none ∧
    raised (unfailInterface Env.default "ab1" "A" true)
        (finalState (failInterface "ab1" "A") (Ex.ridden k)) =
      some (.model "network interface validation failed, see returned data") := by
  cases k <;> exact ⟨by decide +kernel, by decide +kernel, by decide +kernel⟩

/-- **C44** If an end node of the interface is failed, `unfail_interface` changes nothing, and
raises exactly when it was asked to. -/
theorem C44_unfail_refused_on_dead_node {env : Env} {s : State} (hw : Wired s) (hid : IdsMatch s)
    {i : ℕ} (hi : i ∈ s.ifs)
    (hd : (s.node (s.ifc i).node).failed = true ∨ (s.node (s.ifc i).remote).failed = true) :
    unfailInterface env (s.ifc i).name (s.tail i) false s = .ok () s ∧
    ∃ msg, unfailInterface env (s.ifc i).name (s.tail i) true s = .error (.model msg) s := by
  obtain ⟨r, hr, hir⟩ := hw.twin i hi
  have hrem := remote_eq hid hi hr hir
  have hn : ¬ ((s.node (s.ifc i).node).failed = false ∧ (s.node (s.ifc i).remote).failed = false) := by
    rintro ⟨a, b⟩
    rcases hd with h | h
    · rw [a] at h; cases h
    · rw [b] at h; cases h
  constructor
  · rw [unfailInterface_eq env _ _ false hw (getIfc_eq hw hi) hrem, if_neg hn]; rfl
  · rw [unfailInterface_eq env _ _ true hw (getIfc_eq hw hi) hrem, if_neg hn]; exact ⟨_, rfl⟩

example (k : Kind) :
    let s := finalState (failNode "B") (Ex.risk k)
    Wired s ∧ IdsMatch s ∧ 0 ∈ s.ifs ∧ (s.node (s.ifc 0).remote).failed = true := by
  cases k <;> decide +kernel

/-- **C45** When `unfail_srlg` returns, the SRLG is up and the other SRLGs are as before.  A
member node that no other failed SRLG holds down is up, and so is a member interface between
live nodes; members of another failed SRLG are still failed; and nothing that was up has
failed. -/
theorem C45_unfail_srlg {env : Env} {s t : State} (hw : Wired s) (hid : IdsMatch s)
    (hs : SrlgsMatch s) (hr : RsvpReady s) (he : EndsAgree s) (hn : MemberNodesDown s)
    (hi : MemberIfcsDown s) {g : ℕ} (hg : g ∈ s.srlgs)
    (h : unfailSrlg env (s.srlg g).name s = .ok () t) :
    (t.srlg g).failed = false ∧ (∀ h, h ≠ g → t.srlg h = s.srlg h) ∧
    (∀ n, NodeIn s g n → (∀ h ∈ (s.node n).srlgs, h ≠ g → (s.srlg h).failed = false) →
      (t.node n).failed = false) ∧
    (∀ i, IfcIn s g i → (∀ h ∈ (s.ifc i).srlgs, h ≠ g → (s.srlg h).failed = false) →
      (t.node (s.ifc i).node).failed = false → (t.node (s.ifc i).remote).failed = false →
      (t.ifc i).failed = false) ∧
    (∀ n ∈ s.nodes, (∃ h ∈ (s.node n).srlgs, h ≠ g ∧ (s.srlg h).failed = true) →
      (t.node n).failed = true) ∧
    (∀ i ∈ s.ifs, (∃ h ∈ (s.ifc i).srlgs, h ≠ g ∧ (s.srlg h).failed = true) →
      (t.ifc i).failed = true) ∧
    (∀ n ∈ s.nodes, (s.node n).failed = false → (t.node n).failed = false) ∧
    (∀ i ∈ s.ifs, (s.ifc i).failed = false → (t.ifc i).failed = false) := by
  obtain ⟨hb, hc, h1, h2⟩ :=
    of_wp_ok (unfailSrlg_spec env ⟨⟨hw, hid, hs, hr⟩, ⟨hw, he, hi, hs⟩, hw, hn, hi⟩ hg) h
  have hfl : ∀ k, ((s.setSrlg g false).srlg k).failed = if k = g then false else (s.srlg k).failed :=
    setSrlg_failed s g false
  refine ⟨?_, ?_, ?_, ?_, ?_, ?_, ?_, ?_⟩
  · rw [hc.srlg, hfl, if_pos rfl]
  · intro k hk
    rw [hc.srlg]
    unfold State.setSrlg State.updSrlg
    simp [hk]
  · intro n hm ho
    refine h1 n hm.1 hm.2 ?_
    by_contra hx
    obtain ⟨k, hk, hf⟩ := nodeHeld_iff.1 (by simpa using hx : (s.setSrlg g false).nodeHeld n = true)
    rw [hfl] at hf
    split at hf
    · cases hf
    · next hne =>
      rw [ho k hk hne] at hf; cases hf
  · intro i hm ho
    refine h2 i hm.1 hm.2 ?_
    by_contra hx
    obtain ⟨k, hk, hf⟩ := ifcHeld_iff.1 (by simpa using hx : (s.setSrlg g false).ifcHeld i = true)
    rw [hfl] at hf
    split at hf
    · cases hf
    · next hne =>
      rw [ho k hk hne] at hf; cases hf
  · rintro n hn' ⟨k, hk, hne, hf⟩
    refine hb.2.2.2.1 n (by rw [hc.net.nodes]; exact hn') k (by rw [hc.nodeSrlgs]; exact hk) ?_
    rw [hc.srlg, hfl, if_neg hne]; exact hf
  · rintro i hi' ⟨k, hk, hne, hf⟩
    refine hb.2.2.2.2 i (by rw [hc.net.ifs]; exact hi') k (by rw [hc.ifcSrlgs]; exact hk) ?_
    rw [hc.srlg, hfl, if_neg hne]; exact hf
  · exact hc.nup
  · exact hc.up

/-- both SRLGs of the example fail -/
def Ex.risk2 (k : Kind) : State :=
  finalState (failSrlg "h") (finalState (failSrlg "g") (Ex.risk k))

example (k : Kind) : Wired (Ex.risk2 k) ∧ IdsMatch (Ex.risk2 k) ∧ SrlgsMatch (Ex.risk2 k) ∧
    RsvpReady (Ex.risk2 k) ∧ EndsAgree (Ex.risk2 k) ∧ MemberNodesDown (Ex.risk2 k) ∧
    MemberIfcsDown (Ex.risk2 k) ∧ 0 ∈ (Ex.risk2 k).srlgs ∧
    unfailSrlg Env.default ((Ex.risk2 k).srlg 0).name (Ex.risk2 k) =
      .ok () (finalState (unfailSrlg Env.default "g") (Ex.risk2 k)) ∧
    NodeIn (Ex.risk2 k) 0 2 ∧ IfcIn (Ex.risk2 k) 0 0 ∧ ((Ex.risk2 k).srlg 1).failed = true := by
  cases k <;> exact ⟨by decide +kernel, by decide +kernel, by decide +kernel, by decide +kernel,
    by decide +kernel, by decide +kernel, by decide +kernel, by decide +kernel,
    ok_of_raised (by decide +kernel), by decide +kernel, by decide +kernel, by decide +kernel⟩

/-- **C46** In every history of failures, repairs, validations and membership changes an
interface and its remote interface belong to the same SRLGs. -/
theorem C46_srlg_membership_symmetric {env : Env} {s t : State} (hw : Wired s) (hid : IdsMatch s)
    (hs : SrlgsMatch s) (hr : RsvpReady s)
    (h : History env (fun u c => c.OnModel u ∧ c ≠ .simulate) s t) {i : ℕ} (hi : i ∈ t.ifs) :
    ∃ j ∈ t.ifs, t.remoteIfc i = .ok j ∧ Opposite t i j ∧
      ∀ g, g ∈ (t.ifc i).srlgs ↔ g ∈ (t.ifc j).srlgs := by
  have hm : MatchInv t := History.keeps (I := MatchInv)
    (fun u c hu hc => matchInv_step env c u hu hc.1 hc.2) ⟨hw, hid, hs, hr⟩ h
  obtain ⟨j, hj, hij⟩ := hm.1.twin i hi
  exact ⟨j, hj, remote_eq hm.2.1 hi hj hij, hij, fun g =>
    ⟨fun hg => hm.2.2.1 j hj i hi (opposite_symm hij) g hg, fun hg => hm.2.2.1 i hi j hj hij g hg⟩⟩

example (k : Kind) : Wired (Ex.risk k) ∧ IdsMatch (Ex.risk k) ∧ SrlgsMatch (Ex.risk k) ∧
    RsvpReady (Ex.risk k) := by
  cases k <;> decide +kernel

end NTM
