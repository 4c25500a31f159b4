import Verif.Spec.Carry
import Verif.Proof.TwistValid
import Verif.Proof.Outcome
import Verif.Proof.Inputs
import Verif.Props.Agree

/-!
# C55 and C73: a simulation carries no state forward and keeps its inputs
-/

namespace NTM

open Spec

/-- the overlay of earlier results -/
def Ov.results (t : State) : Ov :=
  ⟨t.kind, fun l => (t.lsp l).reserved, fun l => (t.lsp l).setup, fun d => (t.dmd d).detail,
    fun i => (t.ifc i).cktId, fun i => (t.ifc i).inCkt, t.circuits, t.srlg, t.srlgs⟩

theorem SameConfig.reset {s t : State} (h : SameConfig s t) :
    t.resetSim = s.resetSim.twist (Ov.results t) := by
  obtain ⟨e, hi, -, hd, hl, oi, od, ol⟩ := h
  obtain ⟨k, nd, I, D, L, G, ns, is, ds, ls, gs, cs, grp, nx, rp⟩ := t
  simp only [State.mk.injEq, true_and] at e
  obtain ⟨rfl, rfl, rfl, rfl, rfl, rfl, rfl, rfl⟩ := e
  unfold State.resetSim State.twist Ov.results
  simp only [State.mk.injEq, true_and, and_true]
  refine ⟨?_, ?_, ?_⟩ <;> funext x
  · by_cases hx : x ∈ s.ifs
    · have := hi x hx
      simp only [hx, if_true] at this ⊢
      rw [this]
    · have := oi x hx
      simp only [hx, if_false] at this ⊢
      rw [this]
  · by_cases hx : x ∈ s.dmds
    · have := hd x hx
      simp only [hx, if_true] at this ⊢
      rw [this]
    · have := od x hx
      simp only [hx, if_false] at this ⊢
      rw [this]
  · by_cases hx : x ∈ s.lsps
    · have := hl x hx
      simp only [hx, if_true] at this ⊢
      rw [this]
    · have := ol x hx
      simp only [hx, if_false] at this ⊢
      rw [this]

/-- the two runs in lockstep -/
theorem updateSimulation_twist (env : Env) {s t : State} (hu : UniqueIfcKeys s)
    (h : SameConfig s t) :
    rwp (updateSimulation env) (updateSimulation env) (fun _ _ s' t' => SameResults s' t' ∧
      ∀ l, (∃ g ∈ buildGroups env s.lsps s.lspSrc s.lspDst, l ∈ g.2) → t'.lsp l = s'.lsp l)
      s t := by
  have hkind : t.kind = s.kind := by rw [h.rest]
  unfold updateSimulation
  refine rwp_bind (rwp_modify ?_)
  rw [SameConfig.reset h]
  have hcmp : Comparable (Ov.results t) s.resetSim := ⟨.inl hkind, resetSim_keys hu⟩
  have e1 : (s.resetSim.twist (Ov.results t)).groups = [] := rfl
  refine rwp_bind (rwp_mono (routeLsps_twist env (P := ∅) hcmp rfl
    (fun l hl => resetSim_lsp_path hl) (fun l hl => hl.elim)) ?_)
  rintro _ _ s1 t1 h1
  rw [Set.empty_union] at h1
  have hP : {l | ∃ g ∈ buildGroups env s.resetSim.lsps s.resetSim.lspSrc s.resetSim.lspDst,
      l ∈ g.2} = {l | ∃ g ∈ buildGroups env s.lsps s.lspSrc s.lspDst, l ∈ g.2} := by
    rw [resetSim_lspSrc, resetSim_lspDst]; rfl
  rw [hP] at h1
  obtain ⟨r, u, rfl, hres⟩ := h1.tw
  have hk1 : s1.kind = s.kind := h1.frame.kind
  have hdm1 : s1.dmds = s.dmds := h1.frame.dmds
  have hif1 : s1.ifs = s.ifs := h1.frame.ifs
  have hid1 : ∀ i, (s1.ifc i).cktId = (s.ifc i).cktId := fun i => by
    have := h1.frame.ifc i
    rw [this]
    have e2 := (startLsps_frame env s.resetSim).ifc i
    show ((startLsps env s.resetSim).ifc i).cktId = _
    rw [e2]
    show (if i ∈ s.ifs then _ else _ : Ifc).cktId = _
    split <;> rfl
  refine rwp_bind (rwp_mono (rt_routeDemands (by exact hkind.trans hk1.symm) env) ?_)
  rintro _ _ s2 _ ⟨det, rfl, hf2, hdet⟩
  refine rwp_mono (validate_twist env ?_ ?_ ?_) ?_
  · show t.kind = s2.kind
    rw [hf2.kind, hk1, hkind]
  · intro hk i hi
    rw [hf2.kind, hk1] at hk
    rw [hf2.ifs, hif1] at hi
    rw [(hf2.ckt i).1, hid1]
    exact h.ids hk i hi
  · intro l hl hr
    rw [hf2.lsp] at hr ⊢
    rw [hf2.lsps] at hl
    have : l ∈ {l | ∃ g ∈ buildGroups env s.lsps s.lspSrc s.lspDst, l ∈ g.2} := by
      by_contra hn
      rw [h1.rest l hl hn] at hr
      cases hr
    exact (hres l this).1
  rintro _ _ s3 t3 ⟨hc, hck⟩
  obtain ⟨id, inC, ck, rfl, hin, hid⟩ := hc.tw
  have hl3 : ∀ l, (∃ g ∈ buildGroups env s.lsps s.lspSrc s.lspDst, l ∈ g.2) →
      (s3.lsp l).reserved = r l ∧ (s3.lsp l).setup = u l := by
    intro l hl
    rw [hc.frame.lsp, hf2.lsp]
    exact ⟨(hres l hl).1.symm, (hres l hl).2.symm⟩
  have hgrp : ∀ l, (∃ g ∈ buildGroups env s.lsps s.lspSrc s.lspDst, l ∈ g.2) →
      ({ s3.lsp l with reserved := r l, setup := u l } : Lsp) = s3.lsp l := by
    intro l hl
    rw [← (hl3 l hl).1, ← (hl3 l hl).2]
  refine ⟨⟨rfl, rfl, rfl, fun _ _ => rfl, fun d hd hp => ?_, fun _ _ => rfl, fun _ _ => rfl,
    fun _ _ => rfl, fun _ _ => rfl, fun l hl hr => hgrp l ?_, hck, rfl⟩, hgrp⟩
  · show det d = _
    rw [hc.frame.dmd] at hp ⊢
    rw [hc.frame.dmds, hf2.dmds] at hd
    exact hdet d hd hp
  · by_contra hn
    rw [hc.frame.lsps, hf2.lsps] at hl
    rw [hc.frame.lsp, hf2.lsp, h1.rest l hl hn] at hr
    cases hr

/-- **C55** `update_simulation()` reads nothing that earlier simulations left behind: started
in two states that differ only in such results it returns with the same results, or raises the
same exception. -/
theorem C55_no_carry_over (env : Env) {s t : State} (hu : UniqueIfcKeys s) (h : SameConfig s t) :
    SameOutcome (updateSimulation env s) (updateSimulation env t) := by
  have := updateSimulation_twist env hu h
  unfold rwp at this
  unfold SameOutcome
  cases hs : updateSimulation env s <;> cases ht : updateSimulation env t <;>
    simp only [hs, ht] at this ⊢
  · exact this.1
  · exact this

/-- **C55** When the names of the end points cannot be confused, the unrouted LSPs agree in all
their attributes as well. -/
theorem C55_lsps (env : Env) {s t s' t' : State} (hu : UniqueIfcKeys s) (hk : KeysDistinct s)
    (h : SameConfig s t) (hs : updateSimulation env s = .ok () s')
    (ht : updateSimulation env t = .ok () t') : ∀ l ∈ s.lsps, t'.lsp l = s'.lsp l :=
  fun l hl => (rwp_ok (updateSimulation_twist env hu h) hs ht).2 l (mem_groups_all hk hl)

/-- the diamond with the remains of some other run on every object -/
def Ex.littered (k : Kind) : State :=
  { Ex.diamond k with
    ifc := fun i => if i ∈ (Ex.diamond k).ifs then
      { (Ex.diamond k).ifc i with traffic := .val 77, reservedRaw := 5, inCkt := true }
      else (Ex.diamond k).ifc i
    dmd := fun d => if d ∈ (Ex.diamond k).dmds then
      { (Ex.diamond k).dmd d with path := some [[.ifc 3]], detail := some [] }
      else (Ex.diamond k).dmd d
    lsp := fun l => if l ∈ (Ex.diamond k).lsps then
      { (Ex.diamond k).lsp l with path := .routed [3] 1 1, reserved := .val 99, setup := some 99 }
      else (Ex.diamond k).lsp l
    circuits := [(0, 0)]
    groups := [("A-D", [2])] }

theorem Ex.littered_same (k : Kind) : SameConfig (Ex.diamond k) (Ex.littered k) := by
  refine ⟨rfl, fun i hi => ?_, fun _ i hi => ?_, fun d hd => ?_, fun l hl => ?_, fun i hi => ?_,
    fun d hd => ?_, fun l hl => ?_⟩
  · simp only [Ex.littered, hi, if_true]
  · show (if i ∈ _ then _ else _ : Ifc).cktId = _
    rw [if_pos hi]
  · simp only [Ex.littered, hd, if_true]
  · simp only [Ex.littered, hl, if_true]
  · simp only [Ex.littered, hi, if_false]
  · simp only [Ex.littered, hd, if_false]
  · simp only [Ex.littered, hl, if_false]

/-- the hypotheses hold for the littered diamond, whose run succeeds with two routed LSPs -/
example (k : Kind) : UniqueIfcKeys (Ex.diamond k) ∧ KeysDistinct (Ex.diamond k) ∧
    SameConfig (Ex.diamond k) (Ex.littered k) ∧
    raised (updateSimulation Env.default) (Ex.diamond k) = none ∧
    raised (updateSimulation Env.default) (Ex.littered k) = none ∧
    ((finalState (updateSimulation Env.default) (Ex.littered k)).dmd 0).path =
      some [[.lsp 0], [.lsp 1]] ∧
    ((finalState (updateSimulation Env.default) (Ex.littered k)).ifc 8).reservedRaw = 4 := by
  refine ⟨?_, ?_, Ex.littered_same k, ?_, ?_, ?_, ?_⟩ <;> cases k <;> decide +kernel

/-- A–B and an isolated node C, to which the demand leads -/
def Ex.isolated (k : Kind) : State := Ex.mk k
  [{ name := "A" }, { name := "B" }, { name := "C" }] (Ex.link "ab" 0 1 10 100 1)
  [{ src := 0, dst := 2, traffic := 4, name := "x" }] [] []

/-- **C55** is false for `path_detail`: a demand that cannot be routed keeps the details of an
earlier simulation. -/
theorem C55_path_detail_false (k : Kind) : ∃ env s t s' t', s.kind = k ∧ UniqueIfcKeys s ∧
    SameConfig s t ∧ updateSimulation env s = .ok () s' ∧ updateSimulation env t = .ok () t' ∧
    ∃ d ∈ s.dmds, (s'.dmd d).path = none ∧ (t'.dmd d).detail ≠ (s'.dmd d).detail := by
  refine ⟨Env.default, Ex.isolated k, { Ex.isolated k with
    dmd := fun d => if d = 0 then { (Ex.isolated k).dmd d with detail := some [] }
      else (Ex.isolated k).dmd d }, _, _, rfl, ?_, ⟨rfl, fun _ _ => rfl, fun _ _ _ => rfl, ?_,
      fun _ _ => rfl, fun _ _ => rfl, ?_, fun _ _ => rfl⟩, ok_of_raised ?_, ok_of_raised ?_,
      0, ?_, ?_, ?_⟩
  · cases k <;> decide +kernel
  · intro d hd
    by_cases h : d = 0
    · simp only [h, if_true]
    · simp only [h, if_false]
  · intro d hd
    have h : d ≠ 0 := by
      rintro rfl
      exact hd (by cases k <;> decide +kernel)
    simp only [h, if_false]
  all_goals cases k <;> decide +kernel

/-- that state is reached by a first simulation, a failure and a second simulation -/
example (k : Kind) :
    let s := finalState (updateSimulation Env.default) (Ex.diamond k)
    let t := finalState (failNode "C") s
    let u := finalState (updateSimulation Env.default) t
    raised (updateSimulation Env.default) t = none ∧
    (s.dmd 1).path = some [[.ifc 4]] ∧ (u.dmd 1).path = none ∧
    (u.dmd 1).detail = (s.dmd 1).detail ∧ (s.dmd 1).detail ≠ none := by
  refine ⟨?_, ?_, ?_, ?_, ?_⟩ <;> cases k <;> decide +kernel

/-- **C73** `update_simulation()` leaves the topology and the configuration as they were, whether
it returns or raises. -/
theorem C73_inputs_kept (env : Env) (s : State) :
    SameInputs s (finalState (updateSimulation env) s) := by
  have := inputs_simulate env s
  unfold wp at this
  unfold finalState
  cases hx : updateSimulation env s <;> simp only [hx] at this ⊢ <;> exact this

/-- a PerformanceModel with parallel links and an LSP: the run routes the LSP and the demand, then
raises in the validation -/
def Ex.halfway (k : Kind) : State := Ex.mk k
  [{ name := "A" }, { name := "B" }] (Ex.link "ab" 0 1 10 100 1 ++ Ex.link "ac" 0 1 10 50 2)
  [{ src := 0, dst := 1, traffic := 4, name := "x" }] [{ src := 0, dst := 1, name := "k" }] []

/-- runs that raise, after results have changed, and runs that return -/
example : raised (updateSimulation Env.default) (Ex.halfway .perf) ≠ none ∧
    ((finalState (updateSimulation Env.default) (Ex.halfway .perf)).dmd 0).path =
      some [[.lsp 0]] ∧
    raised (updateSimulation Env.default) (Ex.diamond .perf) = none ∧
    ((finalState (updateSimulation Env.default) (Ex.diamond .perf)).dmd 0).path =
      some [[.lsp 0], [.lsp 1]] :=
  ⟨by decide +kernel, by decide +kernel, by decide +kernel, by decide +kernel⟩

end NTM
