import Verif.Proof.Compare
import Verif.Proof.TwistDmd
import Verif.Props.Lsp

/-!
# C14: the two model classes agree on networks without parallel links
-/

namespace NTM

open Spec

/-- the overlay that changes the model class only -/
def Ov.class (s : State) (k : Kind) : Ov :=
  ⟨k, fun l => (s.lsp l).reserved, fun l => (s.lsp l).setup, fun d => (s.dmd d).detail,
    fun i => (s.ifc i).cktId, fun i => (s.ifc i).inCkt, s.circuits, s.srlg, s.srlgs⟩

theorem resetSim_class (s : State) (k : Kind) :
    ({ s with kind := k } : State).resetSim = s.resetSim.twist (Ov.class s.resetSim k) := rfl

theorem Plain.reset {s : State} (h : Plain s) : Plain s.resetSim := by
  have e : ∀ i, (s.resetSim.ifc i).cost = (s.ifc i).cost := fun i => by
    show (if i ∈ s.ifs then _ else _ : Ifc).cost = _
    split <;> rfl
  have et : ∀ i, s.resetSim.tail i = s.tail i := fun i => by
    show (s.node (if i ∈ s.ifs then _ else _ : Ifc).node).name = _
    split <;> rfl
  have eh : ∀ i, s.resetSim.head i = s.head i := fun i => by
    show (s.node (if i ∈ s.ifs then _ else _ : Ifc).remote).name = _
    split <;> rfl
  refine ⟨h.nodup, fun i hi => ?_, fun i hi j hj h1 h2 => ?_⟩
  · rw [e]; exact h.costs i hi
  · rw [et, et] at h1
    rw [eh, eh] at h2
    exact h.single i hi j hj h1 h2

theorem resetSim_keys {s : State} (h : UniqueIfcKeys s) : UniqueIfcKeys s.resetSim := by
  have e : ∀ i, s.resetSim.ifcKey i = s.ifcKey i := fun i => by
    show ((if i ∈ s.ifs then _ else _ : Ifc).name,
      (s.node (if i ∈ s.ifs then _ else _ : Ifc).node).name) = _
    split <;> rfl
  intro i hi j hj hk
  rw [e, e] at hk
  exact h i hi j hj hk

theorem resetSim_lsp_path {s : State} {l : ℕ} (hl : l ∈ s.lsps) :
    (s.resetSim.lsp l).path = .unrouted := by
  show (if l ∈ s.lsps then _ else _ : Lsp).path = _
  rw [if_pos hl]

/-- **C14** On a network without parallel links and IGP shortcuts, with the same random draws,
the two model classes route every LSP alike (path, reservation, set-up bandwidth), reserve the
same bandwidth on every interface and give every demand the same set of paths, so in
particular the same LSPs if it rides any. -/
theorem C14_classes_agree {env : Env} {s p' f' : State}
    (hp : Tidy { s with kind := .perf }) (hf : Tidy { s with kind := .flex })
    (hs : SingleLinks s) (hu : UniqueIfcKeys s) (hsc : NoShortcuts s)
    (hrp : updateSimulation env { s with kind := .perf } = .ok () p')
    (hrf : updateSimulation env { s with kind := .flex } = .ok () f') :
    SameLspResults p' f' ∧ ∀ d ∈ s.dmds, SamePaths (p'.dmd d).path (f'.dmd d).path := by
  obtain ⟨p1, Δ, h1⟩ := sim_spec hp.dmds hp.ends hp.ckts hrp
  obtain ⟨f1, Δ', h2⟩ := sim_spec hf.dmds hf.ends hf.ckts hrf
  have hplain : Plain s := ⟨hp.ifs, hp.costs, hs⟩
  have hcmp0 : Comparable (Ov.class s.resetSim .flex) ({ s with kind := .perf } : State).resetSim :=
    ⟨.inr (Plain.reset (s := { s with kind := .perf }) ⟨hplain.nodup, hplain.costs, hplain.single⟩),
      resetSim_keys (s := { s with kind := .perf }) hu⟩
  have hcmp := hcmp0.start env
  have hrel := rwp_ok (routeLsps_twist env (s := ({ s with kind := .perf } : State).resetSim)
    (o := Ov.class s.resetSim .flex) (P := Set.univ) hcmp0 rfl
    (fun l hl => resetSim_lsp_path hl) (fun l _ => ⟨rfl, rfl⟩)) h1.lspRun h2.lspRun
  obtain ⟨r, u, e1, hP⟩ := hrel.tw
  have elsp : f1.lsp = p1.lsp := by
    funext l
    exact hrel.lsp (.inl trivial)
  have eres : f1.reservedBw = p1.reservedBw := by rw [e1]; rfl
  have n1 := h1.net
  have n2 := h2.net
  have hrid : ∀ key ls, RidingOf f' key ls ↔ RidingOf p' key ls := by
    intro key ls
    obtain ⟨D, T, C, B, I, hov⟩ := h1.over
    obtain ⟨D', T', C', B', I', hov'⟩ := h2.over
    rw [hov, hov', RidingOf.over, RidingOf.over, e1]
    exact RidingOf.twist (by exact (hrel.comparable hcmp).kind)
  have hres : f'.reservedBw = p'.reservedBw := by rw [n1.2.1, n2.2.1, eres]
  have hn : SameNetwork { s with kind := .perf } { s with kind := .flex } :=
    ⟨rfl, .refl _, .refl _, fun _ => rfl⟩
  have hd : SameDemands 1 { s with kind := .perf } { s with kind := .flex } :=
    ⟨.refl _, fun d => by simp⟩
  refine ⟨⟨?_, fun l _ => ?_, fun i _ => by rw [hres]⟩, fun d hdm => ?_⟩
  · rw [h1.cfg.lsps, h2.cfg.lsps]
  · rw [n1.2.2.1, n2.2.2.1, elsp]
  · rcases h1.placed hp (fun h => by cases h) (d := d) hdm with ⟨ls, hne, hr, hpa⟩ | ⟨hr, -⟩
    · rcases h2.placed hf (fun _ => hsc) (d := d) hdm with ⟨ls', hne', hr', hpa'⟩ | ⟨hr', -⟩
      · rw [hpa, hpa', ((hrid _ _).1 hr').unique hr]
        exact .refl _
      · exact absurd (hr.unique ((hrid _ _).1 hr')) hne
    · exact (compare_igp h1 h2 hp hf (fun h => by cases h) (fun _ => hsc) hn hd
        (usable_same (hn.run h1.cfg h2.cfg) fun i _ => by rw [hres]) hdm hr ((hrid _ _).2 hr)).1

/-- **C14** for path queries: `get_shortest_path` answers alike. -/
theorem C14_queries_agree {s : State} (hn : s.ifs.Nodup) (hc : PosCosts s) (hs : SingleLinks s)
    (a b : String) (needed : ℚ) :
    ({ s with kind := .perf } : State).getShortestPath a b needed =
      ({ s with kind := .flex } : State).getShortestPath a b needed :=
  twist_getShortestPath (s := { s with kind := .flex }) (o := Ov.class s .perf)
    (.inr ⟨hn, hc, hs⟩) a b needed

/-- both classes on the diamond: two LSPs are routed, one demand rides them, the other one
is routed over interfaces -/
example :
    let s := Ex.diamond .perf
    let p' := finalState (updateSimulation Env.default) { s with kind := .perf }
    let f' := finalState (updateSimulation Env.default) { s with kind := .flex }
    Tidy { s with kind := .perf } ∧ Tidy { s with kind := .flex } ∧ SingleLinks s ∧
    UniqueIfcKeys s ∧ NoShortcuts s ∧
    updateSimulation Env.default { s with kind := .perf } = .ok () p' ∧
    updateSimulation Env.default { s with kind := .flex } = .ok () f' ∧
    (f'.lsp 0).path = .routed [8] 20 10 ∧ (p'.lsp 0).path = (f'.lsp 0).path ∧
    (f'.lsp 1).path.saysUnrouted = false ∧
    (p'.dmd 0).path = some [[.lsp 0], [.lsp 1]] ∧ (p'.dmd 1).path = some [[.ifc 4]] ∧
    (s.getShortestPath "A" "D" 20).paths = [[0, 2], [4, 6]] := by
  intro s p' f'
  exact ⟨by decide +kernel, by decide +kernel, by decide +kernel, by decide +kernel,
    by decide +kernel, ok_of_raised (by decide +kernel), ok_of_raised (by decide +kernel),
    by decide +kernel, by decide +kernel, by decide +kernel, by decide +kernel,
    by decide +kernel, by decide +kernel⟩

end NTM
