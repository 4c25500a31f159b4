import Verif.Proof.FailHist
import Verif.Spec.Inputs

/-!
# A simulation keeps its inputs
-/

namespace NTM

open Spec

theorem SameInputs.frame : Frame SameInputs where
  refl s := ⟨rfl, rfl, rfl, rfl, rfl, rfl, fun _ => rfl, fun _ => rfl,
    fun _ => ⟨rfl, rfl, rfl, rfl, rfl, rfl, rfl, rfl⟩, fun _ => id, fun _ _ => rfl,
    fun _ => ⟨rfl, rfl, rfl, rfl, rfl, rfl⟩, fun _ => ⟨rfl, rfl, rfl, rfl⟩⟩
  trans {s t u} h g :=
    { kind := g.kind.trans h.kind, nodes := g.nodes.trans h.nodes, ifs := g.ifs.trans h.ifs
      dmds := g.dmds.trans h.dmds, lsps := g.lsps.trans h.lsps, srlgs := g.srlgs.trans h.srlgs
      node := fun n => (g.node n).trans (h.node n)
      srlg := fun n => (g.srlg n).trans (h.srlg n)
      ifc := fun i => by
        obtain ⟨a1, a2, a3, a4, a5, a6, a7, a8⟩ := h.ifc i
        obtain ⟨b1, b2, b3, b4, b5, b6, b7, b8⟩ := g.ifc i
        exact ⟨b1.trans a1, b2.trans a2, b3.trans a3, b4.trans a4, b5.trans a5, b6.trans a6,
          b7.trans a7, b8.trans a8⟩
      failed := fun i hi => g.failed i (h.failed i hi)
      cktId := fun hk i => (g.cktId (h.kind.trans hk) i).trans (h.cktId hk i)
      lsp := fun i => by
        obtain ⟨a1, a2, a3, a4, a5, a6⟩ := h.lsp i
        obtain ⟨b1, b2, b3, b4, b5, b6⟩ := g.lsp i
        exact ⟨b1.trans a1, b2.trans a2, b3.trans a3, b4.trans a4, b5.trans a5, b6.trans a6⟩
      dmd := fun i => by
        obtain ⟨a1, a2, a3, a4⟩ := h.dmd i
        obtain ⟨b1, b2, b3, b4⟩ := g.dmd i
        exact ⟨b1.trans a1, b2.trans a2, b3.trans a3, b4.trans a4⟩ }

theorem SameCfg.inputs {s t : State} (h : SameCfg s t) : SameInputs s t where
  kind := h.kind
  nodes := h.nodes
  ifs := h.ifs
  dmds := h.dmds
  lsps := h.lsps
  srlgs := h.srlgs
  node n := by rw [h.node]
  srlg n := by rw [h.srlg]
  ifc i := by rw [h.ifc i]; exact ⟨rfl, rfl, rfl, rfl, rfl, rfl, rfl, rfl⟩
  failed i hi := by rw [h.ifc i]; exact hi
  cktId _ i := by rw [h.ifc i]
  lsp i := by rw [h.lsp i]; exact ⟨rfl, rfl, rfl, rfl, rfl, rfl⟩
  dmd i := by rw [h.dmd i]; exact ⟨rfl, rfl, rfl, rfl⟩

theorem withCkt_inputs (s : State) (C : List (ℕ × ℕ)) (B : ℕ → Bool) (I : ℕ → CktId)
    (hI : s.kind = .flex → ∀ i, I i = (s.ifc i).cktId) : SameInputs s (s.withCkt C B I) :=
  { SameInputs.frame.refl s with
    ifc := fun _ => ⟨rfl, rfl, rfl, rfl, rfl, rfl, rfl, rfl⟩
    failed := fun _ h => h
    cktId := hI }

theorem repair_inputs (u : State) : SameInputs u u.repair :=
  { SameInputs.frame.refl u with
    ifc := fun i => by
      unfold State.repair State.repairOver
      simp only []
      split <;> exact ⟨rfl, rfl, rfl, rfl, rfl, rfl, rfl, rfl⟩
    failed := fun i h => by
      unfold State.repair State.repairOver
      simp only []
      split
      · rfl
      · exact h
    cktId := fun _ i => by
      unfold State.repair State.repairOver
      simp only []
      split <;> rfl }

theorem Paired.inputs {s u : State} (h : Paired s u) : SameInputs s u := by
  obtain ⟨B, I, hu⟩ := h.eq
  rw [hu]
  refine withCkt_inputs s _ B I fun hk i => ?_
  have := h.flexIds hk i
  rw [hu] at this
  exact this

theorem inputs_validate (env : Env) : Keeps SameInputs (validate env) := by
  intro s
  refine wp_mono (validate_spec env s) ?_ ?_
  · rintro _ t ⟨u, h1, rfl, -⟩
    exact SameInputs.frame.trans h1.inputs (repair_inputs u)
  · rintro _ t ⟨B, I, ⟨C, rfl, h1, -⟩ | ⟨u, h1, ht, -⟩⟩
    · exact withCkt_inputs s C B I h1
    · rcases ht with rfl | rfl
      · exact h1.inputs
      · exact SameInputs.frame.trans h1.inputs (repair_inputs u)

theorem inputs_simulate (env : Env) : Keeps SameInputs (updateSimulation env) := fun s =>
  stays_simBody env (SameInputs s) (fun _ _ h c => SameInputs.frame.trans h c.inputs)
    (fun t h => wp_mono (inputs_validate env t) (fun _ _ g => SameInputs.frame.trans h g)
      (fun _ _ g => SameInputs.frame.trans h g)) s (SameInputs.frame.refl s)

end NTM
