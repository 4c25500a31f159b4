import Verif.Spec.Results

/-!
# Decision procedures for the specification vocabulary

Used only to check concrete examples by kernel computation.
-/

namespace NTM.Spec

deriving instance DecidableEq for Except

instance (s : State) (bw : ℚ) (i : ℕ) : Decidable (Usable s bw i) := by
  unfold Usable; infer_instance

instance (s : State) (bw : ℚ) (i : ℕ) : Decidable (RsvpUsable s bw i) := by
  unfold RsvpUsable; infer_instance

instance (s : State) : Decidable (SingleLinks s) := by unfold SingleLinks; infer_instance

instance (s : State) : Decidable (PosCosts s) := by unfold PosCosts; infer_instance

instance (s : State) (i j : ℕ) : Decidable (Opposite s i j) := by unfold Opposite; infer_instance

instance (s : State) : Decidable (CktIdsSet s) := by unfold CktIdsSet; infer_instance

instance (s : State) : Decidable (EndsAgree s) := by unfold EndsAgree; infer_instance

instance (s : State) : Decidable (NoShortcuts s) := by unfold NoShortcuts; infer_instance

instance (s : State) : Decidable (UniqueSrlgNames s) := by unfold UniqueSrlgNames; infer_instance

instance (s : State) : Decidable (IdsUniquePerNode s) := by unfold IdsUniquePerNode; infer_instance

instance (s : State) : Decidable (UniqueIfcKeys s) := by unfold UniqueIfcKeys; infer_instance

instance (s : State) : Decidable (KeysDistinct s) := by unfold KeysDistinct; infer_instance

instance (s : State) (l : ℕ) : Decidable (IsRouted s l) :=
  match h : (s.lsp l).path with
  | .routed p c hd => isTrue ⟨p, c, hd, h⟩
  | .initial => isFalse (by rintro ⟨_, _, _, e⟩; rw [h] at e; cases e)
  | .unrouted => isFalse (by rintro ⟨_, _, _, e⟩; rw [h] at e; cases e)
  | .blank => isFalse (by rintro ⟨_, _, _, e⟩; rw [h] at e; cases e)

instance (s : State) (l i : ℕ) : Decidable (OnPath s l i) :=
  match h : (s.lsp l).path with
  | .routed p c hd =>
    if hi : i ∈ p then isTrue ⟨p, c, hd, h, hi⟩
    else isFalse (by rintro ⟨p', _, _, e, hi'⟩; rw [h] at e; cases e; exact hi hi')
  | .initial => isFalse (by rintro ⟨_, _, _, e, _⟩; rw [h] at e; cases e)
  | .unrouted => isFalse (by rintro ⟨_, _, _, e, _⟩; rw [h] at e; cases e)
  | .blank => isFalse (by rintro ⟨_, _, _, e, _⟩; rw [h] at e; cases e)

instance (s : State) : Decidable (AllOrNone s) := by unfold AllOrNone; infer_instance

instance (s : State) : Decidable (NonnegTraffic s) := by unfold NonnegTraffic; infer_instance

instance (s : State) : Decidable (LedgerBalanced s) := by unfold LedgerBalanced; infer_instance

instance (s : State) (a b : String) (l : ℕ) : Decidable (LspBetween s a b l) := by
  unfold LspBetween; infer_instance

theorem tidy_iff (s : State) : Tidy s ↔ s.nodes.Nodup ∧ s.ifs.Nodup ∧ s.dmds.Nodup ∧ s.lsps.Nodup ∧
    PosCosts s ∧ EndsAgree s ∧ CktIdsSet s :=
  ⟨fun h => ⟨h.1, h.2, h.3, h.4, h.5, h.6, h.7⟩, fun h => ⟨h.1, h.2.1, h.2.2.1, h.2.2.2.1,
    h.2.2.2.2.1, h.2.2.2.2.2.1, h.2.2.2.2.2.2⟩⟩

instance (s : State) : Decidable (Tidy s) := decidable_of_iff' _ (tidy_iff s)

/-- a computation that did not raise completed -/
theorem ok_of_raised {x : Py Unit} {s : State} (h : raised x s = none) :
    x s = .ok () (finalState x s) := by
  unfold raised at h
  unfold finalState
  split at h
  · next a s' e => rw [e]
  · cases h

end NTM.Spec
