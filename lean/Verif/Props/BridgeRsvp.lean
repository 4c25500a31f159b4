import Verif.Props.Bridge
import Verif.Props.Accept

/-!
# C119: what is reserved on a bridge
-/

namespace NTM

open Spec

/-- the bandwidth a routed LSP holds, in tenths as interfaces book it; nothing if it has no path -/
def Spec.holds (s : State) (l : ℕ) : ℚ :=
  match (s.lsp l).path, (s.lsp l).reserved with
  | .routed _ _ _, .val q => pyRound 1 q
  | _, _ => 0

/-- **C119** Where all circuits between a set of nodes and the rest connect the same two nodes, an
LSP's path crosses from the set to the rest if and only if the LSP leads from the set to the
rest (both classes). -/
theorem C119_bridge_lsps {env : Env} {s s' : State} (ht : Tidy s)
    (hrun : updateSimulation env s = .ok () s') {W : String → Bool} (hw : Bridge s' W) {l : ℕ}
    (hl : l ∈ s'.lsps) {p : List ℕ} {c : ℕ} {m : ℚ} (hp : (s'.lsp l).path = .routed p c m) :
    (∃ i ∈ p, W (s'.tail i) = true ∧ W (s'.head i) = false) ↔
      W (s'.lspSrc l) = true ∧ W (s'.lspDst l) = false := by
  have hf := C116_lsp_loop_free ht hrun hl hp
  constructor
  · rintro ⟨i, hi, h1, h2⟩
    exact LoopFree.bridge hf hw hi h1 h2
  · rintro ⟨h1, h2⟩
    obtain ⟨q, ⟨g1, -⟩, g2, -⟩ := hf
    obtain ⟨i, hi, e⟩ := route_leaves g1 h1 h2
    exact ⟨i, g2 i hi, e⟩

/-- **C119** Where one circuit alone connects a set of nodes to the rest, the bandwidth reserved on
it in each direction is what the LSPs that lead that way hold, to a tenth (both classes;
`fun u => !W u` gives the other direction). -/
theorem C119_bridge_reserved {env : Env} {s s' : State} (ht : Tidy s) (hu : UniqueIfcKeys s')
    (hrun : updateSimulation env s = .ok () s') {W : String → Bool} (hw : Bridge s' W) {i : ℕ}
    (hi : outOf s' W = [i]) :
    s'.reservedBw i = pyRound 1 ((s'.lsps.filter fun l => W (s'.lspSrc l) && !W (s'.lspDst l)).map
      (holds s')).sum := by
  obtain ⟨s1, Δ, h⟩ := sim_spec ht.dmds ht.ends ht.ckts hrun
  have him : i ∈ outOf s' W := by rw [hi]; simp
  obtain ⟨hif, hib⟩ := List.mem_filter.1 him
  simp only [Bool.and_eq_true, Bool.not_eq_true'] at hib
  have hn : s'.ifs.Nodup := by rw [h.cfg.ifs]; exact ht.ifs
  rw [((core_iff hn).1 h.valid.core).2.2.2.1 i hif, sum_filter_ite]
  refine congrArg _ (congrArg _ (List.map_congr_left fun l hl => ?_))
  rcases h.basic ht (h.cfg.lsps ▸ hl) with g | ⟨p, c, m, b, g1, g2, -, g3, g4⟩
  · unfold booked holds
    rw [g]
    simp
  · have hx := C119_bridge_lsps ht hrun hw hl g1
    have hiff : i ∈ p ↔ W (s'.lspSrc l) = true ∧ W (s'.lspDst l) = false := by
      rw [← hx]
      constructor
      · exact fun h => ⟨i, h, hib⟩
      · rintro ⟨j, hj, e1, e2⟩
        have : j ∈ outOf s' W := List.mem_filter.2 ⟨g4 j hj, by simp [e1, e2]⟩
        rw [hi, List.mem_singleton] at this
        exact this ▸ hj
    have hc : (p.countP fun j => s'.ifcKey j = s'.ifcKey i) = p.count i := by
      unfold List.count
      refine List.countP_congr fun j hj => ?_
      simp only [decide_eq_true_eq, beq_iff_eq]
      exact ⟨fun e => hu j (g4 j hj) i hif e, fun e => by rw [e]⟩
    unfold booked holds
    rw [g1, g2]
    simp only []
    rw [hc]
    by_cases hip : i ∈ p
    · have := hiff.1 hip
      rw [List.count_eq_one_of_mem g3 hip, if_pos (by simp [this])]
      simp
    · rw [List.count_eq_zero_of_not_mem hip, if_neg]
      · simp
      · simpa [hiff] using hip

/-- the LSP of `Ex.joined` reserves 4 on the circuit C-D, and one from B to D another 2.5 -/
def Ex.joinedLsps (k : Kind) : State :=
  { Ex.joined k with
    lsps := [0, 1, 2]
    lsp := fun l => match l with
      | 0 => (Ex.joined k).lsp 0
      | 1 => { src := 1, dst := 3, name := "m", configured := some (5 / 2) }
      | _ => { src := 0, dst := 2, name := "n", configured := some 1 } }

example (k : Kind) : Tidy (Ex.joinedLsps k) ∧
    raised (updateSimulation Env.default) (Ex.joinedLsps k) = none ∧
    let s' := finalState (updateSimulation Env.default) (Ex.joinedLsps k)
    UniqueIfcKeys s' ∧ Bridge s' Ex.firstHalf ∧ outOf s' Ex.firstHalf = [6] ∧
    (s'.lsp 0).path ≠ .unrouted ∧ (s'.lsp 2).path ≠ .unrouted ∧ s'.reservedBw 6 = 13 / 2 := by
  cases k <;> exact ⟨by decide +kernel, by decide +kernel, by decide +kernel,
    ⟨"C", "D", by decide +kernel⟩, by decide +kernel, by decide +kernel, by decide +kernel,
    by decide +kernel⟩

end NTM
