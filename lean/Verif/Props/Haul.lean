import Verif.Spec.Haul
import Verif.Props.Cut
import Verif.Proof.Compare

/-!
# C113: traffic times distance
-/

namespace NTM

open Spec

theorem weighted_mem {I : List ℕ} (hI : I.Nodup) (w : ℕ → ℚ) {p : List ℕ} (hp : p.Nodup)
    (hsub : ∀ i ∈ p, i ∈ I) (q : ℚ) :
    (I.map fun i => w i * if i ∈ p then q else 0).sum = q * (p.map w).sum := by
  rw [← List.sum_toFinset _ hI, ← List.sum_toFinset _ hp, Finset.mul_sum]
  have : p.toFinset = I.toFinset.filter fun i => i ∈ p := by
    ext i
    simp only [List.mem_toFinset, Finset.mem_filter]
    exact ⟨fun h => ⟨hsub i h, h⟩, fun h => h.2⟩
  rw [this, Finset.sum_filter]
  refine Finset.sum_congr rfl fun i _ => ?_
  split
  · ring
  · ring

theorem stretch_lsp (s : State) (w : ℕ → ℚ) (l : ℕ) :
    stretch s w (.lsp l) = ((s.lspIfs l).map w).sum := by
  show (match (s.lsp l).path with
    | .routed hops _ _ => (hops.map w).sum
    | _ => 0) = _
  unfold State.lspIfs
  cases (s.lsp l).path <;> rfl

theorem pathLength_ifc (s : State) (w : ℕ → ℚ) (q : List ℕ) :
    pathLength s w (q.map Item.ifc) = (q.map w).sum := by
  unfold pathLength
  rw [List.map_map]
  rfl

theorem pathLength_cost (s : State) (q : List ℕ) :
    pathLength s (costLength s) (q.map Item.ifc) = (totalCost (fun i => (s.ifc i).cost) q : ℚ) := by
  rw [pathLength_ifc]
  unfold totalCost
  induction q with
  | nil => rfl
  | cons a q ih => simp only [List.map_cons, List.sum_cons, ih]; push_cast; rfl

theorem IgpLoad.haul {s : State} {d : ℕ} {l : List (List ℕ)} {det : List PathInfo} {Δ : ℕ → ℚ}
    (h : IgpLoad s d l det Δ) (hk : s.kind = .flex) (hnd : s.ifs.Nodup) (w : ℕ → ℚ) :
    (s.ifs.map fun i => w i * Δ i).sum =
      (det.map fun x => x.traffic * pathLength s w x.items).sum := by
  have e : ∀ i, Δ i = Spec.carried det i := fun i => by rw [h.load, hk]
  rw [h.sum fun p t => t * pathLength s w p, ← List.sum_toFinset _ hnd]
  simp only [e, h.carried, Finset.mul_sum, pathLength_ifc]
  rw [Finset.sum_comm]
  refine Finset.sum_congr rfl fun q hq => ?_
  have hq := List.mem_toFinset.1 hq
  rw [List.sum_toFinset _ hnd]
  exact weighted_mem hnd w (List.Nodup.of_map _ (h.tails hq)) (fun i hi => h.paths_sub hq hi) _

theorem SimResult.haul {env : Env} {s s1 s' : State} {Δ : ℕ → ℕ → ℚ}
    (h : SimResult env s s1 s' Δ) (hk : s.kind = .flex) (ht : Tidy s) (hsc : NoShortcuts s)
    (w : ℕ → ℚ) {d : ℕ} (hd : d ∈ s.dmds) :
    (s'.ifs.map fun i => w i * Δ d i).sum = Spec.haul s' w d := by
  have hk' : s'.kind = .flex := h.cfg.kind.trans hk
  have hnd : s'.ifs.Nodup := by rw [h.cfg.ifs]; exact ht.ifs
  rcases h.placed ht (fun _ => hsc) hd with ⟨ls, g1, g2, g3⟩ | ⟨hr, -⟩
  · obtain ⟨hdet, hl⟩ := h.lspLoad ht hd g1 g2 g3
    unfold Spec.haul
    rw [g3, hdet]
    simp only [hl]
    unfold lspDetail
    rw [hk', List.map_map]
    have e : ∀ i, w i * (ls.map fun l => if crosses s' l i then (s'.dmd d).traffic / ls.length
        else 0).sum = (ls.map fun l => w i * if i ∈ s'.lspIfs l then
          (s'.dmd d).traffic / ls.length else 0).sum := by
      intro i
      rw [← List.sum_map_mul_left]
      refine congrArg _ (List.map_congr_left fun l _ => ?_)
      rw [crosses_eq]
      by_cases hi : i ∈ s'.lspIfs l <;> simp [hi]
    simp only [e]
    rw [sum_swap]
    refine congrArg _ (List.map_congr_left fun l hlm => ?_)
    obtain ⟨hls, -⟩ := h.lsp_mem hd g3 (List.mem_map.2 ⟨l, hlm, rfl⟩) (List.mem_singleton.2 rfl)
    rw [weighted_mem hnd w (h.lspIfs_nodup ht hls) ?_]
    · show _ = _ * pathLength s' w [Item.lsp l]
      unfold pathLength
      rw [List.map_singleton, List.sum_singleton, stretch_lsp]
    · intro i hi
      unfold State.lspIfs at hi
      rcases h.basic ht hls with e | ⟨p, c, hd, b, e, -, -, -, hsub⟩ <;> rw [e] at hi
      · cases hi
      · exact hsub i hi
  · rcases h.igp ht (fun _ => hsc) hd hr with ⟨p1, p2, -⟩ | ⟨l, det, p1, L⟩
    · unfold Spec.haul
      rw [p1]
      simp [p2]
    · have hno : ∀ p ∈ l.map (fun q => q.map Item.ifc), ∀ m, Item.lsp m ∉ p := by
        intro p hp m hm
        obtain ⟨q, -, rfl⟩ := List.mem_map.1 hp
        simp at hm
      obtain ⟨l', det', -, hdet, L'⟩ := h.igpLoad ht (fun _ => hsc) hd p1 hno
      rw [L'.haul hk' hnd w]
      unfold Spec.haul
      rw [p1, hdet]

/-- **C113** In a FlexModel without IGP shortcuts, with any lengths given to the interfaces: the
sum over the interfaces of length times traffic is the sum over the demands, and over their
paths, of path traffic times path length (LSPs counting with all their hops). -/
theorem C113_traffic_distance {env : Env} {s s' : State} (hk : s.kind = .flex) (ht : Tidy s)
    (hsc : NoShortcuts s) (hrun : updateSimulation env s = .ok () s') (w : ℕ → ℚ) :
    totalHaul s' w = (s'.dmds.map (haul s' w)).sum := by
  obtain ⟨s1, Δ, h⟩ := sim_spec ht.dmds ht.ends ht.ckts hrun
  unfold totalHaul
  rw [List.map_congr_left fun i hi => by rw [h.trafficValue_eq i hi, ← List.sum_map_mul_left],
    sum_swap, h.cfg.dmds]
  exact congrArg _ (List.map_congr_left fun d hd => h.haul hk ht hsc w hd)

/-- **C113** Without LSPs, the sum over the interfaces of cost times traffic is the sum over the
demands of traffic times the cost of a cheapest path. -/
theorem C113_cost_weighted {env : Env} {s s' : State} (hk : s.kind = .flex) (ht : Tidy s)
    (hsc : NoShortcuts s) (hl : s.lsps = []) (hrun : updateSimulation env s = .ok () s') :
    totalHaul s' (costLength s') =
      (s'.dmds.map fun d => (s'.dmd d).traffic * firstPathCost s' d).sum := by
  rw [C113_traffic_distance hk ht hsc hrun]
  obtain ⟨s1, Δ, h⟩ := sim_spec ht.dmds ht.ends ht.ckts hrun
  have hk' : s'.kind = .flex := h.cfg.kind.trans hk
  obtain ⟨-, hr⟩ := h.noLsps hl
  rw [h.cfg.dmds]
  refine congrArg _ (List.map_congr_left fun d hd => ?_)
  rcases h.igp ht (fun _ => hsc) hd (hr _) with ⟨p1, p2, -⟩ | ⟨l, det, p1, -⟩
  · unfold Spec.haul firstPathCost
    rw [p1]
    simp
  · have hno : ∀ p ∈ l.map (fun q => q.map Item.ifc), ∀ m, Item.lsp m ∉ p := by
      intro p hp m hm
      obtain ⟨q, -, rfl⟩ := List.mem_map.1 hp
      simp at hm
    obtain ⟨l', det', e, hdet, L⟩ := h.igpLoad ht (fun _ => hsc) hd p1 hno
    have e := List.map_injective_iff.2 ifc_map_injective e
    subst e
    unfold Spec.haul firstPathCost
    rw [p1, hdet]
    cases l with
    | nil => exact absurd rfl L.ne
    | cons q0 l =>
      simp only [List.map_cons]
      rw [L.sum fun p t => t * pathLength s' (costLength s') p]
      have hc : ∀ q ∈ q0 :: l, pathLength s' (costLength s') (q.map Item.ifc) =
          pathLength s' (costLength s') (q0.map Item.ifc) := by
        intro q hq
        have c1 := (L.mem q).1 hq
        have c2 := (L.mem q0).1 (by simp)
        have := le_antisymm (c1.2 _ c2.1) (c2.2 _ c1.1)
        rw [pathLength_cost, pathLength_cost, this]
      rw [Finset.sum_congr rfl fun q hq => by rw [hc q (List.mem_toFinset.1 hq)],
        ← Finset.sum_mul, ← L.total, L.flex_total hk']

/-- **C113** No other routing has a smaller sum: if the traffic of every routed demand is split in
any way over paths of usable interfaces from its source to its destination, the sum of path
traffic times path cost is at least the sum over the interfaces of cost times traffic. -/
theorem C113_least_cost {env : Env} {s s' : State} (hk : s.kind = .flex) (ht : Tidy s)
    (hsc : NoShortcuts s) (hl : s.lsps = []) (hrun : updateSimulation env s = .ok () s')
    (alt : ℕ → List (List ℕ × ℚ))
    (hpath : ∀ d ∈ s'.dmds, ∀ x ∈ alt d, 0 ≤ x.2 ∧
      PathOver s' (Usable s' 0) (s'.dmdSrc d) x.1 (s'.dmdDst d))
    (hsum : ∀ d ∈ s'.dmds, (s'.dmd d).path ≠ none →
      ((alt d).map fun x => x.2).sum = (s'.dmd d).traffic) :
    totalHaul s' (costLength s') ≤ (s'.dmds.map fun d =>
      ((alt d).map fun x => x.2 * (totalCost (fun i => (s'.ifc i).cost) x.1 : ℚ)).sum).sum := by
  rw [C113_cost_weighted hk ht hsc hl hrun]
  obtain ⟨s1, Δ, h⟩ := sim_spec ht.dmds ht.ends ht.ckts hrun
  obtain ⟨-, hr⟩ := h.noLsps hl
  refine List.sum_le_sum fun d hd => ?_
  have hd0 : d ∈ s.dmds := h.cfg.dmds ▸ hd
  rcases h.igp ht (fun _ => hsc) hd0 (hr _) with ⟨p1, p2, -⟩ | ⟨l, det, p1, L⟩
  · have : firstPathCost s' d = 0 := by unfold firstPathCost; rw [p1]
    rw [this, mul_zero]
    refine List.sum_nonneg fun y hy => ?_
    obtain ⟨x, hx, rfl⟩ := List.mem_map.1 hy
    exact mul_nonneg (hpath d hd x hx).1 (Nat.cast_nonneg _)
  · rw [← hsum d hd (by rw [p1]; exact Option.some_ne_none _), ← List.sum_map_mul_right]
    refine List.sum_le_sum fun x hx => ?_
    obtain ⟨h0, hroute⟩ := hpath d hd x hx
    refine mul_le_mul_of_nonneg_left ?_ h0
    unfold firstPathCost
    rw [p1]
    cases l with
    | nil => exact absurd rfl L.ne
    | cons q0 l =>
      simp only [List.map_cons]
      rw [pathLength_cost]
      exact_mod_cast ((L.mem q0).1 (by simp)).2 _ hroute

example : let s := Ex.diamond .flex
    let s' := finalState (updateSimulation Env.default) s
    Tidy s ∧ NoShortcuts s ∧ raised (updateSimulation Env.default) s = none ∧
    totalHaul s' (costLength s') = 510 ∧ totalHaul s' (fun _ => 1) = 39 := by
  refine ⟨?_, ?_, ?_, ?_, ?_⟩ <;> decide +kernel

example : let s := Ex.fanOut .flex 12
    let s' := finalState (updateSimulation Env.default) s
    Tidy s ∧ NoShortcuts s ∧ s.lsps = [] ∧ raised (updateSimulation Env.default) s = none ∧
    totalHaul s' (costLength s') = 360 ∧ firstPathCost s' 0 = 30 ∧ totalHaul s' (fun _ => 1) = 30 := by
  refine ⟨?_, ?_, ?_, ?_, ?_, ?_, ?_⟩ <;> decide +kernel

/-- the square, with all traffic from A to D sent over B -/
example : let s := Ex.square .flex
    let s' := finalState (updateSimulation Env.default) s
    let alt : ℕ → List (List ℕ × ℚ) := fun d => if d = 0 then [([0, 2], 10)] else [([0], 3)]
    Tidy s ∧ NoShortcuts s ∧ s.lsps = [] ∧ raised (updateSimulation Env.default) s = none ∧
    (∀ d ∈ s'.dmds, ∀ x ∈ alt d, 0 ≤ x.2 ∧
      PathOver s' (Usable s' 0) (s'.dmdSrc d) x.1 (s'.dmdDst d)) ∧
    (∀ d ∈ s'.dmds, (s'.dmd d).path ≠ none →
      ((alt d).map fun x => x.2).sum = (s'.dmd d).traffic) ∧
    totalHaul s' (costLength s') = 230 := by
  intro s s' alt
  refine ⟨by decide +kernel, by decide +kernel, by decide +kernel, by decide +kernel, ?_,
    by decide +kernel, by decide +kernel⟩
  have hd : s'.dmds = [0, 1] := by decide +kernel
  have hu : Usable s' 0 0 ∧ Usable s' 0 2 := by
    unfold Usable; decide +kernel
  have h0 : PathOver s' (Usable s' 0) (s'.dmdSrc 0) [0, 2] (s'.dmdDst 0) := by
    have e : s'.dmdSrc 0 = s'.tail 0 ∧ s'.head 0 = s'.tail 2 ∧ s'.head 2 = s'.dmdDst 0 := by
      decide +kernel
    unfold PathOver
    rw [e.1, ← e.2.2]
    exact .cons hu.1 (e.2.1 ▸ .cons hu.2 (.nil _))
  have h1 : PathOver s' (Usable s' 0) (s'.dmdSrc 1) [0] (s'.dmdDst 1) := by
    have e : s'.dmdSrc 1 = s'.tail 0 ∧ s'.head 0 = s'.dmdDst 1 := by decide +kernel
    unfold PathOver
    rw [e.1, ← e.2]
    exact .cons hu.1 (.nil _)
  intro d hdm x hx
  rw [hd] at hdm
  rcases List.mem_cons.1 hdm with rfl | hdm
  · obtain rfl : x = ([0, 2], 10) := by simpa [alt] using hx
    exact ⟨by norm_num, h0⟩
  · obtain rfl : d = 1 := by simpa using hdm
    obtain rfl : x = ([0], 3) := by simpa [alt] using hx
    exact ⟨by norm_num, h1⟩

end NTM
