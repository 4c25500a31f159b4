import Mathlib.Algebra.Order.BigOperators.Group.Finset
import Verif.Proof.Kirchhoff
import Verif.Props.Impact

/-!
# C80, C81: bounds on traffic, and balance at every node
-/

namespace NTM

open Spec

theorem share_nonneg (tail : ℕ → String) (S : Finset (List ℕ)) (q : List ℕ) : 0 ≤ share tail S q := by
  rw [share_eq]; positivity

theorem uses_ifcs {s : State} {i : ℕ} {q : List ℕ} :
    uses s i (q.map Item.ifc) = true ↔ i ∈ q := by
  unfold uses
  rw [List.any_map, List.any_eq_true]
  simp

theorem uses_lsp {s : State} {i l : ℕ} : uses s i [Item.lsp l] = crosses s l i := by
  unfold uses; simp

theorem sum_le_of {ls : List ℕ} {q : ℚ} (hq : 0 ≤ q) (P : ℕ → Bool) :
    0 ≤ (ls.map fun l => if P l then q else 0).sum ∧
    (ls.map fun l => if P l then q else 0).sum ≤ q * ls.length := by
  induction ls with
  | nil => simp
  | cons l ls ih =>
    simp only [List.map_cons, List.sum_cons, List.length_cons]
    push_cast
    split <;> constructor <;> linarith [ih.1, ih.2]

theorem IgpLoad.exact_bounds {s : State} {d : ℕ} {l : List (List ℕ)} {det : List PathInfo}
    {f : ℕ → ℚ} (h : IgpLoad s d l det f) (i : ℕ) :
    0 ≤ linkShare s.tail l.toFinset i ∧ linkShare s.tail l.toFinset i ≤ 1 := by
  unfold linkShare
  refine ⟨Finset.sum_nonneg fun q _ => share_nonneg _ _ _, ?_⟩
  rw [← h.fan.total (List.toFinset_nonempty_iff _ |>.2 h.ne)]
  exact Finset.sum_le_sum_of_subset_of_nonneg (Finset.filter_subset _ _)
    fun q _ _ => share_nonneg _ _ _

/-- what the two classes put on an interface, between bounds -/
theorem contribution_bounds {env : Env} {s s' : State} (ht : Tidy s)
    (hsc : s.kind = .flex → NoShortcuts s) (hn : NonnegTraffic s)
    (hrun : updateSimulation env s = .ok () s') {d : ℕ} (hd : d ∈ s'.dmds) (i : ℕ) :
    (demandUses s' d i = false → contribution s' d i = 0) ∧
    (s.kind = .flex → 0 ≤ contribution s' d i ∧ contribution s' d i ≤ (s'.dmd d).traffic ∧
      ∀ ps, (s'.dmd d).path = some ps → (∀ p ∈ ps, uses s' i p = true) →
        contribution s' d i = (s'.dmd d).traffic) ∧
    (s.kind = .perf → 0 ≤ contribution s' d i ∧ ∀ ps, (s'.dmd d).path = some ps →
      contribution s' d i ≤ (s'.dmd d).traffic + 0.05 +
        (ps.filter (uses s' i)).length * 0.00005) := by
  obtain ⟨s1, Δ, h⟩ := sim_spec ht.dmds ht.ends ht.ckts hrun
  rw [h.cfg.dmds] at hd
  have hT : 0 ≤ (s'.dmd d).traffic := by rw [h.cfg.dmd d]; exact hn d hd
  rw [← h.delta_eq ht hsc hd]
  have hkind := h.cfg.kind
  rcases h.placed ht hsc hd with ⟨ls, h1, h2, h3⟩ | ⟨hr, -⟩
  · obtain ⟨-, hΔ⟩ := h.lspLoad ht hd h1 h2 h3
    have hlen : (0 : ℚ) < ls.length := by exact_mod_cast List.length_pos_iff.2 h1
    have hq : 0 ≤ (s'.dmd d).traffic / ls.length := by positivity
    have hb := sum_le_of (ls := ls) hq fun l => crosses s' l i
    have e : (s'.dmd d).traffic / ls.length * ls.length = (s'.dmd d).traffic := by field_simp
    rw [e, ← hΔ i] at hb
    refine ⟨fun hu => ?_, fun _ => ⟨hb.1, hb.2, fun ps hps hall => ?_⟩, fun _ => ⟨hb.1,
      fun ps hps => ?_⟩⟩
    · unfold demandUses at hu
      rw [h3] at hu
      simp only [List.any_map, List.any_eq_false] at hu
      rw [hΔ i]
      refine List.sum_eq_zero fun x hx => ?_
      obtain ⟨l, hl, rfl⟩ := List.mem_map.1 hx
      have := hu l hl
      rw [Function.comp_apply, uses_lsp] at this
      rw [if_neg this]
    · rw [h3] at hps
      cases hps
      rw [hΔ i, List.map_congr_left (g := fun _ => (s'.dmd d).traffic / ls.length) fun l hl => by
        have := hall _ (List.mem_map_of_mem hl)
        rw [uses_lsp] at this
        rw [if_pos this]]
      rw [List.map_const', List.sum_replicate, nsmul_eq_mul, mul_comm, e]
    · have : (0 : ℚ) ≤ (ps.filter (uses s' i)).length * 0.00005 := by positivity
      linarith [hb.2]
  · rcases h.igp ht hsc hd hr with ⟨p1, z1, -⟩ | ⟨l, det, p1, L⟩
    · rw [z1 i]
      refine ⟨fun _ => rfl, fun _ => ⟨le_rfl, hT, fun ps hps => ?_⟩, fun _ => ⟨le_rfl, fun ps hps => ?_⟩⟩
      · rw [p1] at hps; cases hps
      · rw [p1] at hps; cases hps
    · obtain ⟨b1, b2⟩ := L.exact_bounds i
      have hle : (s'.dmd d).traffic * linkShare s'.tail l.toFinset i ≤ (s'.dmd d).traffic := by
        calc _ ≤ (s'.dmd d).traffic * 1 := mul_le_mul_of_nonneg_left b2 hT
          _ = _ := mul_one _
      have h0 : 0 ≤ (s'.dmd d).traffic * linkShare s'.tail l.toFinset i := mul_nonneg hT b1
      refine ⟨fun hu => ?_, fun hk => ?_, fun hk => ?_⟩
      · unfold demandUses at hu
        rw [p1] at hu
        simp only [List.any_map, List.any_eq_false] at hu
        have hz : Spec.carried det i = 0 := by
          rw [L.carried]
          refine Finset.sum_eq_zero fun q hq => if_neg fun hi => ?_
          exact hu q (List.mem_toFinset.1 hq) (uses_ifcs.2 hi)
        rw [L.load i, hz]
        split
        · exact pyRound_zero 1
        · rfl
      · have e : Δ d i = (s'.dmd d).traffic * linkShare s'.tail l.toFinset i := by
          rw [L.load i, hkind, hk]; exact L.flex_carried (hkind.trans hk) i
        rw [e]
        refine ⟨h0, hle, fun ps hps hall => ?_⟩
        rw [p1] at hps
        cases hps
        have : l.toFinset.filter (fun q => i ∈ q) = l.toFinset :=
          Finset.filter_true_of_mem fun q hq =>
            uses_ifcs.1 (hall _ (List.mem_map_of_mem (List.mem_toFinset.1 hq)))
        unfold linkShare
        rw [this, L.fan.total (List.toFinset_nonempty_iff _ |>.2 L.ne), mul_one]
      · have hk' := hkind.trans hk
        have e : Δ d i = pyRound 1 (Spec.carried det i) := by rw [L.load i, hk']
        have hc0 : 0 ≤ Spec.carried det i := by
          rw [L.carried]
          refine Finset.sum_nonneg fun q _ => ?_
          split
          · unfold pathShare
            rw [hk']
            exact pyRound_nonneg 4 (mul_nonneg hT (share_nonneg _ _ _))
          · exact le_rfl
        refine ⟨by rw [e]; exact pyRound_nonneg 1 hc0, fun ps hps => ?_⟩
        rw [p1] at hps
        cases hps
        have hcount : ((l.map fun q => q.map Item.ifc).filter (uses s' i)).length =
            pathsThrough det i := by
          rw [L.through i, List.filter_map, List.length_map,
            ← List.toFinset_card_of_nodup (L.nodup.filter _)]
          congr 1
          ext q
          simp only [List.mem_toFinset, List.mem_filter, Finset.mem_filter, Function.comp_apply,
            uses_ifcs]
        have h1 := abs_le.1 (L.perf_carried hk' i)
        have h2 := abs_le.1 (pyRound_close 1 (Spec.carried det i))
        norm_num at h1 h2
        rw [e, hcount]
        norm_num
        linarith [h1.1, h1.2, h2.1, h2.2]

/-- **C80** In a FlexModel without IGP shortcuts, what a demand puts on an interface lies between
0 and the demand's traffic; it is 0 if no path of the demand goes over the interface, and all of
the traffic if every path does. -/
theorem C80_contribution_bounds_flex {env : Env} {s s' : State} (hk : s.kind = .flex) (ht : Tidy s)
    (hsc : NoShortcuts s) (hn : NonnegTraffic s) (hrun : updateSimulation env s = .ok () s')
    {d : ℕ} (hd : d ∈ s'.dmds) (i : ℕ) :
    0 ≤ contribution s' d i ∧ contribution s' d i ≤ (s'.dmd d).traffic ∧
    (demandUses s' d i = false → contribution s' d i = 0) ∧
    ∀ ps, (s'.dmd d).path = some ps → (∀ p ∈ ps, uses s' i p = true) →
      contribution s' d i = (s'.dmd d).traffic := by
  obtain ⟨h1, h2, -⟩ := contribution_bounds ht (fun _ => hsc) hn hrun hd i
  obtain ⟨h3, h4, h5⟩ := h2 hk
  exact ⟨h3, h4, h1, h5⟩

/-- **C80** In a PerformanceModel it is at least 0, exceeds the demand's traffic by rounding at
most, and is 0 if no path of the demand goes over the interface. -/
theorem C80_contribution_bounds_perf {env : Env} {s s' : State} (hk : s.kind = .perf) (ht : Tidy s)
    (hn : NonnegTraffic s) (hrun : updateSimulation env s = .ok () s')
    {d : ℕ} (hd : d ∈ s'.dmds) (i : ℕ) :
    0 ≤ contribution s' d i ∧
    (∀ ps, (s'.dmd d).path = some ps → contribution s' d i ≤
      (s'.dmd d).traffic + 0.05 + (ps.filter (uses s' i)).length * 0.00005) ∧
    (demandUses s' d i = false → contribution s' d i = 0) := by
  obtain ⟨h1, -, h2⟩ := contribution_bounds ht (by rw [hk]; intro e; cases e) hn hrun hd i
  obtain ⟨h3, h4⟩ := h2 hk
  exact ⟨h3, h4, h1⟩

/-- **C80** The traffic of an interface is at most the total traffic of the demands whose paths go
over it (FlexModel without shortcuts). -/
theorem C80_interface_bounds {env : Env} {s s' : State} (hk : s.kind = .flex) (ht : Tidy s)
    (hsc : NoShortcuts s) (hn : NonnegTraffic s) (hrun : updateSimulation env s = .ok () s')
    {i : ℕ} (hi : i ∈ s'.ifs) {q : ℚ} (hq : (s'.ifc i).traffic = .val q) :
    0 ≤ q ∧ q ≤ trafficVia s' i := by
  have hup : (s'.ifc i).failed = false := by
    obtain ⟨s1, Δ, h⟩ := sim_spec ht.dmds ht.ends ht.ckts hrun
    rw [h.traffic i (h.cfg.ifs ▸ hi)] at hq
    split at hq
    · cases hq
    · next h => simpa using h
  have := interface_traffic ht (fun _ => hsc) hrun hi hup
  rw [hq] at this
  have hb := fun d hd => C80_contribution_bounds_flex hk ht hsc hn hrun (d := d) hd i
  cases this
  unfold trafficVia
  revert hb
  generalize s'.dmds = ds
  intro hb
  induction ds with
  | nil => simp
  | cons d ds ih =>
    obtain ⟨i1, i2⟩ := ih fun d hd => hb d (List.mem_cons_of_mem _ hd)
    obtain ⟨b1, b2, b3, -⟩ := hb d List.mem_cons_self
    rw [List.map_cons, List.sum_cons, List.filter_cons]
    refine ⟨by linarith, ?_⟩
    cases hu : demandUses s' d i
    · rw [b3 hu]; simpa using i2
    · rw [if_pos rfl, List.map_cons, List.sum_cons]; linarith

/-- the diamond, where two demands use LSPs and plain paths -/
example : Tidy (Ex.diamond .flex) ∧ NoShortcuts (Ex.diamond .flex) ∧
    NonnegTraffic (Ex.diamond .flex) ∧
    raised (updateSimulation Env.default) (Ex.diamond .flex) = none ∧
    demandUses (finalState (updateSimulation Env.default) (Ex.diamond .flex)) 0 8 = true ∧
    demandUses (finalState (updateSimulation Env.default) (Ex.diamond .flex)) 1 8 = false := by
  refine ⟨?_, ?_, ?_, ?_, ?_, ?_⟩ <;> decide +kernel

/-- the traffic of every interface is the sum of the loads of the demands -/
theorem SimResult.trafficValue_eq {env : Env} {s s1 s' : State} {Δ : ℕ → ℕ → ℚ}
    (h : SimResult env s s1 s' Δ) : ∀ i ∈ s'.ifs,
    trafficValue (s'.ifc i).traffic = (s.dmds.map fun d => Δ d i).sum := by
  intro i hi
  rw [h.cfg.ifs] at hi
  rw [h.traffic i hi]
  split
  · next hf =>
    symm
    refine List.sum_eq_zero fun x hx => ?_
    obtain ⟨d, hd, rfl⟩ := List.mem_map.1 hx
    exact h.down d hd i hi hf
  · rfl

/-- every demand is in balance at every node -/
theorem SimResult.netFlow_demand {env : Env} {s s1 s' : State} {Δ : ℕ → ℕ → ℚ}
    (h : SimResult env s s1 s' Δ) (hk : s.kind = .flex) (ht : Tidy s) (hsc : NoShortcuts s)
    (hkeys : KeysDistinct s) (hrun : updateSimulation env s = .ok () s')
    (hx : SingleLinks s ∨ AllOrNone s') (u : String) : ∀ d ∈ s.dmds, netFlow s' (Δ d) u =
      if (s'.dmd d).path = none then 0
      else atEnds (s'.dmdSrc d) (s'.dmdDst d) u (s'.dmd d).traffic := by
  have hnd : s'.ifs.Nodup := by rw [h.cfg.ifs]; exact ht.ifs
  intro d hd
  rcases h.placed ht (fun _ => hsc) hd with ⟨ls, h1, h2, h3⟩ | ⟨hr, -⟩
  · rw [h.lsp_netFlow ht hkeys hrun (.inr hx) hd h1 h2 h3, h3]
    rfl
  · rcases h.igp ht (fun _ => hsc) hd hr with ⟨p1, z1, -⟩ | ⟨l, det, p1, L⟩
    · rw [if_pos p1, show Δ d = fun _ => 0 from funext z1, netFlow_zero]
    · rw [L.netFlow (h.cfg.kind.trans hk) hnd, p1]
      rfl

/-- **C81** In a FlexModel without IGP shortcuts, after `update_simulation()` every node is in
balance: the traffic on the interfaces leaving it, less the traffic on the interfaces entering
it, is the traffic of the routed demands that start there less that of those that end there.
LSP paths must be contiguous, which the side conditions ensure (see C15): partial, since without
them the claim is false (`C81_node_balance_false`). -/
theorem C81_node_balance_partial {env : Env} {s s' : State} (hk : s.kind = .flex) (ht : Tidy s)
    (hsc : NoShortcuts s) (hkeys : KeysDistinct s) (hrun : updateSimulation env s = .ok () s')
    (hx : SingleLinks s ∨ AllOrNone s') (u : String) :
    outgoing s' u - incoming s' u = sourced s' u - sunk s' u := by
  obtain ⟨s1, Δ, h⟩ := sim_spec ht.dmds ht.ends ht.ckts hrun
  have e : outgoing s' u - incoming s' u =
      netFlow s' (fun i => trafficValue (s'.ifc i).traffic) u := rfl
  rw [e, netFlow_congr h.trafficValue_eq, netFlow_sum,
    List.map_congr_left (h.netFlow_demand hk ht hsc hkeys hrun hx u)]
  unfold sourced sunk
  rw [h.cfg.dmds]
  generalize s.dmds = ds
  induction ds with
  | nil => simp
  | cons d ds ih =>
    rw [List.map_cons, List.sum_cons, ih, List.filter_cons, List.filter_cons]
    unfold atEnds
    by_cases h1 : (s'.dmd d).path = none <;> by_cases h2 : s'.dmdSrc d = u <;>
      by_cases h3 : s'.dmdDst d = u <;> simp [h1, h2, h3] <;> ring

example : KeysDistinct (Ex.diamond .flex) ∧ SingleLinks (Ex.diamond .flex) ∧
    sourced (finalState (updateSimulation Env.default) (Ex.diamond .flex)) "A" = 27 ∧
    outgoing (finalState (updateSimulation Env.default) (Ex.diamond .flex)) "A" = 27 := by
  refine ⟨?_, ?_, ?_, ?_⟩ <;> decide +kernel

/-- three nodes in a row, joined by two links each; one demand, and two LSPs of which only the
small one finds room -/
def Ex.doubled : State := Ex.mk .flex
  [{ name := "A" }, { name := "B" }, { name := "C" }]
  (Ex.link "p" 0 1 10 100 1 ++ Ex.link "q" 0 1 10 100 2 ++ Ex.link "r" 1 2 10 100 3 ++
    Ex.link "t" 1 2 10 100 4)
  [{ src := 0, dst := 2, traffic := 6, name := "x" }]
  [{ src := 0, dst := 2, name := "big", configured := some 500 },
   { src := 0, dst := 2, name := "small", configured := some 0 }] []

/-- the path of the small LSP holds both links of each hop, so it is not contiguous (C15), but it
runs along the path of the interfaces 0 and 4 -/
example : Tidy Ex.doubled ∧ raised (updateSimulation Env.default) Ex.doubled = none ∧
    let s' := finalState (updateSimulation Env.default) Ex.doubled
    (s'.lsp 1).path = .routed [0, 2, 4, 6] 40 100 ∧ s'.tail 2 = s'.tail 0 ∧ s'.head 2 = s'.head 0 ∧
    s'.tail 4 = s'.head 0 := by
  refine ⟨?_, ?_, ?_, ?_, ?_, ?_⟩ <;> decide +kernel

/-- **C81** is false of an LSP re-signalled over parallel links: its path holds every one of
them, and the whole traffic of the LSP is put on each. Here six units of demand traffic start at
node A, and twelve leave it. -/
theorem C81_node_balance_false : ∃ s s' : State, s.kind = .flex ∧ Tidy s ∧ NoShortcuts s ∧
    KeysDistinct s ∧ updateSimulation Env.default s = .ok () s' ∧
    sourced s' "A" = 6 ∧ sunk s' "A" = 0 ∧ outgoing s' "A" = 12 ∧ incoming s' "A" = 0 := by
  refine ⟨Ex.doubled, finalState (updateSimulation Env.default) Ex.doubled, rfl, ?_, ?_, ?_,
    ok_of_raised ?_, ?_, ?_, ?_, ?_⟩ <;> decide +kernel

end NTM
