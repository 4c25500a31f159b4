import Verif.Proof.Bandwidth
import Verif.Spec.Examples
import Verif.Spec.Decide

/-!
# C15–C20, C25, C26: RSVP LSPs
-/

namespace NTM

open Spec

/-! ### One signalling step, in any state -/

/-- **C15** (one step) The path an LSP is given is contiguous from its source to its
destination, and every hop is up, RSVP-enabled and has the bandwidth at that moment. -/
theorem C15_signalled_path_eligible {env : Env} {traff : ℚ} {l : ℕ} {s s' : State}
    (hi : s.ifs.Nodup) (hc : PosCosts s) (hs : s.kind = .perf → SingleLinks s)
    (hrun : signalLsp env traff l s = .ok () s') {p : List ℕ} {c : ℕ} {m : ℚ}
    (hp : (s'.lsp l).path = .routed p c m) :
    PathOver s (RsvpUsable s ((s.lsp l).configured.getD traff)) (s.lspSrc l) p (s.lspDst l) := by
  rcases of_wp_ok (signalLsp_spec ⟨hi, hc, hs⟩) hrun with ⟨-, rfl⟩ | ⟨q, k, hq, rfl⟩
  · rw [unrouted_lsp] at hp; cases hp
  · rw [signalled_lsp] at hp; cases hp; exact hq.cheapest.1

/-- **C16** (one step) The path is of least cost among all eligible paths and, among those of
least cost, of fewest hops, whichever candidate is drawn; the reported cost and headroom are
those of the path. -/
theorem C16_signalled_path_best {env : Env} {traff : ℚ} {l : ℕ} {s s' : State}
    (hi : s.ifs.Nodup) (hc : PosCosts s) (hs : s.kind = .perf → SingleLinks s)
    (hrun : signalLsp env traff l s = .ok () s') {p : List ℕ} {c : ℕ} {m : ℚ}
    (hp : (s'.lsp l).path = .routed p c m) :
    let eligible := RsvpUsable s ((s.lsp l).configured.getD traff)
    CheapestOver s eligible (s.lspSrc l) p (s.lspDst l) ∧
    (∀ q, CheapestOver s eligible (s.lspSrc l) q (s.lspDst l) → p.length ≤ q.length) ∧
    c = totalCost (fun i => (s.ifc i).cost) p ∧
    (∀ i ∈ p, m ≤ s.reservable i) ∧ ∃ i ∈ p, m = s.reservable i := by
  rcases of_wp_ok (signalLsp_spec ⟨hi, hc, hs⟩) hrun with ⟨-, rfl⟩ | ⟨q, k, hq, rfl⟩
  · rw [unrouted_lsp] at hp; cases hp
  · rw [signalled_lsp] at hp
    cases hp
    obtain ⟨v, hv⟩ : ∃ v, s.pathHeadroom p = some v := by
      unfold State.pathHeadroom minQ
      cases hm : (p.map s.reservable).min? with
      | some v => exact ⟨v, rfl⟩
      | none =>
        rw [List.min?_eq_none_iff, List.map_eq_nil_iff] at hm
        exact absurd hm hq.ne
    refine ⟨hq.cheapest, hq.fewest, rfl, ?_, ?_⟩
    · intro i hi
      rw [hv]
      exact (List.min?_eq_some_iff.1 hv).2 _ (List.mem_map.2 ⟨i, hi, rfl⟩)
    · obtain ⟨i, hi, e⟩ := List.mem_map.1 (List.min?_eq_some_iff.1 hv).1
      exact ⟨i, hi, by rw [hv, e]; rfl⟩

/-- **C17** (one step) An LSP ends up unrouted exactly when there is no eligible path; then it
reserves nothing, and otherwise it has a path. -/
theorem C17_unrouted_iff_no_path {env : Env} {traff : ℚ} {l : ℕ} {s s' : State}
    (hi : s.ifs.Nodup) (hc : PosCosts s) (hs : s.kind = .perf → SingleLinks s)
    (hrun : signalLsp env traff l s = .ok () s') :
    ((s'.lsp l).path = .unrouted ↔ ¬ Reachable s.tail s.head
      (RsvpUsable s ((s.lsp l).configured.getD traff)) (s.lspSrc l) (s.lspDst l)) ∧
    ((s'.lsp l).path = .unrouted → (s'.lsp l).reserved = .unrouted ∧ s'.ifc = s.ifc) ∧
    ((s'.lsp l).path ≠ .unrouted → IsRouted s' l) := by
  rcases of_wp_ok (signalLsp_spec ⟨hi, hc, hs⟩) hrun with ⟨hno, rfl⟩ | ⟨q, k, hq, rfl⟩
  · rw [unrouted_lsp]
    exact ⟨⟨fun _ => hno, fun _ => rfl⟩, fun _ => ⟨rfl, rfl⟩, fun h => absurd rfl h⟩
  · unfold IsRouted
    rw [signalled_lsp]
    refine ⟨⟨fun h => (by cases h), fun h => absurd ⟨q, hq.cheapest.1⟩ h⟩, fun h => (by cases h),
      fun _ => ⟨_, _, _, rfl⟩⟩

/-- Three ways A→D: over B (cost 20, two hops), over C (cost 20, two hops) and directly (cost
20, one hop) but too thin for the second LSP. -/
def Ex.diamond (k : Kind) : State := Ex.mk k
  [{ name := "A" }, { name := "B" }, { name := "C" }, { name := "D" }]
  (Ex.link "ab" 0 1 10 100 1 ++ Ex.link "bd" 1 3 10 100 2 ++ Ex.link "ac" 0 2 10 100 3 ++
    Ex.link "cd" 2 3 10 100 4 ++ Ex.link "ad" 0 3 20 10 5)
  [{ src := 0, dst := 3, traffic := 24, name := "x" }, { src := 0, dst := 2, traffic := 3, name := "y" }]
  [{ src := 0, dst := 3, name := "l0", configured := some 4 },
   { src := 0, dst := 3, name := "l1" },
   { src := 0, dst := 1, name := "l2", configured := some 150 }] []

/-- signalling the first LSP in the reset model takes the direct link; the third cannot be
routed -/
example (k : Kind) : (Ex.diamond k).resetSim.ifs.Nodup ∧ PosCosts (Ex.diamond k).resetSim ∧
    SingleLinks (Ex.diamond k).resetSim ∧
    signalLsp Env.default 12 0 (Ex.diamond k).resetSim =
      .ok () (finalState (signalLsp Env.default 12 0) (Ex.diamond k).resetSim) ∧
    ((finalState (signalLsp Env.default 12 0) (Ex.diamond k).resetSim).lsp 0).path =
      .routed [8] 20 10 ∧
    signalLsp Env.default 12 2 (Ex.diamond k).resetSim =
      .ok () (finalState (signalLsp Env.default 12 2) (Ex.diamond k).resetSim) ∧
    ((finalState (signalLsp Env.default 12 2) (Ex.diamond k).resetSim).lsp 2).path =
      .unrouted := by
  cases k <;> exact ⟨by decide +kernel, by decide +kernel, by decide +kernel,
    ok_of_raised (by decide +kernel), by decide +kernel, ok_of_raised (by decide +kernel),
    by decide +kernel⟩

/-! ### A whole simulation -/

theorem not_mixed {s t s' : State} {done : List ℕ} (hsub : ∀ l ∈ done, l ∈ s.lsps)
    (hcfg : Cfg s s') (hlsp : s'.lsp = t.lsp) (hall : AllOrNone s') :
    ¬ Mixed s.resetSim done t := by
  rintro ⟨l, hl, l', hl', e1, e2, e3, e4⟩
  rw [resetSim_lspSrc] at e1
  rw [resetSim_lspDst] at e2
  have hr : IsRouted s' l := by unfold IsRouted; rw [hlsp]; exact e3
  obtain ⟨p, c, hd, e⟩ := hall l (hcfg.lsps ▸ hsub l hl) l' (hcfg.lsps ▸ hsub l' hl')
    (by rw [hcfg.lspSrc, hcfg.lspSrc, e1]) (by rw [hcfg.lspDst, hcfg.lspDst, e2]) hr
  rw [hlsp, e4] at e
  cases e

theorem order_perm {env : Env} {s : State} {done : List ℕ} (hk : KeysDistinct s)
    (hnd : s.lsps.Nodup) (hd : done.Nodup)
    (hdone : ∀ l, l ∈ done ↔ ∃ g ∈ buildGroups env s.lsps s.lspSrc s.lspDst, l ∈ g.2) :
    done.Perm s.lsps := by
  rw [List.perm_ext_iff_of_nodup hd hnd]
  intro l
  rw [hdone]
  constructor
  · rintro ⟨g, h1, h2⟩; exact mem_of_buildGroups h1 h2
  · intro hl; exact mem_groups_all hk hl

theorem asked_reset {env : Env} {s : State} (hk : KeysDistinct s) (hn : NonnegTraffic s) {l : ℕ}
    (hl : l ∈ s.lsps) :
    askedBw s.resetSim (shareOf env s.resetSim l) l = setupBandwidth s l := by
  rw [asked_eq ((cfg_resetSim s).keysDistinct hk) ((cfg_resetSim s).nonneg hn) hl,
    (cfg_resetSim s).setupBandwidth]

/-- **C15, C16, C17** (whole simulation) After `update_simulation()`, if no group of parallel
LSPs is partly routed, there is an order of all LSPs such that every LSP got exactly what it
should given the reservations of those before it: a path of least cost, then of fewest hops,
over interfaces that are up, RSVP-enabled and have its setup bandwidth left, reported with its
cost and headroom; or nothing, if there is no such path. -/
theorem C16_served_in_order_partial {env : Env} {s s' : State} (ht : Tidy s) (hk : KeysDistinct s)
    (hn : NonnegTraffic s) (htie : ∀ l ∈ s.lsps, ¬ RoundingTie (setupBandwidth s l))
    (hrun : updateSimulation env s = .ok () s') (hall : AllOrNone s') :
    ∃ order, order.Perm s'.lsps ∧ ∀ pre l post, order = pre ++ l :: post →
      Served s' pre (setupBandwidth s' l) l := by
  obtain ⟨s1, Δ, h⟩ := sim_spec ht.dmds ht.ends ht.ckts hrun
  have hs0 : Sane s.resetSim := (cfg_resetSim s).sane (h.sane0 ht)
  obtain ⟨done, hg, hdone⟩ := h.lspInv ht (order_rule env hs0 (by
    intro l hl
    rw [asked_reset hk hn hl, tie_iff]
    exact htie l hl))
  have hb := hg.inv.1
  have hlsp : s'.lsp = s1.lsp := h.net.2.2.1
  have hord := hg.inv.2.resolve_left (not_mixed hb.sub h.cfg hlsp hall)
  refine ⟨done, by rw [h.cfg.lsps]; exact order_perm hk ht.lsps hb.nodup hdone, ?_⟩
  intro pre l post he
  have hl : l ∈ s.lsps := hb.sub l (by rw [he]; simp)
  have := hord.2 pre l post he
  rw [asked_reset hk hn hl] at this
  rw [h.cfg.setupBandwidth]
  obtain ⟨D, T, C, B, I, rfl⟩ := h.over
  exact this

/-- in the diamond the LSPs are served in the order l0, l1, l2 -/
example (k : Kind) : Tidy (Ex.diamond k) ∧ KeysDistinct (Ex.diamond k) ∧
    NonnegTraffic (Ex.diamond k) ∧
    (Ex.diamond k).lsps.map (setupBandwidth (Ex.diamond k)) = [4, 12, 150] ∧
    updateSimulation Env.default (Ex.diamond k) =
      .ok () (finalState (updateSimulation Env.default) (Ex.diamond k)) ∧
    AllOrNone (finalState (updateSimulation Env.default) (Ex.diamond k)) ∧
    ((finalState (updateSimulation Env.default) (Ex.diamond k)).lsps.map fun l =>
      ((finalState (updateSimulation Env.default) (Ex.diamond k)).lsp l).path) =
      [.routed [8] 20 10, .routed [0, 2] 20 100, .unrouted] := by
  cases k <;> exact ⟨by decide +kernel, by decide +kernel, by decide +kernel, by decide +kernel,
    ok_of_raised (by decide +kernel), by decide +kernel, by decide +kernel⟩

/-- whole numbers are not rounding ties -/
theorem not_roundingTie_int (k : ℤ) : ¬ RoundingTie k := by
  rintro ⟨n, h⟩
  have : (20 : ℚ) * k = 2 * n + 1 := by rw [h]; ring
  have : (20 : ℤ) * k = 2 * n + 1 := by exact_mod_cast this
  omega

/-- **C15** (whole simulation) After `update_simulation()` every LSP path leads contiguously from
the LSP's source to its destination over RSVP-enabled interfaces that are up, provided there
are no parallel links (always so in a PerformanceModel) or no group of parallel LSPs ends up
partly routed.  Without the proviso it is false: `C04_flex_false`. -/
theorem C15_final_paths_eligible_partial {env : Env} {s s' : State} (ht : Tidy s)
    (hrun : updateSimulation env s = .ok () s')
    (hx : s.kind = .perf ∨ SingleLinks s ∨ AllOrNone s') {l : ℕ} (hl : l ∈ s'.lsps)
    {p : List ℕ} {c : ℕ} {m : ℚ} (hp : (s'.lsp l).path = .routed p c m) :
    PathOver s' (fun i => i ∈ s'.ifs ∧ (s'.ifc i).failed = false ∧ (s'.ifc i).rsvpEnabled = true)
      (s'.lspSrc l) p (s'.lspDst l) := by
  obtain ⟨s1, Δ, h⟩ := sim_spec ht.dmds ht.ends ht.ckts hrun
  have hs0 : Sane s.resetSim := (cfg_resetSim s).sane (h.sane0 ht)
  obtain ⟨done, hg, hdone⟩ := h.lspInv ht (eligible_rule env hs0)
  have hb := hg.inv.1
  have hcfg := h.cfg
  have hlsp : s'.lsp = s1.lsp := h.net.2.2.1
  have hnm : ¬ (¬ SingleLinks s.resetSim ∧ Mixed s.resetSim done s1) := by
    rintro ⟨h1, h2⟩
    have hsl := (cfg_resetSim s).singleLinks_iff
    rcases hx with hx | hx | hx
    · exact h1 (hsl.2 (h.single hx))
    · exact h1 (hsl.2 hx)
    · exact not_mixed (s := s) hb.sub hcfg hlsp hx h2
  have helig := hg.inv.2.resolve_left hnm
  rw [hcfg.lsps] at hl
  rw [hlsp] at hp
  by_cases hld : l ∈ done
  · have h0 := helig l hld p c m hp
    have e1 : s'.tail = s1.tail := h.net.2.2.2.2.1
    have e2 : s'.head = s1.head := h.net.2.2.2.2.2.1
    have e3 := h.net.2.2.2.2.2.2.1
    have e4 := h.net.2.2.2.2.2.2.2.2.1
    rw [resetSim_lspSrc, resetSim_lspDst] at h0
    rw [hcfg.lspSrc, hcfg.lspDst]
    unfold Eligible PathOver at *
    rw [e1, e2]
    refine h0.mono ?_
    rintro i - ⟨h1, h2, h3⟩
    refine ⟨by rw [e4]; exact h1, by rw [e3]; exact h2, ?_⟩
    rw [hcfg.ifc i]
    rw [h.cfg1.ifc i] at h3
    exact h3
  · rw [hg.rest l hld] at hp
    unfold State.resetSim at hp
    simp only [] at hp
    rw [if_pos hl] at hp
    cases hp

/-- **C15** (whole simulation, no proviso) After `update_simulation()` the path of every routed
LSP contains a contiguous path from the LSP's source to its destination over RSVP-enabled
interfaces that are up, and every other interface on it is parallel to a hop of that path. -/
theorem C15_runs_along {env : Env} {s s' : State} (ht : Tidy s)
    (hrun : updateSimulation env s = .ok () s') {l : ℕ} (hl : l ∈ s'.lsps)
    {p : List ℕ} {c : ℕ} {m : ℚ} (hp : (s'.lsp l).path = .routed p c m) :
    ∃ q, PathOver s' (fun i => i ∈ s'.ifs ∧ (s'.ifc i).failed = false ∧
        (s'.ifc i).rsvpEnabled = true) (s'.lspSrc l) q (s'.lspDst l) ∧
      (∀ i ∈ q, i ∈ p) ∧
      ∀ i ∈ p, ∃ j ∈ q, s'.tail i = s'.tail j ∧ s'.head i = s'.head j := by
  obtain ⟨s1, Δ, h⟩ := sim_spec ht.dmds ht.ends ht.ckts hrun
  have hs0 : Sane s.resetSim := (cfg_resetSim s).sane (h.sane0 ht)
  obtain ⟨done, hg, hdone⟩ := h.lspInv ht (along_rule env hs0)
  have hcfg := h.cfg
  have hlsp : s'.lsp = s1.lsp := h.net.2.2.1
  rw [hcfg.lsps] at hl
  rw [hlsp] at hp
  by_cases hld : l ∈ done
  · obtain ⟨q, h0, g1, g2⟩ := hg.inv.2 l hld p c m hp
    have e1 : s'.tail = s1.tail := h.net.2.2.2.2.1
    have e2 : s'.head = s1.head := h.net.2.2.2.2.2.1
    have e3 := h.net.2.2.2.2.2.2.1
    have e4 := h.net.2.2.2.2.2.2.2.2.1
    rw [resetSim_lspSrc, resetSim_lspDst] at h0
    rw [hcfg.lspSrc, hcfg.lspDst, e1, e2]
    refine ⟨q, ?_, g1, g2⟩
    unfold Eligible PathOver at *
    rw [e1, e2]
    refine h0.mono ?_
    rintro i - ⟨h1, h2, h3⟩
    refine ⟨by rw [e4]; exact h1, by rw [e3]; exact h2, ?_⟩
    rw [hcfg.ifc i]
    rw [h.cfg1.ifc i] at h3
    exact h3
  · rw [hg.rest l hld] at hp
    unfold State.resetSim at hp
    simp only [] at hp
    rw [if_pos hl] at hp
    cases hp

example (k : Kind) : SingleLinks (Ex.diamond k) ∧ Tidy (Ex.diamond k) := by
  cases k <;> exact ⟨by decide +kernel, by decide +kernel⟩

/-- **C18** After `update_simulation()` every LSP has been signalled with its configured
bandwidth or else an equal share of the traffic between its end points; an LSP that is routed
while a parallel one is not has been re-signalled for the traffic divided by the number of
routed LSPs, or kept the first bandwidth. -/
theorem C18_setup_bandwidth {env : Env} {s s' : State} (ht : Tidy s) (hk : KeysDistinct s)
    (hn : NonnegTraffic s) (hrun : updateSimulation env s = .ok () s') {l : ℕ}
    (hl : l ∈ s'.lsps) :
    ((s'.lsp l).path = .unrouted ∧ (s'.lsp l).reserved = .unrouted ∧
      (s'.lsp l).setup = some (setupBandwidth s' l)) ∨
    (IsRouted s' l ∧ (s'.lsp l).reserved = .val (setupBandwidth s' l) ∧
      (s'.lsp l).setup = some (setupBandwidth s' l)) ∨
    (IsRouted s' l ∧ (∃ l' ∈ groupLsps s' l, (s'.lsp l').path = .unrouted) ∧
      (s'.lsp l).reserved = .val (groupTraffic s' l / routedInGroup s' l) ∧
      ((s'.lsp l).configured = none →
        (s'.lsp l).setup = some (groupTraffic s' l / routedInGroup s' l)) ∧
      ∀ c, c ≠ 0 → (s'.lsp l).configured = some c → (s'.lsp l).setup = some c) := by
  obtain ⟨s1, Δ, h⟩ := sim_spec ht.dmds ht.ends ht.ckts hrun
  have hs0 : Sane s.resetSim := (cfg_resetSim s).sane (h.sane0 ht)
  obtain ⟨done, hg, hdone⟩ := h.lspInv ht (bw_rule env hs0)
  have hb := hg.inv.1
  have hlsp : s'.lsp = s1.lsp := h.net.2.2.1
  have hperm := order_perm hk ht.lsps hb.nodup hdone
  rw [h.cfg.lsps] at hl
  have hpl := hg.inv.2 l (hperm.mem_iff.2 hl)
  have hcfg := h.cfg
  have c0 := cfg_resetSim s
  have hask := asked_reset (env := env) hk hn hl
  have htot : totalFor env s.resetSim l = groupTraffic s' l := by
    rw [totalFor_eq (c0.keysDistinct hk) hl, c0.groupTraffic, hcfg.groupTraffic]
  have hpeers : s.resetSim.peers l = groupLsps s' l := by
    rw [peers_eq, c0.groupLsps, hcfg.groupLsps]
  have hrp : routedPeers s.resetSim s1 l = routedInGroup s' l := by
    unfold routedPeers routedInGroup
    rw [hpeers, hlsp]
  unfold BwOf at hpl
  rw [hask, htot, hpeers, hrp] at hpl
  unfold IsRouted at *
  rw [hlsp, hcfg.setupBandwidth]
  rcases hpl with hpl | hpl | ⟨h1, -, h2, h3, h4⟩
  · exact .inl hpl
  · exact .inr (.inl hpl)
  · refine .inr (.inr ⟨h1, h2, h3, ?_, ?_⟩)
    · intro hc
      rw [h4]
      unfold Lsp.newSetup
      have : (s.resetSim.lsp l).configured = none := by
        rw [c0.lsp l]; rw [← hlsp, hcfg.lsp l] at hc; exact hc
      rw [this]
    · intro c hc0 hc
      rw [h4]
      unfold Lsp.newSetup
      have : (s.resetSim.lsp l).configured = some c := by
        rw [c0.lsp l]; rw [← hlsp, hcfg.lsp l] at hc; exact hc
      rw [this]
      simp only [ne_eq, hc0, not_false_eq_true, if_true]

/-! ### The reservation ledger -/

theorem phase_inv {env : Env} {s t : State} (ht : Tidy s) (hs : s.kind = .perf → SingleLinks s)
    (hrun : routeLsps env s.resetSim = .ok () t) {Inv : List ℕ → State → Prop}
    (R : LspRule env s.resetSim Inv) :
    ∃ done, GroupInv env s.resetSim Inv done t ∧
      ∀ l, l ∈ done ↔ ∃ g ∈ buildGroups env s.lsps s.lspSrc s.lspDst, l ∈ g.2 := by
  have hs0 : Sane s.resetSim := (cfg_resetSim s).sane ⟨ht.ifs, ht.costs, hs⟩
  have := of_wp_ok (routeLsps_inv hs0 (show s.resetSim.lsps.Nodup from ht.lsps) rfl R) hrun
  rw [resetSim_lspSrc, resetSim_lspDst] at this
  exact this

theorem GroupInv.cfg {env : Env} {s t : State} {Inv : List ℕ → State → Prop} {done : List ℕ}
    (h : GroupInv env s.resetSim Inv done t) : Cfg s t := by
  refine (cfg_resetSim s).trans ?_
  have h1 : Cfg s.resetSim { s.resetSim with
      groups := buildGroups env s.resetSim.lsps s.resetSim.lspSrc s.resetSim.lspDst } :=
    ⟨rfl, rfl, rfl, rfl, rfl, rfl, rfl, rfl, rfl, fun _ => rfl, fun _ => rfl, fun _ => rfl⟩
  exact (h1.trans (startLsps_frame env s.resetSim).cfg).trans h.frame.cfg

/-- **C19** After the LSP phase of `update_simulation()` (before validation) the reservation
ledger balances, for every mix of LSPs without rounding ties, unless a group is partly routed
and one of its LSPs happens to be re-signalled for the bandwidth it already has (C25). -/
theorem C19_ledger_balanced {env : Env} {s t : State} (ht : Tidy s)
    (hs : s.kind = .perf → SingleLinks s) (hk : KeysDistinct s) (hn : NonnegTraffic s)
    (htie : NoTies s) (hrun : routeLsps env s.resetSim = .ok () t)
    (hx : NoCoincidence s ∨ AllOrNone t) : LedgerBalanced t := by
  have c0 := cfg_resetSim s
  have hs0 : Sane s.resetSim := c0.sane ⟨ht.ifs, ht.costs, hs⟩
  have htot : ∀ l ∈ s.lsps, totalFor env s.resetSim l = groupTraffic s l := fun l hl => by
    rw [totalFor_eq (c0.keysDistinct hk) hl, c0.groupTraffic]
  have hpeers : ∀ l, s.resetSim.peers l = groupLsps s l := fun l => by
    rw [peers_eq, c0.groupLsps]
  have htf : TieFree env s.resetSim := by
    intro l hl
    rw [asked_reset hk hn hl, tie_iff, htot l hl, hpeers l]
    exact ⟨(htie l hl).1, fun r h1 h2 => by rw [tie_iff]; exact (htie l hl).2 r h1 h2⟩
  obtain ⟨done, hg, hdone⟩ := phase_inv ht hs hrun (ledger_rule env hs0 htf)
  have hb := hg.inv.1
  have hperm := order_perm hk ht.lsps hb.nodup hdone
  have hcfg : Cfg s t := hg.cfg
  have hled := hg.inv.2.resolve_left (by
    rintro ⟨⟨l, hl, r, h1, h2, h3, h4⟩, hm⟩
    rcases hx with hx | hx
    · rw [asked_reset hk hn hl] at h3 h4
      rw [htot l hl] at h3
      rw [hpeers l] at h2
      exact h4 (hx l hl r h1 h2 h3)
    · exact not_mixed (s := s) hb.sub hcfg rfl hx hm)
  intro i hi
  rw [hcfg.ifs] at hi
  rw [hled i hi, hcfg.lsps]
  exact (hperm.map _).sum_eq

/-- the hypotheses hold of the diamond -/
example (k : Kind) : NoCoincidence (Ex.diamond k) := by
  intro l hl r h1 h2 h3
  have h2' : r < 2 := lt_of_lt_of_le h2 (by
    have : ∀ l ∈ (Ex.diamond k).lsps, (groupLsps (Ex.diamond k) l).length ≤ 2 := by
      cases k <;> decide +kernel
    exact this l hl)
  have : r = 1 := by omega
  subst this
  exfalso
  revert h3
  have : ∀ l ∈ (Ex.diamond k).lsps,
      ¬ setupBandwidth (Ex.diamond k) l = groupTraffic (Ex.diamond k) l / (1 : ℕ) := by
    cases k <;> decide +kernel
  exact this l hl

example (k : Kind) : NoTies (Ex.diamond k) := by
  have h0 : ∀ l ∈ (Ex.diamond k).lsps, (groupLsps (Ex.diamond k) l).length ≤ 2 ∧
      setupBandwidth (Ex.diamond k) l = (setupBandwidth (Ex.diamond k) l).num ∧
      groupTraffic (Ex.diamond k) l = (groupTraffic (Ex.diamond k) l).num := by
    cases k <;> decide +kernel
  intro l hl
  obtain ⟨h1, h2, h3⟩ := h0 l hl
  refine ⟨by rw [h2]; exact not_roundingTie_int _, fun r hr hr' => ?_⟩
  have : r = 1 := by omega
  subst this
  rw [h3, Nat.cast_one, div_one]
  exact not_roundingTie_int _

example (k : Kind) : (∀ l ∈ (Ex.diamond k).lsps, 0 ≤ setupBandwidth (Ex.diamond k) l) ∧
    routeLsps Env.default (Ex.diamond k).resetSim =
      .ok () (finalState (routeLsps Env.default) (Ex.diamond k).resetSim) ∧
    (finalState (routeLsps Env.default) (Ex.diamond k).resetSim).reservedBw 0 = 12 := by
  cases k <;> exact ⟨by decide +kernel, ok_of_raised (by decide +kernel), by decide +kernel⟩

/-- Two LSPs over one link, asking for 0.3 and 0.25. -/
def Ex.ties (k : Kind) : State := Ex.mk k
  [{ name := "A" }, { name := "B" }] (Ex.link "ab" 0 1 10 100 1) []
  [{ src := 0, dst := 1, name := "l0", configured := some (3 / 10) },
   { src := 0, dst := 1, name := "l1", configured := some (1 / 4) }] []

/-- **C19** With a rounding tie the ledger is off and `update_simulation()` raises on a model
that validates: 0.3 and 0.25 add up to 0.6 on the interface but to 0.5 over the LSPs. -/
theorem C19_tie_breaks_ledger (k : Kind) : Tidy (Ex.ties k) ∧ KeysDistinct (Ex.ties k) ∧
    NonnegTraffic (Ex.ties k) ∧ raised (validate Env.default) (Ex.ties k) = none ∧
    (finalState (routeLsps Env.default) (Ex.ties k).resetSim).reservedBw 0 = 6 / 10 ∧
    ((Ex.ties k).lsps.map
      (lspShare (finalState (routeLsps Env.default) (Ex.ties k).resetSim) 0)).sum = 5 / 10 ∧
    raised (updateSimulation Env.default) (Ex.ties k) =
      some (.model "network interface validation failed, see returned data") := by
  cases k <;> exact ⟨by decide +kernel, by decide +kernel, by decide +kernel,
    by decide +kernel, by decide +kernel, by decide +kernel, by decide +kernel⟩

/-! ### Limits -/

/-- **C20** After the LSP phase no RSVP-enabled interface is over-reserved: its reservable
bandwidth is not negative, its reserved bandwidth exceeds the limit by at most the rounding
slack 0.05, and not at all when the limit is a multiple of 0.1. -/
theorem C20_within_limit {env : Env} {s t : State} (ht : Tidy s)
    (hs : s.kind = .perf → SingleLinks s) (hk : KeysDistinct s) (hn : NonnegTraffic s)
    (hu : UniqueIfcKeys s) (htie : ∀ l ∈ s.lsps, ¬ RoundingTie (setupBandwidth s l))
    (hnn : ∀ l ∈ s.lsps, 0 ≤ setupBandwidth s l)
    (hrun : routeLsps env s.resetSim = .ok () t) {i : ℕ} (hi : i ∈ t.ifs)
    (hr : (t.ifc i).rsvpEnabled = true) (hl : 0 ≤ reservationLimit t i) :
    0 ≤ t.reservable i ∧ t.reservedBw i ≤ reservationLimit t i + 1 / 20 ∧
      ((∃ n : ℤ, reservationLimit t i = n / 10) → t.reservedBw i ≤ reservationLimit t i) := by
  have c0 := cfg_resetSim s
  have hs0 : Sane s.resetSim := c0.sane ⟨ht.ifs, ht.costs, hs⟩
  have hu0 : UniqueIfcKeys s.resetSim := by
    intro a ha b hb e
    refine hu a ha b hb ?_
    unfold State.ifcKey at *
    rw [c0.tail, c0.tail, c0.ifc a, c0.ifc b] at e
    exact e
  obtain ⟨done, hg, hdone⟩ := phase_inv ht hs hrun (limit_rule env hs0 hu0
    (fun l hl => by rw [asked_reset hk hn hl, tie_iff]; exact htie l hl)
    (fun l hl => by rw [asked_reset hk hn hl]; exact hnn l hl))
  have hcfg : Cfg s t := hg.cfg
  have e1 : (t.ifc i).rsvpEnabled = (s.resetSim.ifc i).rsvpEnabled := by
    rw [hcfg.ifc i, c0.ifc i]
  have e2 : reservationLimit t i = s.resetSim.ceiling i := by
    unfold reservationLimit State.ceiling
    rw [hcfg.ifc i, c0.ifc i]
  have h0 := hg.inv.2 i (hcfg.ifs ▸ hi) (e1 ▸ hr) (e2 ▸ hl)
  have he : t.reservable i = pyRound 1 (reservationLimit t i - t.reservedBw i) := by
    unfold State.reservable reservationLimit
    rw [hr]; rfl
  refine ⟨h0, ?_, ?_⟩
  · have := pyRound_close 1 (reservationLimit t i - t.reservedBw i)
    rw [← he] at this
    have := (abs_le.1 this).2
    norm_num at this
    linarith
  · rintro ⟨n, hn'⟩
    have hd : Decimal 1 (reservationLimit t i - t.reservedBw i) :=
      Decimal.sub ⟨n, by rw [hn']; norm_num⟩ (reservedBw_decimal t i)
    rw [pyRound_of_decimal hd] at he
    linarith

/-- the diamond meets the hypotheses, with the direct link of capacity 10 carrying 4 -/
example (k : Kind) : UniqueIfcKeys (Ex.diamond k) ∧ Tidy (Ex.diamond k) ∧
    SingleLinks (Ex.diamond k) ∧
    (finalState (routeLsps Env.default) (Ex.diamond k).resetSim).reservable 8 = 6 ∧
    reservationLimit (Ex.diamond k) 8 = 10 := by
  cases k <;> exact ⟨by decide +kernel, by decide +kernel, by decide +kernel, by decide +kernel,
    by decide +kernel⟩

/-! ### Re-optimisation -/

/-- Two equal paths A→D; one LSP asks for 10 of the 10 on offer, a parallel one for 500. -/
def Ex.flap (k : Kind) : State := Ex.mk k
  [{ name := "A" }, { name := "B" }, { name := "C" }, { name := "D" }]
  (Ex.link "ab" 0 1 10 100 1 ++ Ex.link "bd" 1 3 10 100 2 ++ Ex.link "ac" 0 2 10 100 3 ++
    Ex.link "cd" 2 3 10 100 4)
  [{ src := 0, dst := 3, traffic := 10, name := "x" }]
  [{ src := 0, dst := 3, name := "l0", configured := some 10 },
   { src := 0, dst := 3, name := "l1", configured := some 500 }] []

/-- draws the first candidate, then the second -/
def Ex.coin : Env := { Env.default with rand := fun k => k }

/-- **C25** is false: when the first LSP is re-signalled for the bandwidth it already has and
the other equal path is drawn, its reservation stays on the old path, and
`update_simulation()` raises on a valid model. -/
theorem C25_reopt_false (k : Kind) : Tidy (Ex.flap k) ∧ KeysDistinct (Ex.flap k) ∧
    raised (validate Ex.coin) (Ex.flap k) = none ∧
    raised (routeLsps Ex.coin) (Ex.flap k).resetSim = none ∧
    ¬ LedgerBalanced (finalState (routeLsps Ex.coin) (Ex.flap k).resetSim) ∧
    raised (updateSimulation Ex.coin) (Ex.flap k) =
      some (.model "network interface validation failed, see returned data") := by
  cases k <;> exact ⟨by decide +kernel, by decide +kernel, by decide +kernel, by decide +kernel,
    by decide +kernel, by decide +kernel⟩

/-- **C25** (partial) Re-optimisation keeps the ledger and the limits when no LSP is
re-signalled for the bandwidth it already has. -/
theorem C25_reopt_partial {env : Env} {s t : State} (ht : Tidy s)
    (hs : s.kind = .perf → SingleLinks s) (hk : KeysDistinct s) (hn : NonnegTraffic s)
    (hu : UniqueIfcKeys s) (htie : NoTies s) (hnn : ∀ l ∈ s.lsps, 0 ≤ setupBandwidth s l)
    (hx : NoCoincidence s) (hrun : routeLsps env s.resetSim = .ok () t) :
    LedgerBalanced t ∧ ∀ i ∈ t.ifs, (t.ifc i).rsvpEnabled = true → 0 ≤ reservationLimit t i →
      0 ≤ t.reservable i ∧ t.reservedBw i ≤ reservationLimit t i + 1 / 20 :=
  ⟨C19_ledger_balanced ht hs hk hn htie hrun (.inl hx), fun _i hi hr hl =>
    ⟨(C20_within_limit ht hs hk hn hu (fun l hl => (htie l hl).1) hnn hrun hi hr hl).1,
     (C20_within_limit ht hs hk hn hu (fun l hl => (htie l hl).1) hnn hrun hi hr hl).2.1⟩⟩

/-- **C26** is false: an LSP configured for 4 in a group with 24 of traffic ends up reserving
24 once its neighbour fails to route. -/
def Ex.override (k : Kind) : State := Ex.mk k
  [{ name := "A" }, { name := "B" }] (Ex.link "ab" 0 1 10 100 1)
  [{ src := 0, dst := 1, traffic := 24, name := "x" }]
  [{ src := 0, dst := 1, name := "l0", configured := some 4 },
   { src := 0, dst := 1, name := "l1", configured := some 500 }] []

theorem C26_configured_false : ¬ ∀ (env : Env) (s s' : State), Tidy s → KeysDistinct s →
    updateSimulation env s = .ok () s' → ∀ l ∈ s'.lsps, ∀ c, (s'.lsp l).configured = some c →
      IsRouted s' l → (s'.lsp l).reserved = .val c := by
  intro h
  have := h Env.default (Ex.override .perf) _ (by decide +kernel) (by decide +kernel)
    (ok_of_raised (by decide +kernel)) 0 (by decide +kernel) 4 (by decide +kernel)
    (by decide +kernel)
  revert this
  decide +kernel

/-- **C26** (partial) A configured setup bandwidth is what a routed LSP reserves, unless a
parallel LSP is unrouted. -/
theorem C26_configured_partial {env : Env} {s s' : State} (ht : Tidy s) (hk : KeysDistinct s)
    (hn : NonnegTraffic s) (hrun : updateSimulation env s = .ok () s') {l : ℕ}
    (hl : l ∈ s'.lsps) {c : ℚ} (hc : (s'.lsp l).configured = some c) (hr : IsRouted s' l)
    (hall : ∀ l' ∈ groupLsps s' l, IsRouted s' l') : (s'.lsp l).reserved = .val c := by
  have hb : setupBandwidth s' l = c := by unfold setupBandwidth; rw [hc]
  rcases C18_setup_bandwidth ht hk hn hrun hl with ⟨h1, -⟩ | ⟨-, h1, -⟩ | ⟨-, ⟨l', h1, h2⟩, -⟩
  · obtain ⟨_, _, _, e⟩ := hr
    rw [h1] at e; cases e
  · rw [h1, hb]
  · obtain ⟨_, _, _, e⟩ := hall l' h1
    rw [h2] at e; cases e

example (k : Kind) : let s' := finalState (updateSimulation Env.default) (Ex.diamond k)
    (s'.lsp 0).configured = some 4 ∧ IsRouted s' 0 ∧ (∀ l' ∈ groupLsps s' 0, IsRouted s' l') ∧
      (groupLsps s' 0).length = 2 := by
  cases k <;> exact ⟨by decide +kernel, by decide +kernel, by decide +kernel, by decide +kernel⟩

/-- the partly routed group of the example: the routed LSP was re-signalled for all of the
traffic -/
example (k : Kind) : let s' := finalState (updateSimulation Env.default) (Ex.override k)
    Tidy (Ex.override k) ∧ KeysDistinct (Ex.override k) ∧
    updateSimulation Env.default (Ex.override k) = .ok () s' ∧ (s'.lsp 0).reserved = .val 24 ∧
    (s'.lsp 0).setup = some 4 ∧ groupTraffic s' 0 / routedInGroup s' 0 = 24 := by
  cases k <;> exact ⟨by decide +kernel, by decide +kernel, ok_of_raised (by decide +kernel),
    by decide +kernel, by decide +kernel, by decide +kernel⟩

end NTM
