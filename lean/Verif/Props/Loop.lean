import Verif.Proof.Loop
import Verif.Props.Cut
import Verif.Props.Shortcut

/-!
# C116: paths have no loops, and stubs carry no transit traffic
-/

namespace NTM

open Spec

/-- **C116** After `update_simulation()` (both classes) every routed LSP follows a path that visits
no node twice. -/
theorem C116_lsp_loop_free {env : Env} {s s' : State} (ht : Tidy s)
    (hrun : updateSimulation env s = .ok () s') {l : ℕ} (hl : l ∈ s'.lsps)
    {p : List ℕ} {c : ℕ} {m : ℚ} (hp : (s'.lsp l).path = .routed p c m) :
    LoopFree s' (s'.lspSrc l) p (s'.lspDst l) := by
  obtain ⟨s1, Δ, h⟩ := sim_spec ht.dmds ht.ends ht.ckts hrun
  have hs0 : Sane s.resetSim := (cfg_resetSim s).sane (h.sane0 ht)
  obtain ⟨done, hg, hdone⟩ := h.lspInv ht (loop_rule env hs0)
  have hcfg := h.cfg
  have hlsp : s'.lsp = s1.lsp := h.net.2.2.1
  rw [hcfg.lsps] at hl
  rw [hlsp] at hp
  by_cases hld : l ∈ done
  · have h0 := hg.inv.2 l hld p c m hp
    have e1 : s'.tail = s1.tail := h.net.2.2.2.2.1
    have e2 : s'.head = s1.head := h.net.2.2.2.2.2.1
    have e3 := h.net.2.2.2.2.2.2.1
    have e4 := h.net.2.2.2.2.2.2.2.2.1
    rw [resetSim_lspSrc, resetSim_lspDst] at h0
    rw [hcfg.lspSrc, hcfg.lspDst]
    obtain ⟨q, ⟨g1, g2⟩, g3, g4⟩ := h0
    refine ⟨q, ⟨?_, by rw [e2]; exact g2⟩, g3, by rw [e1, e2]; exact g4⟩
    rw [e1, e2]
    exact g1.mono fun i _ hi => ⟨by rw [e4]; exact hi.1, by rw [e3]; exact hi.2⟩
  · rw [hg.rest l hld] at hp
    unfold State.resetSim at hp
    simp only [] at hp
    rw [if_pos hl] at hp
    cases hp

theorem unfolded_ifcs (s : State) (q : List ℕ) : unfolded s (q.map Item.ifc) = q := by
  unfold unfolded
  rw [List.flatMap_map]
  simp

/-- **C116** After `update_simulation()`, without IGP shortcuts (both classes), every path of every
routed demand, followed through the LSPs on it, leads from the demand's source to its destination
and visits no node twice. -/
theorem C116_demand_loop_free {env : Env} {s s' : State} (ht : Tidy s)
    (hsc : s.kind = .flex → NoShortcuts s) (hkeys : KeysDistinct s)
    (hrun : updateSimulation env s = .ok () s') {d : ℕ} (hd : d ∈ s'.dmds)
    {paths : List (List Item)} (hp : (s'.dmd d).path = some paths) {r : List Item}
    (hr : r ∈ paths) : LoopFree s' (s'.dmdSrc d) (unfolded s' r) (s'.dmdDst d) := by
  obtain ⟨s1, Δ, h⟩ := sim_spec ht.dmds ht.ends ht.ckts hrun
  rw [h.cfg.dmds] at hd
  rcases h.placed ht hsc hd with ⟨ls, g1, g2, g3⟩ | ⟨-, ⟨g, -⟩ | ⟨l, g, -, -, hm⟩⟩
  · rw [hp] at g3
    cases g3
    obtain ⟨l, hlm, rfl⟩ := List.mem_map.1 hr
    obtain ⟨⟨a1, a2, a3⟩, p, c, m, hlp⟩ := (h.mem_group ht hkeys hd).1 ((g2.mem_iff l).1 hlm).1
    have := C116_lsp_loop_free ht hrun a1 hlp
    rw [a2, a3] at this
    have e : unfolded s' [Item.lsp l] = p := by unfold unfolded; simp [hlp]
    rw [e]
    exact this
  · rw [hp] at g; cases g
  · rw [hp] at g
    cases g
    obtain ⟨q, hq, rfl⟩ := List.mem_map.1 hr
    rw [unfolded_ifcs, h.cfg.dmdSrc, h.cfg.dmdDst]
    exact LoopFree.of_cheapest (h.sane ht).costs (fun i hi => ⟨hi.1, hi.2.1⟩) ((hm q).1 hq)
      (fun _ hi => hi) fun i hi => ⟨i, hi, rfl, rfl⟩

theorem LoopFree.stub {s : State} {a b v : String} {p : List ℕ} (h : LoopFree s a p b)
    (hv : Stub s v) {i : ℕ} (hi : i ∈ p) :
    (s.tail i = v → a = v) ∧ (s.head i = v → b = v) := by
  obtain ⟨q, ⟨h1, h2⟩, -, h3⟩ := h
  obtain ⟨w, hw⟩ := hv
  obtain ⟨j, hj, e1, e2⟩ := h3 i hi
  rw [e1, e2]
  exact ⟨stub_tail h1 (fun k hk => (hw k hk.1).1) (fun k hk => (hw k hk.1).2) h2 hj,
    stub_head h1 (fun k hk => (hw k hk.1).1) (fun k hk => (hw k hk.1).2) h2 hj⟩

/-- **C116** A node whose circuits all lead to one neighbour carries no transit traffic: a path of a
demand that leaves it belongs to a demand that starts there, and a path that enters it to a demand
that ends there. -/
theorem C116_no_transit {env : Env} {s s' : State} (ht : Tidy s)
    (hsc : s.kind = .flex → NoShortcuts s) (hkeys : KeysDistinct s)
    (hrun : updateSimulation env s = .ok () s') {v : String} (hv : Stub s' v) {d : ℕ}
    (hd : d ∈ s'.dmds) {paths : List (List Item)} (hp : (s'.dmd d).path = some paths)
    {r : List Item} (hr : r ∈ paths) {i : ℕ} (hi : i ∈ unfolded s' r) :
    (s'.tail i = v → s'.dmdSrc d = v) ∧ (s'.head i = v → s'.dmdDst d = v) :=
  LoopFree.stub (C116_demand_loop_free ht hsc hkeys hrun hd hp hr) hv hi

/-- a demand adds nothing to an interface that is on none of its paths -/
theorem SimResult.off_path {env : Env} {s s1 s' : State} {Δ : ℕ → ℕ → ℚ}
    (h : SimResult env s s1 s' Δ) (hk : s.kind = .flex) (ht : Tidy s) (hsc : NoShortcuts s)
    {d : ℕ} (hd : d ∈ s.dmds) {i : ℕ}
    (hi : ∀ paths, (s'.dmd d).path = some paths → ∀ r ∈ paths, i ∉ unfolded s' r) : Δ d i = 0 := by
  rcases h.placed ht (fun _ => hsc) hd with ⟨ls, g1, g2, g3⟩ | ⟨hr, -⟩
  · rw [(h.lspLoad ht hd g1 g2 g3).2 i]
    refine List.sum_eq_zero fun x hx => ?_
    obtain ⟨l, hl, rfl⟩ := List.mem_map.1 hx
    have := hi _ g3 [Item.lsp l] (List.mem_map.2 ⟨l, hl, rfl⟩)
    rw [if_neg]
    intro hc
    refine this ?_
    unfold crosses at hc
    unfold unfolded
    simp only [List.flatMap_cons, List.flatMap_nil, List.append_nil]
    cases hx : (s'.lsp l).path <;> rw [hx] at hc <;> simp_all
  · rcases h.igp ht (fun _ => hsc) hd hr with ⟨-, p2, -⟩ | ⟨l, det, p1, L⟩
    · exact p2 i
    · rw [L.load, h.cfg.kind.trans hk]
      show Spec.carried det i = 0
      refine carried_zero fun x hx hxi => ?_
      obtain ⟨q, hq, hqi⟩ := (L.uses i).1 ⟨x, hx, hxi⟩
      refine hi _ p1 _ (List.mem_map.2 ⟨q, hq, rfl⟩) ?_
      rw [unfolded_ifcs]
      exact hqi

/-- **C116** In a FlexModel without IGP shortcuts, the interfaces of such a node carry exactly the
traffic of the routed demands from it to other nodes, and the interfaces towards it exactly the
traffic of the routed demands to it.  LSP paths must be contiguous, as for C81. -/
theorem C116_stub_traffic {env : Env} {s s' : State} (hk : s.kind = .flex) (ht : Tidy s)
    (hsc : NoShortcuts s) (hkeys : KeysDistinct s) (hrun : updateSimulation env s = .ok () s')
    (hx : SingleLinks s ∨ AllOrNone s') {v : String} (hv : Stub s' v) :
    trafficOn s' (outOf s' fun u => u = v) = demandOut s' (fun u => u = v) ∧
    trafficOn s' (into s' fun u => u = v) = demandIn s' (fun u => u = v) := by
  have hbal := C99_cut_balance_partial hk ht hsc hkeys hrun hx fun u => u = v
  have hout : trafficOn s' (outOf s' fun u => u = v) = demandOut s' (fun u => u = v) := by
    obtain ⟨s1, Δ, h⟩ := sim_spec ht.dmds ht.ends ht.ckts hrun
    rw [h.trafficOn_eq (is := outOf s' _) fun i hi => (List.mem_filter.1 hi).1]
    unfold demandOut
    rw [h.cfg.dmds, sum_filter_ite]
    refine congrArg _ (List.map_congr_left fun d hd => ?_)
    have hd' : d ∈ s'.dmds := by rw [h.cfg.dmds]; exact hd
    have hz : ∀ is : List ℕ, (∀ i ∈ is, ∀ paths, (s'.dmd d).path = some paths → ∀ r ∈ paths,
        i ∉ unfolded s' r) → (is.map (Δ d)).sum = 0 := by
      intro is his
      refine List.sum_eq_zero fun x hx => ?_
      obtain ⟨i, hi, rfl⟩ := List.mem_map.1 hx
      exact h.off_path hk ht hsc hd (his i hi)
    by_cases hp : (s'.dmd d).path = none
    · rw [hz _ fun i _ paths hq => by rw [hp] at hq; cases hq]
      simp [hp]
    by_cases e1 : s'.dmdSrc d = v
    · by_cases e2 : s'.dmdDst d = v
      · rw [hz _ fun i hi paths hq r hr hir => ?_]
        · simp [e1, e2]
        · obtain ⟨q, ⟨b1, b2⟩, -, b3⟩ := C116_demand_loop_free ht (fun _ => hsc) hkeys hrun hd' hq hr
          obtain ⟨j, hj, -⟩ := b3 i hir
          rw [loop_nil b1 b2 (e1.trans e2.symm)] at hj
          cases hj
      · have hcut := cut_of_netFlow (s := s') (f := Δ d) (a := s'.dmdSrc d) (b := s'.dmdDst d)
          (q := (s'.dmd d).traffic) (fun u => by
            rw [h.netFlow_demand hk ht hsc hkeys hrun hx u d hd, if_neg hp]) fun u => u = v
        rw [hz (into s' _) fun i hi paths hq r hr hir => ?_] at hcut
        · simp only [e1, e2] at hcut ⊢
          simpa [hp] using hcut
        · have hb := (List.mem_filter.1 hi).2
          simp only [Bool.and_eq_true, decide_eq_true_eq] at hb
          exact e2 ((C116_no_transit ht (fun _ => hsc) hkeys hrun hv hd' hq hr hir).2 hb.2)
    · rw [hz _ fun i hi paths hq r hr hir => ?_]
      · simp [e1]
      · have hb := (List.mem_filter.1 hi).2
        simp only [Bool.and_eq_true, decide_eq_true_eq] at hb
        exact e1 ((C116_no_transit ht (fun _ => hsc) hkeys hrun hv hd' hq hr hir).1 hb.1)
  exact ⟨hout, by linarith⟩

/-- the diamond with a stub E behind D, a demand to E that rides an LSP, one that passes D, and one
from E -/
def Ex.tailed (k : Kind) : State := Ex.mk k
  [{ name := "A" }, { name := "B" }, { name := "C" }, { name := "D" }, { name := "E" }]
  (Ex.link "ab" 0 1 10 100 1 ++ Ex.link "bd" 1 3 10 100 2 ++ Ex.link "ac" 0 2 10 100 3 ++
    Ex.link "cd" 2 3 10 100 4 ++ Ex.link "de" 3 4 20 100 5)
  [{ src := 0, dst := 4, traffic := 24, name := "x" }, { src := 1, dst := 2, traffic := 3, name := "y" },
   { src := 4, dst := 0, traffic := 6, name := "z" }]
  [{ src := 0, dst := 4, name := "l", configured := some 4 }] []

theorem Ex.tailed_stub (k : Kind) :
    Stub (finalState (updateSimulation Env.default) (Ex.tailed k)) "E" :=
  ⟨"D", by cases k <;> decide +kernel⟩

example (k : Kind) : Tidy (Ex.tailed k) ∧ NoShortcuts (Ex.tailed k) ∧ KeysDistinct (Ex.tailed k) ∧
    SingleLinks (Ex.tailed k) ∧
    updateSimulation Env.default (Ex.tailed k) =
      .ok () (finalState (updateSimulation Env.default) (Ex.tailed k)) ∧
    ((finalState (updateSimulation Env.default) (Ex.tailed k)).dmd 0).path = some [[.lsp 0]] ∧
    demandOut (finalState (updateSimulation Env.default) (Ex.tailed k)) (fun u => u = "E") = 6 ∧
    demandIn (finalState (updateSimulation Env.default) (Ex.tailed k)) (fun u => u = "E") = 24 := by
  refine ⟨?_, ?_, ?_, ?_, ok_of_raised ?_, ?_, ?_, ?_⟩ <;> cases k <;> decide +kernel

/-- A-B-C with a detour A-C; the link B-C is too small for the LSP B→C -/
def Ex.turnback : State := Ex.mk .flex
  [{ name := "A" }, { name := "B", shortcuts := true }, { name := "C" }]
  (Ex.link "ab" 0 1 10 100 1 ++ Ex.link "bc" 1 2 10 5 2 ++ Ex.link "ac" 0 2 30 100 3)
  [{ src := 0, dst := 2, traffic := 8, name := "x" }]
  [{ src := 1, dst := 2, name := "l", configured := some 20 }] []

/-- **C116** does not extend to IGP shortcuts: the demand from A goes to B and there onto an LSP
that leads back through A. -/
theorem C116_shortcut_loop : Tidy Ex.turnback ∧ NamesDistinct Ex.turnback ∧
    raised (updateSimulation Env.default) Ex.turnback = none ∧
    ((finalState (updateSimulation Env.default) Ex.turnback).dmd 0).path =
      some [[.ifc 0, .lsp 0]] ∧
    visited (finalState (updateSimulation Env.default) Ex.turnback).head "A"
      (unfolded (finalState (updateSimulation Env.default) Ex.turnback) [.ifc 0, .lsp 0]) =
      ["A", "B", "A", "C"] := by
  refine ⟨?_, ?_, ?_, ?_, ?_⟩ <;> decide +kernel

end NTM
