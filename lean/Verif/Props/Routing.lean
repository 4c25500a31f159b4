import Verif.Proof.Shortcut
import Verif.Spec.Examples
import Verif.Spec.Decide

/-!
# C01–C04: which paths demands and LSPs take
-/

namespace NTM

open Spec

/-- does the demand path use an LSP? -/
def Spec.RidesLsp (paths : List (List Item)) : Prop := ∃ p ∈ paths, ∃ l, Item.lsp l ∈ p

theorem igp_paths {env : Env} {s s' : State} (ht : Tidy s) (hsc : s.kind = .flex → NoShortcuts s)
    (hrun : updateSimulation env s = .ok () s') {d : ℕ} (hd : d ∈ s'.dmds)
    {paths : List (List Item)} (hp : (s'.dmd d).path = some paths) (hn : ¬ RidesLsp paths) :
    paths.Nodup ∧ ∀ p, p ∈ paths ↔ ∃ q, p = q.map Item.ifc ∧
      CheapestOver s' (Usable s' 0) (s'.dmdSrc d) q (s'.dmdDst d) := by
  obtain ⟨s1, Δ, h⟩ := sim_spec ht.dmds ht.ends ht.ckts hrun
  rw [h.cfg.dmds] at hd
  rw [h.cfg.dmdSrc, h.cfg.dmdDst]
  rcases h.placed ht hsc hd with ⟨ls, hne, -, hpl⟩ | ⟨-, ⟨hpl, -⟩ | ⟨l, hpl, -, hnd, hl⟩⟩
  · rw [hp] at hpl
    cases hpl
    obtain ⟨l, hl⟩ := List.exists_mem_of_ne_nil ls hne
    exact absurd ⟨[Item.lsp l], List.mem_map.2 ⟨l, hl, rfl⟩, l, by simp⟩ hn
  · rw [hp] at hpl; cases hpl
  · rw [hp] at hpl
    cases hpl
    refine ⟨hnd.map (List.map_injective_iff.2 fun _ _ e => by cases e; rfl), fun p => ?_⟩
    rw [List.mem_map]
    constructor
    · rintro ⟨q, hq, rfl⟩
      exact ⟨q, rfl, (hl q).1 hq⟩
    · rintro ⟨q, rfl, hq⟩
      exact ⟨q, (hl q).2 hq, rfl⟩

/-- **C01** In a PerformanceModel, after `update_simulation()` a routed demand that rides no
LSP has as its paths exactly the cheapest interface sequences over usable interfaces, each
once. -/
theorem C01_igp_paths_exact_perf {env : Env} {s s' : State} (_hk : s.kind = .perf) (ht : Tidy s)
    (hrun : updateSimulation env s = .ok () s') {d : ℕ} (hd : d ∈ s'.dmds)
    {paths : List (List Item)} (hp : (s'.dmd d).path = some paths) (hn : ¬ RidesLsp paths) :
    paths.Nodup ∧ ∀ p, p ∈ paths ↔ ∃ q, p = q.map Item.ifc ∧
      CheapestOver s' (Usable s' 0) (s'.dmdSrc d) q (s'.dmdDst d) :=
  igp_paths ht (by rw [_hk]; intro e; cases e) hrun hd hp hn

/-- the square meets the hypotheses; its demand A→D takes both two-hop paths -/
example : (Ex.square .perf).kind = .perf ∧ Tidy (Ex.square .perf) ∧
    updateSimulation Env.default (Ex.square .perf) =
      .ok () (finalState (updateSimulation Env.default) (Ex.square .perf)) ∧
    ((finalState (updateSimulation Env.default) (Ex.square .perf)).dmd 0).path =
      some [[Item.ifc 0, Item.ifc 2], [Item.ifc 4, Item.ifc 6]] :=
  ⟨rfl, by decide +kernel, ok_of_raised (by decide +kernel), by decide +kernel⟩

/-- **C02** In a FlexModel without IGP shortcuts a routed demand that rides no end-to-end LSP
has as its paths exactly the cheapest interface sequences over usable interfaces, each once. -/
theorem C02_igp_paths_exact_flex {env : Env} {s s' : State} (_hk : s.kind = .flex) (ht : Tidy s)
    (hsc : NoShortcuts s)
    (hrun : updateSimulation env s = .ok () s') {d : ℕ} (hd : d ∈ s'.dmds)
    {paths : List (List Item)} (hp : (s'.dmd d).path = some paths) (hn : ¬ RidesLsp paths) :
    paths.Nodup ∧ ∀ p, p ∈ paths ↔ ∃ q, p = q.map Item.ifc ∧
      CheapestOver s' (Usable s' 0) (s'.dmdSrc d) q (s'.dmdDst d) :=
  igp_paths ht (fun _ => hsc) hrun hd hp hn

/-- A–B by three parallel links, one of them more expensive, then B–C by two. -/
def Ex.bundle : State := Ex.mk .flex
  [{ name := "A" }, { name := "B" }, { name := "C" }]
  (Ex.link "p" 0 1 10 100 1 ++ Ex.link "q" 0 1 10 100 2 ++ Ex.link "r" 0 1 15 100 3 ++
    Ex.link "u" 1 2 7 100 4 ++ Ex.link "v" 1 2 7 100 5)
  [{ src := 0, dst := 2, traffic := 12, name := "x" }] [] []

/-- parallel links: four of the six combinations are cheapest -/
example : Ex.bundle.kind = .flex ∧ Tidy Ex.bundle ∧ NoShortcuts Ex.bundle ∧
    updateSimulation Env.default Ex.bundle =
      .ok () (finalState (updateSimulation Env.default) Ex.bundle) ∧
    ((finalState (updateSimulation Env.default) Ex.bundle).dmd 0).path =
      some [[Item.ifc 0, Item.ifc 6], [Item.ifc 0, Item.ifc 8], [Item.ifc 2, Item.ifc 6],
        [Item.ifc 2, Item.ifc 8]] :=
  ⟨rfl, by decide +kernel, by decide +kernel, ok_of_raised (by decide +kernel), by decide +kernel⟩

/-- **C03** After `update_simulation()` a demand is unrouted exactly when no routed LSP joins
its end points and no route of usable interfaces does. -/
theorem C03_unrouted_iff {env : Env} {s s' : State} (ht : Tidy s) (hk : KeysDistinct s)
    (hrun : updateSimulation env s = .ok () s') {d : ℕ} (hd : d ∈ s'.dmds) :
    (s'.dmd d).path = none ↔
      (¬ ∃ l, LspBetween s' (s'.dmdSrc d) (s'.dmdDst d) l ∧ IsRouted s' l) ∧
      ¬ Reachable s'.tail s'.head (Usable s' 0) (s'.dmdSrc d) (s'.dmdDst d) := by
  obtain ⟨s1, Δ, h⟩ := sim_spec ht.dmds ht.ends ht.ckts hrun
  rw [h.cfg.dmds] at hd
  rw [h.cfg.dmdSrc, h.cfg.dmdDst, h.routed_iff ht hd, ridingOf_nil,
    h.routedGroup_eq hk (dmd_endNames hd).1 (dmd_endNames hd).2]
  refine and_congr_left' ?_
  rw [List.filter_eq_nil_iff]
  constructor
  · rintro hall ⟨l, ⟨h1, h2, h3⟩, h4⟩
    rw [h.cfg.lsps] at h1
    rw [h.cfg.lspSrc] at h2
    rw [h.cfg.lspDst] at h3
    have := hall l (mem_between.2 ⟨h1, h2, h3⟩)
    rw [(h.isRouted_iff ht h1).2 h4] at this
    exact this rfl
  · intro hne l hl hr
    obtain ⟨h1, h2, h3⟩ := mem_between.1 hl
    refine hne ⟨l, ⟨h.cfg.lsps ▸ h1, ?_, ?_⟩, (h.isRouted_iff ht h1).1 (by simpa using hr)⟩
    · rw [h.cfg.lspSrc]; exact h2
    · rw [h.cfg.lspDst]; exact h3

/-- The square with circuit A–C failed and node C cut off, a demand A→C that cannot be
carried, one A→D that can, and an LSP A→B that carries the demand A→B. -/
def Ex.cut (k : Kind) : State := Ex.mk k
  [{ name := "A" }, { name := "B" }, { name := "C" }, { name := "D" }]
  (Ex.link "ab" 0 1 10 100 1 ++ Ex.link "bd" 1 3 10 100 2 ++
    (Ex.link "ac" 0 2 10 100 3).map (fun i => { i with failed := true }) ++
    (Ex.link "cd" 2 3 10 100 4).map (fun i => { i with failed := true }))
  [{ src := 0, dst := 2, traffic := 10, name := "x" },
   { src := 0, dst := 3, traffic := 3, name := "y" },
   { src := 0, dst := 1, traffic := 4, name := "z" }]
  [{ src := 0, dst := 1, name := "l" }] []

example (k : Kind) : Tidy (Ex.cut k) ∧ KeysDistinct (Ex.cut k) ∧
    updateSimulation Env.default (Ex.cut k) =
      .ok () (finalState (updateSimulation Env.default) (Ex.cut k)) ∧
    ((finalState (updateSimulation Env.default) (Ex.cut k)).dmd 0).path = none ∧
    ((finalState (updateSimulation Env.default) (Ex.cut k)).dmd 1).path =
      some [[Item.ifc 0, Item.ifc 2]] ∧
    ((finalState (updateSimulation Env.default) (Ex.cut k)).dmd 2).path = some [[Item.lsp 0]] := by
  cases k <;> exact ⟨by decide +kernel, by decide +kernel, ok_of_raised (by decide +kernel),
    by decide +kernel, by decide +kernel, by decide +kernel⟩

/-- nothing in `s` is routed over, or reserved on, a failed interface, and failed interfaces
are exactly those that report no traffic number -/
structure Spec.NoFailedUse (s : State) : Prop where
  demands : ∀ d ∈ s.dmds, ∀ paths, (s.dmd d).path = some paths → ∀ p ∈ paths, ∀ i,
    Item.ifc i ∈ p → (s.ifc i).failed = false
  lsps : ∀ l ∈ s.lsps, ∀ i, OnPath s l i → (s.ifc i).failed = false
  down : ∀ i ∈ s.ifs, (s.ifc i).failed = true → (s.ifc i).traffic = .down ∧ s.reservedBw i = 0
  up : ∀ i ∈ s.ifs, ∀ q, (s.ifc i).traffic = .val q → (s.ifc i).failed = false

theorem demand_not_failed {env : Env} {s s' : State} (ht : Tidy s)
    (hrun : updateSimulation env s = .ok () s') {d : ℕ} (hd : d ∈ s'.dmds)
    {paths : List (List Item)} (hp : (s'.dmd d).path = some paths) {p : List Item}
    (hpm : p ∈ paths) {i : ℕ} (hi : Item.ifc i ∈ p) : Usable s' 0 i := by
  obtain ⟨s1, Δ, h⟩ := sim_spec ht.dmds ht.ends ht.ckts hrun
  rw [h.cfg.dmds] at hd
  rcases h.place d hd with ⟨ls, h1, h2, h3⟩ | ⟨h1, D', h2⟩
  · rw [hp] at h3
    cases h3
    obtain ⟨l, -, rfl⟩ := List.mem_map.1 hpm
    simp at hi
  · have hs1 := h.sane1 ht
    have hsaneD : Sane { s1 with dmd := D' } := ⟨hs1.nodup, hs1.costs, hs1.single⟩
    rw [hp] at h2
    have := igpPaths_mem hsaneD (considered_sub s1 _ _ _) (nodup_igpEdges hs1.nodup) h2 p hpm i hi
    have : i ∈ s'.igpEdges := by rw [h.net.2.2.2.2.2.2.2.2.2.1]; exact this
    exact mem_considered_usable.1 this

theorem no_failed_use {env : Env} {s s' : State} (ht : Tidy s)
    (hrun : updateSimulation env s = .ok () s') (hx : SingleLinks s ∨ AllOrNone s') :
    NoFailedUse s' := by
  obtain ⟨s1, Δ, h⟩ := sim_spec ht.dmds ht.ends ht.ckts hrun
  have hs0 : Sane s.resetSim := (cfg_resetSim s).sane (h.sane0 ht)
  obtain ⟨done, hg, hdone⟩ := h.lspInv ht (barred_rule env hs0)
  have hdl : ∀ l ∈ done, l ∈ s.lsps := fun l hl => by
    obtain ⟨g, h1, h2⟩ := (hdone l).1 hl
    exact mem_of_buildGroups h1 h2
  have hlsp : s'.lsp = s1.lsp := h.net.2.2.1
  have hcfg := h.cfg
  have hnm : ¬ (¬ SingleLinks s.resetSim ∧ Mixed s.resetSim done s1) := by
    rintro ⟨h1, l, hl, l', hl', e1, e2, e3, e4⟩
    rcases hx with hx | hx
    · exact h1 ((cfg_resetSim s).singleLinks_iff.2 hx)
    · have hr : IsRouted s' l := by unfold IsRouted; rw [hlsp]; exact e3
      rw [resetSim_lspSrc] at e1
      rw [resetSim_lspDst] at e2
      obtain ⟨p, c, hd, e⟩ := hx l (hcfg.lsps ▸ hdl l hl) l' (hcfg.lsps ▸ hdl l' hl')
        (by rw [hcfg.lspSrc, hcfg.lspSrc, e1]) (by rw [hcfg.lspDst, hcfg.lspDst, e2]) hr
      rw [hlsp, e4] at e
      cases e
  have helig := hg.inv.1.2.resolve_left hnm
  have hbar := hg.inv.2.resolve_left hnm
  have hfail := h.net.2.2.2.2.2.2.1
  have hf0 : ∀ i, (s.resetSim.ifc i).failed = (s'.ifc i).failed := by
    intro i; rw [(cfg_resetSim s).ifc i, hcfg.ifc i]
  refine ⟨fun d hd paths hp p hpm i hi => (demand_not_failed ht hrun hd hp hpm hi).2.1, ?_, ?_, ?_⟩
  · rintro l hl i ⟨p, c, hd, hp, hi⟩
    rw [hlsp] at hp
    by_cases hld : l ∈ done
    · have := Route.mem_ok (helig l hld p c hd hp) i hi
      rw [hfail]; exact this.2.1
    · rw [hg.rest l hld] at hp
      unfold State.resetSim at hp
      simp only [] at hp
      rw [hcfg.lsps] at hl
      rw [if_pos hl] at hp
      cases hp
  · intro i hi hf
    rw [hcfg.ifs] at hi
    refine ⟨?_, ?_⟩
    · have := h.traffic i hi
      rw [this]
      rw [if_pos hf]
    · have := hbar i hi (.inl (by rw [hf0]; exact hf))
      rw [h.net.2.1]
      unfold State.reservedBw
      rw [this]
      exact pyRound_zero 1
  · intro i hi q hq
    rw [hcfg.ifs] at hi
    have := h.traffic i hi
    rw [hq] at this
    by_contra hf
    have hf' : (s'.ifc i).failed = true := by simpa using hf
    rw [if_pos hf'] at this
    cases this

/-- **C04** (PerformanceModel) After `update_simulation()` nothing is routed over a failed
interface, failed interfaces report "Down" and no reservations, and only they do. -/
theorem C04_nothing_over_failed_perf {env : Env} {s s' : State} (hk : s.kind = .perf) (ht : Tidy s)
    (hrun : updateSimulation env s = .ok () s') : NoFailedUse s' := by
  obtain ⟨s1, Δ, h⟩ := sim_spec ht.dmds ht.ends ht.ckts hrun
  exact no_failed_use ht hrun (.inl (h.single hk))

/-- **C04** (FlexModel, partial) as for the PerformanceModel, provided there are no parallel
links or no group of parallel LSPs ends up partly routed.  Without that proviso it is false:
see `C04_flex_false`. -/
theorem C04_nothing_over_failed_flex_partial {env : Env} {s s' : State} (ht : Tidy s)
    (hrun : updateSimulation env s = .ok () s') (hx : SingleLinks s ∨ AllOrNone s') :
    NoFailedUse s' :=
  no_failed_use ht hrun hx

/-- **C04** In a FlexModel demands never use a failed interface directly, whatever the LSPs and
IGP shortcuts. -/
theorem C04_demands_avoid_failed {env : Env} {s s' : State} (ht : Tidy s)
    (hrun : updateSimulation env s = .ok () s') {d : ℕ} (hd : d ∈ s'.dmds)
    {paths : List (List Item)} (hp : (s'.dmd d).path = some paths) {p : List Item}
    (hpm : p ∈ paths) {i : ℕ} (hi : Item.ifc i ∈ p) : (s'.ifc i).failed = false :=
  (demand_not_failed ht hrun hd hp hpm hi).2.1

example (k : Kind) : Tidy (Ex.cut k) ∧ SingleLinks (Ex.cut k) ∧
    updateSimulation Env.default (Ex.cut k) =
      .ok () (finalState (updateSimulation Env.default) (Ex.cut k)) ∧
    ((finalState (updateSimulation Env.default) (Ex.cut k)).ifc 4).traffic = .down ∧
    OnPath (finalState (updateSimulation Env.default) (Ex.cut k)) 0 0 := by
  cases k <;> exact ⟨by decide +kernel, by decide +kernel, ok_of_raised (by decide +kernel),
    by decide +kernel, by decide +kernel⟩

/-- Two parallel A–B circuits, one failed, and two LSPs A→B, one of which asks for too much. -/
def Ex.mixed : State := Ex.mk .flex
  [{ name := "A" }, { name := "B" }]
  (Ex.link "p" 0 1 10 100 1 ++ (Ex.link "q" 0 1 10 100 2).map (fun i => { i with failed := true }))
  []
  [{ src := 0, dst := 1, name := "big", configured := some 500 },
   { src := 0, dst := 1, name := "small", configured := some 0 }] []

/-- **C04** is false of the FlexModel: when one of two parallel LSPs fails to route, the other
is re-signalled over the failed parallel link. -/
theorem C04_flex_false : ¬ ∀ (env : Env) (s s' : State), Tidy s →
    updateSimulation env s = .ok () s' → NoFailedUse s' := by
  intro h
  have hr := h Env.default Ex.mixed _ (by decide +kernel) (ok_of_raised (by decide +kernel))
  have := hr.lsps 1 (by decide +kernel) 2 (by decide +kernel)
  revert this
  decide +kernel

end NTM
