import Verif.Proof.ShortcutLoad
import Verif.Spec.Examples
import Verif.Props.Lsp

/-!
# C69, C70, C74 and C75: IGP shortcuts
-/

namespace NTM

open Spec

/-- **C69** Substituting groups of parallel LSPs for the stretches of an interface path between
their end points succeeds; it yields each combination of LSPs exactly once, and every result
still leads contiguously from the start to the end of the path. -/
theorem C69_substitution {s : State} {ok : ℕ → Prop} {legs : List Leg} {rest : List ℕ}
    {u v : String} (hr : Route s.tail s.head ok u (wholePath legs rest) v)
    (hsimple : (visited s.head u (wholePath legs rest)).Nodup)
    (hf : ∀ g ∈ legs, g.Fits s ∧ g.SameNodes s ∧ g.lsps.Nodup) :
    ∃ rs, s.insertLsps (legs.map Leg.lsps) (wholePath legs rest) = some rs ∧ rs.Nodup ∧
      rs.length = (legs.map fun g => g.lsps.length).prod ∧
      (∀ r, r ∈ rs ↔ ∃ choice, Choice choice legs ∧ r = substituted legs choice rest) ∧
      ∀ r ∈ rs, ItemRoute s u r v := by
  have hh : ((wholePath legs rest).map s.head).Nodup := (List.nodup_cons.1 hsimple).2
  have ht : ((wholePath legs rest).map s.tail).Nodup := by
    have h1 := route_nodes hr
    unfold visited at hsimple
    rw [h1] at hsimple
    exact hsimple.of_append_left
  obtain ⟨rs, h⟩ := insertLsps_some rfl (fun g hg => (hf g hg).1) fun g hg => (hf g hg).2.1
  obtain ⟨h1, h2⟩ := insertLsps_legs rfl ht hh (fun g hg => (hf g hg).1) h
  refine ⟨rs, h, insertLsps_nodup rfl ht hh (fun g hg => (hf g hg).1)
    (fun g hg => (hf g hg).2.2) h, h1, h2, fun r hr' => ?_⟩
  obtain ⟨choice, hc, rfl⟩ := (h2 r).1 hr'
  exact substituted_route legs (fun g hg => (hf g hg).1) choice hc hr

/-- A row A-B-C-D-E with IGP shortcuts enabled at A and D, two LSPs A→C and two LSPs D→E; a
demand A→E and one A→C. -/
def Ex.row : State := Ex.mk .flex
  [{ name := "A", shortcuts := true }, { name := "B" }, { name := "C" },
   { name := "D", shortcuts := true }, { name := "E" }]
  (Ex.link "ab" 0 1 10 100 1 ++ Ex.link "bc" 1 2 10 100 2 ++ Ex.link "cd" 2 3 10 100 3 ++
    Ex.link "de" 3 4 10 100 4)
  [{ src := 0, dst := 4, traffic := 8, name := "x" }, { src := 0, dst := 2, traffic := 2, name := "y" }]
  [{ src := 0, dst := 2, name := "k" }, { src := 0, dst := 2, name := "l" },
   { src := 3, dst := 4, name := "m" }, { src := 3, dst := 4, name := "n" }] []

/-- the row meets the hypotheses: two groups of two LSPs, four results -/
example : let legs : List Leg := [⟨[], [0, 2], [0, 1]⟩, ⟨[4], [6], [2, 3]⟩]
    Route Ex.row.tail Ex.row.head (fun _ => True) "A" (wholePath legs []) "E" ∧
    (visited Ex.row.head "A" (wholePath legs [])).Nodup ∧
    (∀ g ∈ legs, g.Fits Ex.row ∧ g.SameNodes Ex.row ∧ g.lsps.Nodup) ∧
    Ex.row.insertLsps (legs.map Leg.lsps) (wholePath legs []) =
      some [[.lsp 0, .ifc 4, .lsp 2], [.lsp 1, .ifc 4, .lsp 2], [.lsp 0, .ifc 4, .lsp 3],
        [.lsp 1, .ifc 4, .lsp 3]] := by
  refine ⟨?_, by decide +kernel, ?_, by decide +kernel⟩
  · exact .cons (i := 0) trivial (.cons (i := 2) trivial (.cons (i := 4) trivial
      (.cons (i := 6) trivial (.nil _))))
  · intro g hg
    simp only [List.mem_cons, List.not_mem_nil, or_false] at hg
    rcases hg with rfl | rfl
    · exact ⟨⟨by simp, 0, 2, rfl, rfl, by decide +kernel⟩, by unfold Leg.SameNodes; decide +kernel,
        by simp⟩
    · exact ⟨⟨by simp, 6, 6, rfl, rfl, by decide +kernel⟩, by unfold Leg.SameNodes; decide +kernel,
        by simp⟩

/-- **C69** After `update_simulation()` a routed demand rides the routed LSPs of least metric
between its end points, or each of its paths is a cheapest usable interface path in which
stretches may be replaced by LSPs: each by one of the routed LSPs of least metric between the
ends of the stretch, the first of which has IGP shortcuts enabled. -/
theorem C69_paths_via_shortcuts {env : Env} {s s' : State} (ht : Tidy s) (hn : NamesDistinct s)
    (hrun : updateSimulation env s = .ok () s') {d : ℕ} (hd : d ∈ s'.dmds)
    {paths : List (List Item)} (hp : (s'.dmd d).path = some paths) :
    (∃ ls, ls ≠ [] ∧ BestLsps s' (s'.dmdSrc d) (s'.dmdDst d) ls ∧
      paths = ls.map fun l => [Item.lsp l]) ∨
    ∀ r ∈ paths, ViaShortcuts s' (s'.dmdSrc d) r (s'.dmdDst d) := by
  obtain ⟨s1, Δ, h⟩ := sim_spec ht.dmds ht.ends ht.ckts hrun
  rw [h.cfg.dmds] at hd
  rw [h.cfg.dmdSrc, h.cfg.dmdDst]
  rcases h.shortcut_placed ht hn hd hp with ⟨ls, h1, h2, h3⟩ | ⟨-, h2⟩
  · exact .inl ⟨ls, h1, h.riding_best ht hn (List.mem_append_right _ (dmd_endNames hd).1)
      (List.mem_append_right _ (dmd_endNames hd).2) h2, h3⟩
  · exact .inr h2

/-- **C69** After `update_simulation()` every path of every routed demand, with or without LSPs
on it, leads contiguously from the demand's source to its destination. -/
theorem C69_paths_connected {env : Env} {s s' : State} (ht : Tidy s) (hn : NamesDistinct s)
    (hrun : updateSimulation env s = .ok () s') {d : ℕ} (hd : d ∈ s'.dmds)
    {paths : List (List Item)} (hp : (s'.dmd d).path = some paths) :
    ∀ r ∈ paths, ItemRoute s' (s'.dmdSrc d) r (s'.dmdDst d) := by
  intro r hr
  rcases C69_paths_via_shortcuts ht hn hrun hd hp with ⟨ls, -, h2, rfl⟩ | h
  · obtain ⟨l, hl, rfl⟩ := List.mem_map.1 hr
    obtain ⟨⟨-, h3, h4⟩, -⟩ := (h2 l).1 hl
    rw [← h3, ← h4]
    exact .lsp (.nil _)
  · obtain ⟨legs, choice, rest, h1, h2, h3, rfl⟩ := h r hr
    exact substituted_route legs (fun g hg => (h2 g hg).1) choice h3 h1.1

/-- the row, simulated: the demand A→E takes the four combinations, the demand A→C both LSPs -/
example : Tidy Ex.row ∧ NamesDistinct Ex.row ∧
    updateSimulation Env.default Ex.row =
      .ok () (finalState (updateSimulation Env.default) Ex.row) ∧
    ((finalState (updateSimulation Env.default) Ex.row).dmd 0).path =
      some [[.lsp 0, .ifc 4, .lsp 2], [.lsp 1, .ifc 4, .lsp 2], [.lsp 0, .ifc 4, .lsp 3],
        [.lsp 1, .ifc 4, .lsp 3]] ∧
    ((finalState (updateSimulation Env.default) Ex.row).dmd 1).path =
      some [[.lsp 0], [.lsp 1]] :=
  ⟨by decide +kernel, by decide +kernel, ok_of_raised (by decide +kernel), by decide +kernel,
    by decide +kernel⟩

/-- The names must be unambiguous for that: with nodes "A", "A-B", "B-C" and "C" an LSP from "A"
to "B-C" is taken for one from "A-B" to "C". -/
def Ex.misled : State := Ex.mk .flex
  [{ name := "A" }, { name := "A-B", shortcuts := true }, { name := "B-C" }, { name := "C" },
   { name := "D" }]
  (Ex.link "p" 0 2 10 100 1 ++ Ex.link "q" 1 3 10 100 2 ++ Ex.link "r" 2 3 10 100 3 ++
    Ex.link "t" 3 4 10 100 4)
  [{ src := 1, dst := 3, traffic := 8, name := "x" }]
  [{ src := 0, dst := 2, name := "k" }] []

/-- **C69** ... without that hypothesis the claim fails. -/
theorem C69_hyphens_false : ∃ s s' d, Tidy s ∧ updateSimulation Env.default s = .ok () s' ∧
    d ∈ s'.dmds ∧ ∃ paths, (s'.dmd d).path = some paths ∧
      ∃ r ∈ paths, ¬ ItemRoute s' (s'.dmdSrc d) r (s'.dmdDst d) := by
  refine ⟨Ex.misled, finalState (updateSimulation Env.default) Ex.misled, 0, by decide +kernel,
    ok_of_raised (by decide +kernel), by decide +kernel, [[.lsp 0]], by decide +kernel, [.lsp 0],
    by simp, fun h => ?_⟩
  generalize hu : (finalState (updateSimulation Env.default) Ex.misled).dmdSrc 0 = u at h
  cases h
  revert hu
  decide +kernel

/-- S-A and on from A over two branches to D, IGP shortcuts enabled at S and A, LSPs S→A and
A→C, a demand S→D of 12. -/
def Ex.lossy : State := Ex.mk .flex
  [{ name := "S", shortcuts := true }, { name := "A", shortcuts := true }, { name := "B" },
   { name := "C" }, { name := "D" }]
  (Ex.link "sa" 0 1 10 100 1 ++ Ex.link "ab" 1 2 10 100 2 ++ Ex.link "ac" 1 3 10 100 3 ++
    Ex.link "bd" 2 4 10 100 4 ++ Ex.link "cd" 3 4 10 100 5)
  [{ src := 0, dst := 4, traffic := 12, name := "x" }]
  [{ src := 0, dst := 1, name := "k" }, { src := 1, dst := 3, name := "l" }] []

/-- **C70** does not hold: after a simulation the `path_traffic` values of the demand add up to
less than its traffic. -/
theorem C70_traffic_lost_false : ∃ s s' d, Tidy s ∧ NamesDistinct s ∧ NodesKnit s' ∧
    updateSimulation Env.default s = .ok () s' ∧ d ∈ s'.dmds ∧
    ∃ det, (s'.dmd d).detail = some det ∧ totalTraffic det < (s'.dmd d).traffic := by
  have h : ((finalState (updateSimulation Env.default) Ex.lossy).dmd 0).detail.map totalTraffic =
      some 6 := by decide +kernel
  obtain ⟨det, h1, h2⟩ := Option.map_eq_some_iff.1 h
  refine ⟨Ex.lossy, finalState (updateSimulation Env.default) Ex.lossy, 0, by decide +kernel,
    by decide +kernel, by decide +kernel, ok_of_raised (by decide +kernel), by decide +kernel,
    det, h1, ?_⟩
  rw [h2]
  decide +kernel

/-- **C70** In a FlexModel whose interface and LSP ends of one name have equal node objects, after
`update_simulation()` the `path_traffic` values of every routed demand between whose ends the
cheapest usable paths agree on the end points of LSPs they visit add up to the demand's traffic.
Missing for the full claim: demands whose cheapest paths visit different end points of LSPs, for
which it fails. -/
theorem C70_conserved_partial {env : Env} {s s' : State} (hk : s.kind = .flex) (ht : Tidy s)
    (hn : NamesDistinct s) (hrun : updateSimulation env s = .ok () s') (hknit : NodesKnit s')
    {d : ℕ} (hd : d ∈ s'.dmds) (hcut : SharedEnds s' (s'.dmdSrc d) (s'.dmdDst d))
    (hp : (s'.dmd d).path ≠ none) {det : List PathInfo} (hdet : (s'.dmd d).detail = some det) :
    totalTraffic det = (s'.dmd d).traffic := by
  obtain ⟨s1, Δ, h⟩ := sim_spec ht.dmds ht.ends ht.ckts hrun
  exact h.shortcut_total ht hn hk (h.cfg.dmds ▸ hd) hcut hknit hdet hp

/-- shows `SharedEnds` for a concrete model -/
theorem sharedEnds_of {s : State} (h : Sane s) (hk : s.kind = .flex) {a b : String}
    {ps : List (List String)} (hps : (s.graphOf s.igpEdges).allShortestPaths a b = .ok ps)
    (hchk : ∀ l ∈ s.lsps,
      ∀ p ∈ State.normalize (ps.map (s.convertMdg s.igpEdges)),
      ∀ q ∈ State.normalize (ps.map (s.convertMdg s.igpEdges)),
        ((s.node (s.lsp l).src).name ∈ visited s.head a p →
          (s.node (s.lsp l).src).name ∈ visited s.head a q) ∧
        ((s.node (s.lsp l).dst).name ∈ visited s.head a p →
          (s.node (s.lsp l).dst).name ∈ visited s.head a q)) :
    SharedEnds s a b := by
  have key := (flex_paths h hk (List.filter_subset_self _) (nodup_igpEdges h.nodup) hps).2
  intro l hl n hn p q hp hq
  have hp' := (key p).2 (cheapestOver_igp.2 hp)
  have hq' := (key q).2 (cheapestOver_igp.2 hq)
  rcases hn with rfl | rfl
  · exact (hchk l hl p hp' q hq').1
  · exact (hchk l hl p hp' q hq').2

/-- A-B, from B over C (whence two parallel links) or D to E, E-F; IGP shortcuts enabled at A and
E, two LSPs A→B, an LSP E→F, a demand A→F of 8. -/
def Ex.braid : State := Ex.mk .flex
  [{ name := "A", shortcuts := true }, { name := "B" }, { name := "C" }, { name := "D" },
   { name := "E", shortcuts := true }, { name := "F" }]
  (Ex.link "ab" 0 1 10 100 1 ++ Ex.link "bc" 1 2 10 100 2 ++ Ex.link "ce" 2 4 10 100 3 ++
    Ex.link "cf" 2 4 10 100 4 ++ Ex.link "bd" 1 3 10 100 5 ++ Ex.link "de" 3 4 10 100 6 ++
    Ex.link "ef" 4 5 10 100 7)
  [{ src := 0, dst := 5, traffic := 8, name := "x" }]
  [{ src := 0, dst := 1, name := "k" }, { src := 0, dst := 1, name := "l" },
   { src := 4, dst := 5, name := "m" }] []
theorem Ex.braid_shared : SharedEnds (finalState (updateSimulation Env.default) Ex.braid) "A" "F" := by
  have ht : Tidy Ex.braid := by decide +kernel
  obtain ⟨s1, Δ, h⟩ := sim_spec ht.dmds ht.ends ht.ckts
    (ok_of_raised (x := updateSimulation Env.default) (s := Ex.braid) (by decide +kernel))
  refine sharedEnds_of (h.sane ht) (by decide +kernel)
    (ps := [["A", "B", "C", "E", "F"], ["A", "B", "D", "E", "F"]]) (by decide +kernel) ?_
  decide +kernel

/-- the braid: six paths, which carry 1, 1, 1, 1, 2 and 2 -/
example : Ex.braid.kind = .flex ∧ Tidy Ex.braid ∧ NamesDistinct Ex.braid ∧
    updateSimulation Env.default Ex.braid =
      .ok () (finalState (updateSimulation Env.default) Ex.braid) ∧
    NodesKnit (finalState (updateSimulation Env.default) Ex.braid) ∧
    SharedEnds (finalState (updateSimulation Env.default) Ex.braid) "A" "F" ∧
    ((finalState (updateSimulation Env.default) Ex.braid).dmd 0).path =
      some [[.lsp 0, .ifc 2, .ifc 4, .lsp 2], [.lsp 1, .ifc 2, .ifc 4, .lsp 2],
        [.lsp 0, .ifc 2, .ifc 6, .lsp 2], [.lsp 1, .ifc 2, .ifc 6, .lsp 2],
        [.lsp 0, .ifc 8, .ifc 10, .lsp 2], [.lsp 1, .ifc 8, .ifc 10, .lsp 2]] ∧
    ((finalState (updateSimulation Env.default) Ex.braid).dmd 0).detail.map
      (fun det => det.map fun e => e.traffic) = some [1, 1, 1, 1, 2, 2] :=
  ⟨rfl, by decide +kernel, by decide +kernel, ok_of_raised (by decide +kernel), by decide +kernel,
    Ex.braid_shared, by decide +kernel, by decide +kernel⟩

/-- **C74** In a FlexModel, IGP shortcuts or not, after `update_simulation()` the traffic of every
interface that is up is the sum over the demands of what each puts on it
(`Spec.shortcutContribution`). -/
theorem C74_interface_traffic {env : Env} {s s' : State} (hk : s.kind = .flex) (ht : Tidy s)
    (hn : NamesDistinct s) (hrun : updateSimulation env s = .ok () s') {i : ℕ}
    (hi : i ∈ s'.ifs) (hup : (s'.ifc i).failed = false) :
    (s'.ifc i).traffic = .val (s'.dmds.map fun d => shortcutContribution s' d i).sum := by
  obtain ⟨s1, Δ, h⟩ := sim_spec ht.dmds ht.ends ht.ckts hrun
  rw [h.traffic i (h.cfg.ifs ▸ hi), hup, h.cfg.dmds]
  simp only [Bool.false_eq_true, if_false]
  rw [List.map_congr_left fun d hd => h.delta_mixed ht hn hk hd i]

/-- the braid with 8.66 instead of 8: the LSPs A→B put twice 4.3 on their interface, the LSP E→F
puts 8.7 on its -/
def Ex.frayed : State :=
  { Ex.braid with dmd := fun d => { Ex.braid.dmd d with traffic := 433 / 50 } }

example : let s := finalState (updateSimulation Env.default) Ex.frayed
    Ex.frayed.kind = .flex ∧ Tidy Ex.frayed ∧ NamesDistinct Ex.frayed ∧
    updateSimulation Env.default Ex.frayed = .ok () s ∧
    (s.ifs.map fun i => (s.ifc i).failed) = List.replicate 14 false ∧
    (s.ifs.map fun i => shortcutContribution s 0 i) =
      [43 / 5, 0, 433 / 100, 0, 433 / 200, 0, 433 / 200, 0, 433 / 100, 0, 433 / 100, 0, 87 / 10, 0] :=
  ⟨rfl, by decide +kernel, by decide +kernel, ok_of_raised (by decide +kernel), by decide +kernel,
    by decide +kernel⟩

/-- **C75** In a FlexModel under the hypotheses of C70, at every node the traffic of the paths of a
demand that leave the node is divided equally among the interfaces and LSPs by which they leave
it. -/
theorem C75_equal_split {env : Env} {s s' : State} (hk : s.kind = .flex) (ht : Tidy s)
    (hn : NamesDistinct s) (hrun : updateSimulation env s = .ok () s') (hknit : NodesKnit s')
    {d : ℕ} (hd : d ∈ s'.dmds) (hcut : SharedEnds s' (s'.dmdSrc d) (s'.dmdDst d))
    {paths : List (List Item)} (hp : (s'.dmd d).path = some paths)
    (hsole : ∃ r ∈ paths, soleLsp r = false) {det : List PathInfo}
    (hdet : (s'.dmd d).detail = some det) {u : String} {x : Item} (hx : x ∈ itemHops s' det u) :
    itemCarried det x = through s' det u / (itemHops s' det u).length := by
  obtain ⟨s1, Δ, h⟩ := sim_spec ht.dmds ht.ends ht.ckts hrun
  have hd' := h.cfg.dmds ▸ hd
  rcases h.shortcut_placed ht hn hd' hp with ⟨ls, -, -, rfl⟩ | ⟨g, -⟩
  · obtain ⟨r, hr, e⟩ := hsole
    obtain ⟨l, -, rfl⟩ := List.mem_map.1 hr
    cases e
  · rcases h.load d hd' with ⟨h0, -⟩ | ⟨paths', ls, det', h1, h2, h3, h4⟩
    · rw [hp] at h0; cases h0
    · rw [hp] at h1; cases h1
      rw [hdet] at h4; cases h4
      rcases h3 with ⟨h5, -⟩ | ⟨rfl, h6, -⟩
      · exact absurd (h2.unique g) h5
      · have hfan := h.shortcut_fan ht hn hk hd' hcut hknit hp h2
        rw [h.cfg.kind, hk] at h6
        exact hfan.split h6 hx

/-- **C75** In any model, at every node between the ends of a routed demand, as much of its traffic
enters over interfaces and LSPs as leaves, even where `path_traffic` does not add up to the
demand's traffic. -/
theorem C75_flow_conserved {env : Env} {s s' : State} (ht : Tidy s)
    (hn : NamesDistinct s) (hrun : updateSimulation env s = .ok () s') {d : ℕ} (hd : d ∈ s'.dmds)
    (hp : (s'.dmd d).path ≠ none) {det : List PathInfo}
    (hdet : (s'.dmd d).detail = some det) {u : String} (hu : u ≠ s'.dmdSrc d)
    (hv : u ≠ s'.dmdDst d) :
    ((itemsInto s' det u).map (itemCarried det)).sum =
      ((itemHops s' det u).map (itemCarried det)).sum := by
  obtain ⟨paths, hp⟩ := Option.ne_none_iff_exists'.1 hp
  have hconn := C69_paths_connected ht hn hrun hd hp
  obtain ⟨s1, Δ, h⟩ := sim_spec ht.dmds ht.ends ht.ckts hrun
  have hd' := h.cfg.dmds ▸ hd
  have hpl := h.shortcut_placed ht hn hd' hp
  have hitems := h.detail_items hd' hp (hpl.imp id And.left) hdet
  have hnod : ∀ r ∈ paths, r.Nodup := by
    intro r hr
    rcases hpl with ⟨ls, -, -, rfl⟩ | ⟨-, g⟩
    · obtain ⟨l, -, rfl⟩ := List.mem_map.1 hr
      simp
    · obtain ⟨gs, hs⟩ := viaShortcuts_sub (fun i hi => (h.sane ht).costs i hi.1) (g r hr)
      exact hs.nodup
  have hmem : ∀ e ∈ det, e.items ∈ paths := fun e he => hitems ▸ List.mem_map.2 ⟨e, he, rfl⟩
  unfold itemsInto itemHops
  rw [hops_sum det (fun e he => hnod _ (hmem e he)), hops_sum det fun e he => hnod _ (hmem e he)]
  congr 1
  refine List.map_congr_left fun e he => ?_
  rw [itemRoute_balance (hconn _ (hmem e he)) hu hv]

/-- the braid at B: 8 arrive over two LSPs, 4 leave to C and 4 to D -/
example : let s := finalState (updateSimulation Env.default) Ex.braid
    (s.dmd 0).detail.map (fun det => (itemsInto s det "B", itemHops s det "B",
      (itemHops s det "B").map (itemCarried det), through s det "B")) =
      some ([.lsp 0, .lsp 1], [.ifc 2, .ifc 8], [4, 4], 8) ∧
    (s.dmd 0).path.map (fun ps => ps.any fun r => !soleLsp r) = some true := by
  constructor <;> decide +kernel

end NTM
