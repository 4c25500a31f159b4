import Verif.Proof.Contribution
import Verif.Props.Routing

/-!
# C05–C11: the load demands put on the network
-/

namespace NTM

open Spec

/-- everything about a demand that rides no LSP -/
theorem igp_load {env : Env} {s s' : State} (ht : Tidy s) (hsc : s.kind = .flex → NoShortcuts s)
    (hrun : updateSimulation env s = .ok () s') {d : ℕ} (hd : d ∈ s'.dmds)
    {paths : List (List Item)} (hp : (s'.dmd d).path = some paths) (hn : ¬ RidesLsp paths)
    {det : List PathInfo} (hdet : (s'.dmd d).detail = some det) :
    ∃ l Δ, paths = l.map (fun q => q.map Item.ifc) ∧ IgpLoad s' d l det Δ ∧ s'.ifs.Nodup ∧
      s'.kind = s.kind := by
  obtain ⟨s1, Δ, h⟩ := sim_spec ht.dmds ht.ends ht.ckts hrun
  rw [h.cfg.dmds] at hd
  obtain ⟨l, det', h1, h2, h3⟩ := h.igpLoad ht hsc hd hp fun p hp m hm => hn ⟨p, hp, m, hm⟩
  rw [hdet] at h2
  cases h2
  exact ⟨l, Δ d, h1, h3, (h.sane ht).nodup, h.cfg.kind⟩

/-- **C05** In a FlexModel without IGP shortcuts the path traffic values of a demand that rides
no LSP add up to exactly its traffic. -/
theorem C05_ecmp_conserves_flex {env : Env} {s s' : State} (hk : s.kind = .flex) (ht : Tidy s)
    (hsc : NoShortcuts s) (hrun : updateSimulation env s = .ok () s') {d : ℕ} (hd : d ∈ s'.dmds)
    {paths : List (List Item)} (hp : (s'.dmd d).path = some paths) (hn : ¬ RidesLsp paths)
    {det : List PathInfo} (hdet : (s'.dmd d).detail = some det) :
    (det.map fun x => x.traffic).sum = (s'.dmd d).traffic := by
  obtain ⟨l, Δ, -, h, -, e⟩ := igp_load ht (fun _ => hsc) hrun hd hp hn hdet
  exact h.flex_total (e.trans hk)

/-- A fans out to B and C, B to three nodes, all of them meeting again in D: four cheapest
paths, one of them with half of the traffic and three with a sixth each. -/
def Ex.fanOut (k : Kind) (q : ℚ) : State := Ex.mk k
  [{ name := "A" }, { name := "B" }, { name := "C" }, { name := "D" }, { name := "E" },
   { name := "F" }, { name := "G" }]
  (Ex.link "ab" 0 1 10 100 1 ++ Ex.link "ac" 0 2 10 100 2 ++ Ex.link "cd" 2 3 20 100 3 ++
    Ex.link "be" 1 4 10 100 4 ++ Ex.link "bf" 1 5 10 100 5 ++ Ex.link "bg" 1 6 10 100 6 ++
    Ex.link "ed" 4 3 10 100 7 ++ Ex.link "fd" 5 3 10 100 8 ++ Ex.link "gd" 6 3 10 100 9)
  [{ src := 0, dst := 3, traffic := q, name := "x" }] [] []

/-- the fan meets the hypotheses: four paths, 5 and three times 5/3 of 10 -/
example : (Ex.fanOut .flex 10).kind = .flex ∧ Tidy (Ex.fanOut .flex 10) ∧
    NoShortcuts (Ex.fanOut .flex 10) ∧
    updateSimulation Env.default (Ex.fanOut .flex 10) =
      .ok () (finalState (updateSimulation Env.default) (Ex.fanOut .flex 10)) ∧
    (((finalState (updateSimulation Env.default) (Ex.fanOut .flex 10)).dmd 0).detail.map
      fun det => det.map fun x => (x.items.length, x.traffic)) =
      some [(3, 5 / 3), (3, 5 / 3), (3, 5 / 3), (2, 5)] :=
  ⟨rfl, by decide +kernel, by decide +kernel, ok_of_raised (by decide +kernel), by decide +kernel⟩

/-- **C06** In a PerformanceModel the path traffic values of a demand that rides no LSP add up
to its traffic within 0.00005 for each path. -/
theorem C06_ecmp_conserves_perf {env : Env} {s s' : State} (hk : s.kind = .perf) (ht : Tidy s)
    (hrun : updateSimulation env s = .ok () s') {d : ℕ} (hd : d ∈ s'.dmds)
    {paths : List (List Item)} (hp : (s'.dmd d).path = some paths) (hn : ¬ RidesLsp paths)
    {det : List PathInfo} (hdet : (s'.dmd d).detail = some det) :
    |(det.map fun x => x.traffic).sum - (s'.dmd d).traffic| ≤ paths.length * 0.00005 := by
  obtain ⟨l, Δ, hl, h, -, e⟩ := igp_load ht (by rw [hk]; intro e; cases e) hrun hd hp hn hdet
  have := h.perf_total (e.trans hk)
  rw [hl, List.length_map, h.detail.length_eq]
  norm_num at this ⊢
  exact this

/-- **C06** ... and they can differ from it: the fan splits 10 into 5 and three times 1.6667. -/
theorem C06_rounding_differs : ∃ s s', s.kind = .perf ∧ Tidy s ∧
    updateSimulation Env.default s = .ok () s' ∧ ∃ d ∈ s'.dmds, ∃ det,
      (s'.dmd d).detail = some det ∧ (s'.dmd d).traffic = 10 ∧
      (det.map fun x => x.traffic).sum = 10.0001 := by
  refine ⟨Ex.fanOut .perf 10, finalState (updateSimulation Env.default) (Ex.fanOut .perf 10), rfl,
    by decide +kernel, ok_of_raised (by decide +kernel), 0, by decide +kernel,
    ((finalState (updateSimulation Env.default) (Ex.fanOut .perf 10)).dmd 0).detail.getD [],
    by decide +kernel, by decide +kernel, ?_⟩
  have : (((finalState (updateSimulation Env.default) (Ex.fanOut .perf 10)).dmd 0).detail.getD []
    |>.map fun x => x.traffic).sum = 100001 / 10000 := by decide +kernel
  rw [this]
  norm_num

/-- the fan meets the hypotheses of C06 and has four paths -/
example : (((finalState (updateSimulation Env.default) (Ex.fanOut .perf 10)).dmd 0).path.map
    fun ps => ps.length) = some 4 := by decide +kernel

/-- **C07** In a FlexModel without IGP shortcuts, every interface that leaves node `u` on the
paths of a demand carries the same part of it: what leaves the node on them divided by their
number. -/
theorem C07_equal_split_flex {env : Env} {s s' : State} (hk : s.kind = .flex) (ht : Tidy s)
    (hsc : NoShortcuts s) (hrun : updateSimulation env s = .ok () s') {d : ℕ} (hd : d ∈ s'.dmds)
    {paths : List (List Item)} (hp : (s'.dmd d).path = some paths) (hn : ¬ RidesLsp paths)
    {det : List PathInfo} (hdet : (s'.dmd d).detail = some det) {u : String} {i : ℕ}
    (hi : i ∈ nextHops s' det u) :
    carried det i = leaving s' det u / (nextHops s' det u).length ∧
    (u ≠ s'.dmdSrc d → carried det i = entering s' det u / (nextHops s' det u).length) ∧
    (u = s'.dmdSrc d → carried det i = (s'.dmd d).traffic / (nextHops s' det u).length) := by
  obtain ⟨l, Δ, -, h, hnd, e⟩ := igp_load ht (fun _ => hsc) hrun hd hp hn hdet
  have hs := h.flex_split hnd (e.trans hk) hi
  refine ⟨hs, fun hu => ?_, fun hu => ?_⟩
  · rw [h.balance hnd hu ?_, hs]
    rintro rfl
    obtain ⟨⟨q, hq, hiq⟩, ht⟩ := mem_fanHops.1 (h.mem_nextHops.1 hi)
    have := h.fan.tails hq
    rw [List.nodup_append] at this
    exact this.2.2 _ (List.mem_map_of_mem hiq) _ (by simp) ht
  · rw [hs, hu, (h.at_ends hnd).1, h.flex_total (e.trans hk)]

/-- at A the demand splits in halves, at B in thirds -/
example : let s' := finalState (updateSimulation Env.default) (Ex.fanOut .flex 10)
    let det := (s'.dmd 0).detail.getD []
    nextHops s' det "A" = [0, 2] ∧ nextHops s' det "B" = [6, 8, 10] ∧
    carried det 0 = 5 ∧ carried det 2 = 5 ∧ carried det 8 = 5 / 3 := by decide +kernel

/-- **C07** (partial) In a PerformanceModel two interfaces that leave a node on the paths of a
demand carry the same part of it up to 0.00005 for each path through either of them.  Missing:
equality, which is false (`C07_equal_split_perf_false`). -/
theorem C07_equal_split_perf_partial {env : Env} {s s' : State} (hk : s.kind = .perf) (ht : Tidy s)
    (hrun : updateSimulation env s = .ok () s') {d : ℕ} (hd : d ∈ s'.dmds)
    {paths : List (List Item)} (hp : (s'.dmd d).path = some paths) (hn : ¬ RidesLsp paths)
    {det : List PathInfo} (hdet : (s'.dmd d).detail = some det) {u : String} {i j : ℕ}
    (hi : i ∈ nextHops s' det u) (hj : j ∈ nextHops s' det u) :
    |carried det i - carried det j| ≤ (pathsThrough det i + pathsThrough det j) * 0.00005 := by
  obtain ⟨l, Δ, -, h, hnd, e⟩ := igp_load ht (by rw [hk]; intro e; cases e) hrun hd hp hn hdet
  have h1 := abs_le.1 (h.perf_carried (e.trans hk) i)
  have h2 := abs_le.1 (h.perf_carried (e.trans hk) j)
  rw [h.fan.equal_split (h.mem_nextHops.1 hi)] at h1
  rw [h.fan.equal_split (h.mem_nextHops.1 hj)] at h2
  rw [abs_le]
  norm_num
  constructor <;> linarith [h1.1, h1.2, h2.1, h2.2]

/-- **C07** is false in a PerformanceModel: of a demand of 10.7, A sends 5.3499 to B and 5.35 to
C, and since each is rounded to one decimal, the interfaces carry 5.3 and 5.4. -/
theorem C07_equal_split_perf_false : ∃ s s', s.kind = .perf ∧ Tidy s ∧
    updateSimulation Env.default s = .ok () s' ∧ ∃ d det i j, s'.dmds = [d] ∧
      (s'.dmd d).detail = some det ∧ i ∈ nextHops s' det "A" ∧ j ∈ nextHops s' det "A" ∧
      carried det i ≠ carried det j ∧ (s'.ifc i).traffic = .val (53 / 10) ∧
      (s'.ifc j).traffic = .val (54 / 10) := by
  refine ⟨Ex.fanOut .perf (107 / 10),
    finalState (updateSimulation Env.default) (Ex.fanOut .perf (107 / 10)), rfl,
    by decide +kernel, ok_of_raised (by decide +kernel), 0,
    ((finalState (updateSimulation Env.default) (Ex.fanOut .perf (107 / 10))).dmd 0).detail.getD [],
    0, 2, ?_⟩
  decide +kernel

/-- **C08** (both model classes) What the paths of a demand bring into a node other than its
source and destination they also take out of it; the source emits and the destination absorbs
the path traffic of all paths, and nothing returns to the source or leaves the destination. -/
theorem C08_flow_balance {env : Env} {s s' : State} (ht : Tidy s)
    (hsc : s.kind = .flex → NoShortcuts s)
    (hrun : updateSimulation env s = .ok () s') {d : ℕ} (hd : d ∈ s'.dmds)
    {paths : List (List Item)} (hp : (s'.dmd d).path = some paths) (hn : ¬ RidesLsp paths)
    {det : List PathInfo} (hdet : (s'.dmd d).detail = some det) :
    (∀ u, u ≠ s'.dmdSrc d → u ≠ s'.dmdDst d → entering s' det u = leaving s' det u) ∧
    leaving s' det (s'.dmdSrc d) = totalTraffic det ∧
    entering s' det (s'.dmdDst d) = totalTraffic det ∧
    entering s' det (s'.dmdSrc d) = 0 ∧ leaving s' det (s'.dmdDst d) = 0 := by
  obtain ⟨l, Δ, -, h, hnd, -⟩ := igp_load ht hsc hrun hd hp hn hdet
  exact ⟨fun u h1 h2 => h.balance hnd h1 h2, h.at_ends hnd⟩

/-- B receives and passes on one half of the demand -/
example : let s' := finalState (updateSimulation Env.default) (Ex.fanOut .flex 10)
    let det := (s'.dmd 0).detail.getD []
    entering s' det "B" = 5 ∧ leaving s' det "B" = 5 ∧ entering s' det "D" = 10 := by
  decide +kernel

/-- **C09** In `path_detail` the number of splits at the `k`-th item of a path is the product of
the numbers of next hops at the nodes up to there, it never decreases along the path, and the
path traffic is the demand traffic divided by the last split (to four decimals in a
PerformanceModel). -/
theorem C09_splits_cumulative {env : Env} {s s' : State} (ht : Tidy s)
    (hsc : s.kind = .flex → NoShortcuts s)
    (hrun : updateSimulation env s = .ok () s') {d : ℕ} (hd : d ∈ s'.dmds)
    {paths : List (List Item)} (hp : (s'.dmd d).path = some paths) (hn : ¬ RidesLsp paths)
    {det : List PathInfo} (hdet : (s'.dmd d).detail = some det) {x : PathInfo} (hx : x ∈ det) :
    x.items ∈ paths ∧ ∃ sp, x.splits = some sp ∧ sp.length = x.items.length ∧ sp ≠ [] ∧
      (∀ k y c, sp[k]? = some (y, c) → x.items[k]? = some y ∧
        c = ((x.items.take (k + 1)).map fun z => (nextHops s' det (s'.itemTail z)).length).prod) ∧
      (sp.map Prod.snd).Pairwise (· ≤ ·) ∧
      ∀ c, (sp.map Prod.snd).getLast? = some c → x.traffic = match s.kind with
        | .perf => pyRound 4 ((s'.dmd d).traffic / c)
        | .flex => (s'.dmd d).traffic / c := by
  obtain ⟨l, Δ, hl, h, hnd, e⟩ := igp_load ht hsc hrun hd hp hn hdet
  obtain ⟨q, hq, e1, e2, e3, e4⟩ := forall₂_mem_right h.detail hx
  have hdeg : (fun u => (fanHops s'.tail l.toFinset u).card) =
      fun u => (nextHops s' det u).length := funext fun u => (h.nextHops_length hnd u).symm
  refine ⟨?_, _, e3, ?_, ?_, ?_, ?_, ?_⟩
  · rw [hl, e1]; exact List.mem_map.2 ⟨q, hq, rfl⟩
  · rw [cumSplits_length, e1]
  · intro h0
    have := congrArg List.length h0
    rw [cumSplits_length, List.length_map, List.length_nil, List.length_eq_zero_iff] at this
    exact e2 this
  · intro k y c hk
    obtain ⟨g1, g2⟩ := cumSplits_get _ _ _ _ _ _ _ hk
    rw [e1]
    refine ⟨g1, ?_⟩
    rw [g2, one_mul]
    congr 1
    exact List.map_congr_left fun z _ => congrFun hdeg _
  · refine (cumSplits_sorted _ _ _ _ ?_).1
    intro y hy
    obtain ⟨z, hz, rfl⟩ := List.mem_map.1 hy
    exact Finset.card_pos.2 ⟨z, mem_fanHops.2 ⟨⟨q, List.mem_toFinset.2 hq, hz⟩, rfl⟩⟩
  · intro c hc
    have := cumSplits_last _ _ _ _ _ hc
    rw [one_mul, List.map_map] at this
    have hc : share s'.tail l.toFinset q = ((c : ℕ) : ℚ)⁻¹ := by rw [share_eq, this]; rfl
    rw [e4, hc, ← div_eq_mul_inv, e]
    cases s.kind <;> rfl

/-- the splits along A-B-E-D are 2, 6, 6 and 10/6 go there -/
example : (((finalState (updateSimulation Env.default) (Ex.fanOut .flex 10)).dmd 0).detail.map
    fun det => (det.map fun x => (x.splits, x.traffic)).head?) =
    some (some (some [(.ifc 0, 2), (.ifc 6, 6), (.ifc 12, 6)], 5 / 3)) := by decide +kernel

theorem interface_traffic {env : Env} {s s' : State} (ht : Tidy s)
    (hsc : s.kind = .flex → NoShortcuts s) (hrun : updateSimulation env s = .ok () s') {i : ℕ}
    (hi : i ∈ s'.ifs) (hup : (s'.ifc i).failed = false) :
    (s'.ifc i).traffic = .val (s'.dmds.map fun d => contribution s' d i).sum := by
  obtain ⟨s1, Δ, h⟩ := sim_spec ht.dmds ht.ends ht.ckts hrun
  rw [h.traffic i (h.cfg.ifs ▸ hi), hup, h.cfg.dmds]
  simp only [Bool.false_eq_true, if_false]
  rw [List.map_congr_left fun d hd => h.delta_eq ht hsc hd i]

/-- **C10** In a FlexModel without IGP shortcuts, after `update_simulation()` the traffic of
every interface that is up is the sum over the demands of what each puts on it
(`Spec.contribution`). -/
theorem C10_interface_traffic_flex {env : Env} {s s' : State} (_hk : s.kind = .flex) (ht : Tidy s)
    (hsc : NoShortcuts s) (hrun : updateSimulation env s = .ok () s') {i : ℕ}
    (hi : i ∈ s'.ifs) (hup : (s'.ifc i).failed = false) :
    (s'.ifc i).traffic = .val (s'.dmds.map fun d => contribution s' d i).sum :=
  interface_traffic ht (fun _ => hsc) hrun hi hup

/-- **C11** The same in a PerformanceModel, where what a demand that rides no LSP puts on an
interface differs from its exact equal-split load by at most 0.05, and 0.00005 for each of its
paths through the interface. -/
theorem C11_interface_traffic_perf {env : Env} {s s' : State} (hk : s.kind = .perf) (ht : Tidy s)
    (hrun : updateSimulation env s = .ok () s') {i : ℕ}
    (hi : i ∈ s'.ifs) (hup : (s'.ifc i).failed = false) :
    (s'.ifc i).traffic = .val (s'.dmds.map fun d => contribution s' d i).sum ∧
    ∀ d ∈ s'.dmds, ∀ paths, (s'.dmd d).path = some paths → ¬ RidesLsp paths → ∀ det,
      (s'.dmd d).detail = some det →
      |contribution s' d i - exactLoad s' det (s'.dmd d).traffic i| ≤
        0.05 + pathsThrough det i * 0.00005 := by
  have hsc : s.kind = .flex → NoShortcuts s := by rw [hk]; intro e; cases e
  refine ⟨interface_traffic ht hsc hrun hi hup, fun d hd paths hp hn det hdet => ?_⟩
  obtain ⟨l, Δ, hl, h, hnd, e⟩ := igp_load ht hsc hrun hd hp hn hdet
  have hc : contribution s' d i = pyRound 1 (carried det i) := by
    unfold contribution
    rw [hp, hdet, hl]
    simp only []
    rw [ridden_ifcs, if_pos rfl, e, hk]
  rw [hc, h.exactLoad hnd]
  have h1 := abs_le.1 (h.perf_carried (e.trans hk) i)
  have h2 := abs_le.1 (pyRound_close 1 (carried det i))
  norm_num at h1 h2
  rw [abs_le]
  norm_num
  constructor <;> linarith [h1.1, h1.2, h2.1, h2.2]

/-- In `Ex.cut` interface A→B carries the demand A→D by IGP and the demand A→B on an LSP. -/
example (k : Kind) : let s' := finalState (updateSimulation Env.default) (Ex.cut k)
    NoShortcuts (Ex.cut k) ∧ 0 ∈ s'.ifs ∧ (s'.ifc 0).failed = false ∧
      s'.dmds.map (fun d => contribution s' d 0) = [0, 3, 4] ∧ (s'.ifc 0).traffic = .val 7 := by
  cases k <;> decide +kernel

/-- In the PerformanceModel fan with demand 10.7 the load on A→B is 0.05 off the exact 5.35. -/
example : let s' := finalState (updateSimulation Env.default) (Ex.fanOut .perf (107 / 10))
    contribution s' 0 0 = 53 / 10 ∧
      exactLoad s' ((s'.dmd 0).detail.getD []) (107 / 10) 0 = 535 / 100 := by decide +kernel

end NTM
