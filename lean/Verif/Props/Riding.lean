import Verif.Props.Load

/-!
# C21, C22, C27: demands that ride LSPs end to end
-/

namespace NTM

open Spec

/-- **C21** If some routed LSP has the end points of the demand, then after
`update_simulation()` the paths of the demand are exactly the routed LSPs between its end
points whose effective metric is least, each on its own. -/
theorem C21_rides_cheapest_lsps {env : Env} {s s' : State} (ht : Tidy s) (hk : KeysDistinct s)
    (hrun : updateSimulation env s = .ok () s') {d : ℕ} (hd : d ∈ s'.dmds)
    (hl : ∃ l, LspBetween s' (s'.dmdSrc d) (s'.dmdDst d) l ∧ IsRouted s' l) :
    ∃ ls, (s'.dmd d).path = some (ls.map fun l => [Item.lsp l]) ∧ ls ≠ [] ∧ ls.Nodup ∧
      ∀ l, l ∈ ls ↔ LspBetween s' (s'.dmdSrc d) (s'.dmdDst d) l ∧ IsRouted s' l ∧
        ∀ l', LspBetween s' (s'.dmdSrc d) (s'.dmdDst d) l' → IsRouted s' l' →
          ∀ n', s'.effMetric l' = .ok (.val n') → ∃ n, s'.effMetric l = .ok (.val n) ∧ n ≤ n' := by
  obtain ⟨s1, Δ, h⟩ := sim_spec ht.dmds ht.ends ht.ckts hrun
  rw [h.cfg.dmds] at hd
  obtain ⟨l, hl1, hl2⟩ := hl
  have hl := (h.mem_group ht hk hd).2 ⟨hl1, hl2⟩
  rcases h.rides hd with ⟨ls, h1, h2, h3⟩ | h1
  · refine ⟨ls, h3, h1, h.riding_nodup ht hk hd h2, fun l => ?_⟩
    rw [h2.mem_iff, h.mem_group ht hk hd, and_assoc]
    refine and_congr_right fun _ => and_congr_right fun _ => ?_
    constructor
    · intro g l' a b; exact g l' ((h.mem_group ht hk hd).2 ⟨a, b⟩)
    · intro g l' a; obtain ⟨b, c⟩ := (h.mem_group ht hk hd).1 a; exact g l' b c
  · have := h1.nil_iff.1 rfl
    rw [this] at hl
    cases hl

/-- Three LSPs A→B: two of manual metric 5, too big to share a link, and one of metric 7; two
demands A→B. -/
def Ex.trio (k : Kind) : State := Ex.mk k
  [{ name := "A" }, { name := "B" }, { name := "C" }]
  (Ex.link "ab" 0 1 10 100 1 ++ Ex.link "ac" 0 2 10 100 2 ++ Ex.link "cb" 2 1 10 100 3)
  [{ src := 0, dst := 1, traffic := 9, name := "x" }, { src := 0, dst := 1, traffic := 3, name := "y" }]
  [{ src := 0, dst := 1, name := "l0", configured := some 60, initialMetric := some 5 },
   { src := 0, dst := 1, name := "l1", configured := some 60, initialMetric := some 5 },
   { src := 0, dst := 1, name := "l2", initialMetric := some 7 }] []

example (k : Kind) : let s' := finalState (updateSimulation Env.default) (Ex.trio k)
    Tidy (Ex.trio k) ∧ KeysDistinct (Ex.trio k) ∧ NoShortcuts (Ex.trio k) ∧
    updateSimulation Env.default (Ex.trio k) = .ok () s' ∧
    (LspBetween s' "A" "B" 2 ∧ IsRouted s' 2) ∧
    (s'.dmd 0).path = some [[Item.lsp 0], [Item.lsp 1]] ∧
    (s'.lsp 0).path = .routed [0] 10 100 ∧ (s'.lsp 1).path = .routed [2, 4] 20 100 := by
  cases k <;> exact ⟨by decide +kernel, by decide +kernel, by decide +kernel,
    ok_of_raised (by decide +kernel), by decide +kernel, by decide +kernel, by decide +kernel,
    by decide +kernel⟩

theorem sum_if_const {l : List ℕ} (p : ℕ → Bool) (c : ℚ) :
    (l.map fun x => if p x then c else 0).sum = (l.filter p).length * c := by
  induction l with
  | nil => simp
  | cons a l ih =>
    rw [List.map_cons, List.sum_cons, ih, List.filter_cons]
    split
    · rw [List.length_cons]; push_cast; ring
    · simp

theorem sum_map_erase {l : List ℕ} {a : ℕ} (ha : a ∈ l) (f : ℕ → ℚ) :
    (l.map f).sum = f a + ((l.erase a).map f).sum := by
  rw [((List.perm_cons_erase ha).map f).sum_eq]
  simp

/-- **C22** A demand that rides `k` LSPs puts exactly `1/k` of its traffic on every interface
for each of those LSPs that crosses it: the traffic of the interface is that plus what the other
demands put there.  `path_detail` lists the LSPs with `1/k` of the traffic each (to four
decimals in a PerformanceModel), and the shares add up to the traffic. -/
theorem C22_even_split_over_lsps {env : Env} {s s' : State} (ht : Tidy s)
    (hsc : s.kind = .flex → NoShortcuts s)
    (hrun : updateSimulation env s = .ok () s') {d : ℕ} (hd : d ∈ s'.dmds) {ls : List ℕ}
    (hne : ls ≠ []) (hp : (s'.dmd d).path = some (ls.map fun l => [Item.lsp l])) :
    (∀ i ∈ s'.ifs, (s'.ifc i).failed = false → (s'.ifc i).traffic =
      .val ((ls.filter fun l => crosses s' l i).length * ((s'.dmd d).traffic / ls.length) +
        ((s'.dmds.erase d).map fun d' => contribution s' d' i).sum)) ∧
    (∃ det, (s'.dmd d).detail = some det ∧ det.map (·.items) = ls.map (fun l => [Item.lsp l]) ∧
      ∀ x ∈ det, x.traffic = match s.kind with
        | .perf => pyRound 4 ((s'.dmd d).traffic / ls.length)
        | .flex => (s'.dmd d).traffic / ls.length) ∧
    (ls.map fun _ => (s'.dmd d).traffic / ls.length).sum = (s'.dmd d).traffic := by
  have hlen : (ls.length : ℚ) ≠ 0 := by
    have := List.length_pos_iff.2 hne
    exact_mod_cast Nat.ne_of_gt this
  obtain ⟨s1, Δ, h⟩ := sim_spec ht.dmds ht.ends ht.ckts hrun
  have hd' := hd
  rw [h.cfg.dmds] at hd
  have hr : RidingOf s' (pairKey (s.dmdSrc d) (s.dmdDst d)) ls := by
    rcases h.placed ht hsc hd with ⟨ls', h1, h2, h3⟩ | ⟨-, ⟨h2, -⟩ | ⟨l, h2, -⟩⟩
    · rw [hp] at h3
      have := congrArg ridden (Option.some.inj h3)
      rw [ridden_lsps, ridden_lsps] at this
      rw [this]; exact h2
    · rw [hp] at h2; cases h2
    · rw [hp] at h2
      have := congrArg ridden (Option.some.inj h2)
      rw [ridden_lsps, ridden_ifcs] at this
      exact absurd this hne
  obtain ⟨h1, h2⟩ := h.lspLoad ht hd hne hr hp
  refine ⟨fun i hi hup => ?_, ⟨_, h1, ?_, ?_⟩, ?_⟩
  · rw [interface_traffic ht hsc hrun hi hup, sum_map_erase hd']
    congr 2
    rw [← h.delta_eq ht hsc hd, h2, sum_if_const]
  · unfold lspDetail
    rw [List.map_map]
    refine List.map_congr_left fun l _ => ?_
    simp only [Function.comp_apply]
    cases s'.kind <;> rfl
  · intro x hx
    unfold lspDetail at hx
    obtain ⟨l, -, rfl⟩ := List.mem_map.1 hx
    rw [h.cfg.kind]
    cases s.kind <;> rfl
  · rw [List.map_const', List.sum_replicate, nsmul_eq_mul]
    field_simp

/-- demand x rides two LSPs, one of which crosses A→B -/
example (k : Kind) : let s' := finalState (updateSimulation Env.default) (Ex.trio k)
    ([0, 1].filter fun l => crosses s' l 0) = [0] ∧ (s'.dmds.erase 0) = [1] ∧
    (s'.ifc 0).traffic = .val 6 ∧ contribution s' 0 0 = 9 / 2 ∧ contribution s' 1 0 = 3 / 2 := by
  cases k <;> decide +kernel

theorem lspGroups_cached {env : Env} {s : State} (h : s.groups ≠ []) :
    lspGroups env s = .ok s.groups s := by
  unfold lspGroups
  rw [if_pos h]

/-- **C27** For a demand riding the LSPs `ls`: the demands on each of them are those with the
same end points, the traffic on each LSP is the total traffic of these demands divided by the
number of LSPs, and over the LSPs this adds up to the total. -/
theorem C27_traffic_on_lsp {env env' : Env} {s s' : State} (ht : Tidy s) (hk : KeysDistinct s)
    (hsc : s.kind = .flex → NoShortcuts s)
    (hrun : updateSimulation env s = .ok () s') {d : ℕ} (hd : d ∈ s'.dmds) {ls : List ℕ}
    (hne : ls ≠ []) (hp : (s'.dmd d).path = some (ls.map fun l => [Item.lsp l])) :
    let group := s'.dmds.filter fun d' => s'.dmdSrc d' = s'.dmdSrc d ∧ s'.dmdDst d' = s'.dmdDst d
    let total := (group.map fun d' => (s'.dmd d').traffic).sum
    (∀ l ∈ ls, s'.dmdsOnLsp l = group ∧ trafficOnLsp env' l s' = .ok (total / ls.length) s') ∧
    (ls.map fun _ => total / ls.length).sum = total := by
  intro group total
  have hlen : (ls.length : ℚ) ≠ 0 := by
    have := List.length_pos_iff.2 hne
    exact_mod_cast Nat.ne_of_gt this
  refine ⟨?_, by rw [List.map_const', List.sum_replicate, nsmul_eq_mul]; field_simp⟩
  obtain ⟨s1, Δ, h⟩ := sim_spec ht.dmds ht.ends ht.ckts hrun
  rw [h.cfg.dmds] at hd
  -- every demand, with the LSPs it rides
  have hrides : ∀ d' ∈ s.dmds, (∃ ls', ls' ≠ [] ∧
      RidingOf s' (pairKey (s.dmdSrc d') (s.dmdDst d')) ls' ∧
      (s'.dmd d').path = some (ls'.map fun l => [Item.lsp l])) ∨
      (RidingOf s' (pairKey (s.dmdSrc d') (s.dmdDst d')) [] ∧
        ∀ paths, (s'.dmd d').path = some paths → ridden paths = []) := by
    intro d' hd'
    rcases h.placed ht hsc hd' with h1 | ⟨h1, ⟨h2, -⟩ | ⟨l, h2, -⟩⟩
    · exact .inl h1
    · exact .inr ⟨h1, fun paths e => by rw [h2] at e; cases e⟩
    · exact .inr ⟨h1, fun paths e => by rw [h2] at e; cases e; exact ridden_ifcs l⟩
  have hr : RidingOf s' (pairKey (s.dmdSrc d) (s.dmdDst d)) ls := by
    rcases hrides d hd with ⟨ls', h1, h2, h3⟩ | ⟨-, h2⟩
    · rw [hp] at h3
      have := congrArg ridden (Option.some.inj h3)
      rw [ridden_lsps, ridden_lsps] at this
      rw [this]; exact h2
    · have := h2 _ hp
      rw [ridden_lsps] at this
      exact absurd this hne
  intro l hl
  have hlg := (h.mem_group ht hk hd).1 (hr.sub hl)
  obtain ⟨⟨hl0, hl1, hl2⟩, -⟩ := hlg
  rw [h.cfg.lsps] at hl0
  -- which demands ride `l`
  have hon : ∀ d' ∈ s.dmds, (s.dmdSrc d' = s.dmdSrc d ∧ s.dmdDst d' = s.dmdDst d ∧
      (s'.dmd d').path = some (ls.map fun l => [Item.lsp l])) ∨
      (¬ (s.dmdSrc d' = s.dmdSrc d ∧ s.dmdDst d' = s.dmdDst d) ∧
        ∀ paths, (s'.dmd d').path = some paths → l ∉ ridden paths) := by
    intro d' hd'
    by_cases he : s.dmdSrc d' = s.dmdSrc d ∧ s.dmdDst d' = s.dmdDst d
    · left
      refine ⟨he.1, he.2, ?_⟩
      rcases hrides d' hd' with ⟨ls', h1, h2, h3⟩ | ⟨h1, -⟩
      · rw [he.1, he.2] at h2
        rw [h3, hr.unique h2]
      · rw [he.1, he.2] at h1
        exact absurd (hr.unique h1) hne
    · right
      refine ⟨he, fun paths e hm => he ?_⟩
      rcases hrides d' hd' with ⟨ls', h1, h2, h3⟩ | ⟨-, h2⟩
      · rw [e] at h3
        cases h3
        rw [ridden_lsps] at hm
        obtain ⟨⟨-, g1, g2⟩, -⟩ := (h.mem_group ht hk hd').1 (h2.sub hm)
        simp only [h.cfg.dmdSrc, h.cfg.dmdDst] at g1 g2 hl1 hl2
        exact ⟨g1.symm.trans hl1, g2.symm.trans hl2⟩
      · rw [h2 _ e] at hm; cases hm
  have hgroup : s'.dmdsOnLsp l = group := by
    unfold State.dmdsOnLsp
    refine List.filter_congr fun d' hd' => ?_
    rw [h.cfg.dmds] at hd'
    simp only [h.cfg.dmdSrc, h.cfg.dmdDst]
    rcases hon d' hd' with ⟨h1, h2, h3⟩ | ⟨h1, h2⟩
    · rw [h3]
      simp only [h1, h2, and_self, decide_true]
      rw [List.any_eq_true]
      exact ⟨[Item.lsp l], List.mem_map.2 ⟨l, hl, rfl⟩, by simp⟩
    · rw [decide_eq_false h1]
      cases e : (s'.dmd d').path with
      | none => rfl
      | some paths =>
        have := h2 _ e
        rw [mem_ridden] at this
        simp only []
        rw [List.any_eq_false]
        intro p hp
        simp only [decide_eq_true_eq]
        exact fun hm => this ⟨p, hp, hm⟩
  refine ⟨hgroup, ?_⟩
  -- the computation
  obtain ⟨h1, ms, m, h2, h3, h4⟩ := hr.resolve_left fun ⟨_, e⟩ => hne e
  have hkey : pairKey (s'.lspSrc l) (s'.lspDst l) = pairKey (s.dmdSrc d) (s.dmdDst d) := by
    rw [hl1, hl2, h.cfg.dmdSrc, h.cfg.dmdDst]
  have hdg : ∃ g, dictGet s'.groups (pairKey (s.dmdSrc d) (s.dmdDst d)) = some g := by
    cases e : dictGet s'.groups (pairKey (s.dmdSrc d) (s.dmdDst d)) with
    | some g => exact ⟨g, rfl⟩
    | none =>
      exfalso
      refine h1 ?_
      unfold State.routedGroup
      rw [e]
      rfl
  obtain ⟨g, hg⟩ := hdg
  have hgne : s'.groups ≠ [] := by
    intro e; rw [e] at hg; cases hg
  have hrg : (g.filter fun l => !(s'.lsp l).path.saysUnrouted) =
      s'.routedGroup (pairKey (s.dmdSrc d) (s.dmdDst d)) := by
    unfold State.routedGroup
    rw [hg]
    rfl
  unfold trafficOnLsp
  rw [py_bind_ok (lspGroups_cached hgne), py_bind_ok (show (get : Py State) s' = .ok s' s' from rfl)]
  simp only []
  rw [hkey, hg]
  simp only []
  rw [hrg, h2, hgroup]
  have e1 : (liftE (Except.ok ms) : Py (List Metric)) s' = .ok ms s' := rfl
  rw [py_bind_ok e1, pyMin_dedup h3]
  have e2 : (liftE (Except.ok m) : Py Metric) s' = .ok m s' := rfl
  rw [py_bind_ok e2, ← h4]
  -- the details of the demands on the LSP
  have hdet : ∀ d' ∈ group, (s'.dmd d').detail =
      some (lspDetail s'.kind (s'.dmd d').traffic ls) := by
    intro d' hd'
    have hd'' := List.mem_of_mem_filter hd'
    have hc := List.of_mem_filter hd'
    rw [h.cfg.dmds] at hd''
    simp only [decide_eq_true_eq] at hc
    simp only [h.cfg.dmdSrc, h.cfg.dmdDst] at hc
    rcases hon d' hd'' with ⟨g1, g2, g3⟩ | ⟨g1, -⟩
    · exact (h.lspLoad ht hd'' hne (by rw [g1, g2]; exact hr) g3).1
    · exact absurd hc g1
  cases hkd : s'.kind with
  | perf => rfl
  | flex =>
    simp only []
    rw [if_neg]
    · have : (group.map fun d' => (((s'.dmd d').detail.getD []).map fun p =>
          if Item.lsp l ∈ p.items then p.traffic else 0).sum) =
          group.map fun d' => (s'.dmd d').traffic / ls.length := by
        refine List.map_congr_left fun d' hd' => ?_
        rw [hdet d' hd', hkd]
        simp only [Option.getD_some]
        unfold lspDetail
        rw [List.map_map]
        have e3 : ((fun p : PathInfo => if Item.lsp l ∈ p.items then p.traffic else 0) ∘ fun l' =>
            ({ items := [Item.lsp l'], splits := none,
               traffic := (s'.dmd d').traffic / ls.length } : PathInfo)) =
            fun l' => if l = l' then (s'.dmd d').traffic / ls.length else 0 := by
          funext l'
          simp
        simp only []
        rw [e3, sum_ite_single (h.riding_nodup ht hk hd hr), if_pos hl]
      rw [this]
      have : (group.map fun d' => (s'.dmd d').traffic / ls.length).sum = total / ls.length := by
        simp only [div_eq_mul_inv]
        rw [List.sum_map_mul_right]
      rw [this]
      rfl
    · rw [List.any_eq_true]
      rintro ⟨d', hd', e⟩
      rw [hdet d' hd'] at e
      cases e

/-- both demands A→B (9 and 3) ride the two LSPs of metric 5, which carry 6 each; the LSP of
metric 7 carries nothing -/
example (k : Kind) : let s' := finalState (updateSimulation Env.default) (Ex.trio k)
    s'.dmdsOnLsp 0 = [0, 1] ∧ s'.dmdsOnLsp 2 = [] ∧
    (match trafficOnLsp Env.default 1 s' with | .ok q _ => some q | .error _ _ => none) = some 6 ∧
    (match trafficOnLsp Env.default 2 s' with | .ok q _ => some q | .error _ _ => none) = some 0 := by
  cases k <;> decide +kernel

end NTM
