import Verif.Proof.Compare
import Verif.Props.Load

/-!
# C12–C14: comparing simulations of comparable models
-/

namespace NTM

open Spec

section
variable {env env' : Env} {s s1 s' t t1 t' : State} {Δ Δ' : ℕ → ℕ → ℚ}

theorem interface_same (hs : SimResult env s s1 s' Δ) (ht : SimResult env' t t1 t' Δ') {k : ℚ}
    (hn : SameNetwork s t) (hd : SameDemands k s t)
    (hΔ : ∀ d ∈ s.dmds, ∀ i ∈ s.ifs, Δ' d i = k * Δ d i) {i : ℕ} (hi : i ∈ s.ifs) :
    (t'.ifc i).traffic = Traffic.scale k (s'.ifc i).traffic := by
  have hn' : SameNetwork s' t' := hn.run hs.cfg ht.cfg
  rw [hs.traffic i hi, ht.traffic i (hn.ifs.mem_iff.2 hi), hn'.failed i]
  split
  · rfl
  · unfold Traffic.scale
    simp only []
    rw [(hd.dmds.map _).sum_eq, ← List.sum_map_mul_left]
    congr 2
    exact List.map_congr_left fun d hd => hΔ d hd i hi

end

/-- **C12** Without LSPs the outcome depends neither on the order in which the sets of nodes,
interfaces and demands are iterated, nor on random draws or the order of intermediate sets
(`env` and `env'`), nor on results of earlier simulations: every demand gets the same set of
paths and every interface the same traffic. -/
theorem C12_same_network_same_results {env env' : Env} {s s' t t' : State} (hts : Tidy s)
    (htt : Tidy t) (hkind : t.kind = s.kind) (hsc : s.kind = .flex → NoShortcuts s)
    (hn : SameNetwork s t) (hd : SameDemands 1 s t) (hls : s.lsps = []) (hlt : t.lsps = [])
    (hrs : updateSimulation env s = .ok () s') (hrt : updateSimulation env' t = .ok () t') :
    (∀ d ∈ s.dmds, SamePaths (s'.dmd d).path (t'.dmd d).path) ∧
    ∀ i ∈ s.ifs, (t'.ifc i).traffic = (s'.ifc i).traffic := by
  obtain ⟨s1, Δ, hs⟩ := sim_spec hts.dmds hts.ends hts.ckts hrs
  obtain ⟨t1, Δ', ht⟩ := sim_spec htt.dmds htt.ends htt.ckts hrt
  obtain ⟨r1, g1⟩ := hs.noLsps hls
  obtain ⟨r2, g2⟩ := ht.noLsps hlt
  have hn' : SameNetwork s' t' := hn.run hs.cfg ht.cfg
  have hsc' : t.kind = .flex → NoShortcuts t := fun h n hm => by
    rw [hn.node]; exact hsc (hkind ▸ h) n (hn.nodes.mem_iff.1 hm)
  have hc := fun d (hdm : d ∈ s.dmds) => compare_igp hs ht hts htt hsc hsc' hn hd
    (usable_same hn' fun i hi => by rw [r1 i hi, r2 i (hn'.ifs.mem_iff.2 hi)]) hdm (g1 _) (g2 _)
  refine ⟨fun d hdm => (hc d hdm).1, fun i hi => ?_⟩
  have := interface_same hs ht hn hd (fun d hdm i hi => ?_) hi
  · rw [this]
    cases (s'.ifc i).traffic with
    | down => rfl
    | val q => unfold Traffic.scale; simp only [one_mul]
  · rcases (hc d hdm).2 with ⟨-, -, h⟩ | ⟨l, l', det, det', h1, h2, e⟩
    · rw [(h i).1, (h i).2, mul_zero]
    · have hk' : t'.kind = s'.kind := by rw [ht.cfg.kind, hs.cfg.kind, hkind]
      have htr : (t'.dmd d).traffic = (s'.dmd d).traffic := by
        rw [ht.cfg.dmd d, hs.cfg.dmd d, hd.dmd d]; simp
      have : carried det' i = carried det i := by
        rw [h1.carried, h2.carried, e]
        unfold pathShare
        rw [hk', htr, hn'.tail]
      rw [one_mul, h1.load, h2.load, hk', this]

/-- **C12** in the form of reorderings of one model -/
theorem C12_order_irrelevant {env env' : Env} {s s' t t' : State} (hts : Tidy s)
    (hsc : s.kind = .flex → NoShortcuts s) (hr : Reordered s t) (hl : s.lsps = [])
    (hrs : updateSimulation env s = .ok () s') (hrt : updateSimulation env' t = .ok () t') :
    (∀ d ∈ s.dmds, SamePaths (s'.dmd d).path (t'.dmd d).path) ∧
    ∀ i ∈ s.ifs, (t'.ifc i).traffic = (s'.ifc i).traffic := by
  have e := hr.rest
  have h1 : t.node = s.node := by rw [e]
  have h2 : t.ifc = s.ifc := by rw [e]
  have h3 : t.dmd = s.dmd := by rw [e]
  have h4 : t.kind = s.kind := by rw [e]
  have htail : t.tail = s.tail := by funext i; unfold State.tail; rw [h1, h2]
  have hhead : t.head = s.head := by funext i; unfold State.head; rw [h1, h2]
  have hopp : ∀ i j, Opposite t i j ↔ Opposite s i j := fun i j => by
    unfold Opposite; rw [htail, hhead, h4, h2]
  have htt : Tidy t := {
    nodes := hr.nodes.nodup_iff.2 hts.nodes
    ifs := hr.ifs.nodup_iff.2 hts.ifs
    dmds := hr.dmds.nodup_iff.2 hts.dmds
    lsps := hr.lsps.nodup_iff.2 hts.lsps
    costs := fun i hi => by rw [h2]; exact hts.costs i (hr.ifs.mem_iff.1 hi)
    ends := fun i hi j hj ho => by
      rw [h2]; exact hts.ends i (hr.ifs.mem_iff.1 hi) j (hr.ifs.mem_iff.1 hj) ((hopp i j).1 ho)
    ckts := fun hk i hi => by rw [h2]; exact hts.ckts (h4 ▸ hk) i (hr.ifs.mem_iff.1 hi) }
  refine C12_same_network_same_results hts htt h4 hsc ⟨h1, hr.nodes, hr.ifs, fun i => by rw [h2]⟩
    ⟨hr.dmds, fun d => by rw [h3]; simp⟩ hl ?_ hrs hrt
  have := hr.lsps
  rw [hl] at this
  exact List.perm_nil.1 this

/-- the fan with its nodes, interfaces and demands in reverse order -/
def Ex.reversed (k : Kind) (q : ℚ) : State :=
  let s := Ex.fanOut k q
  { s with nodes := s.nodes.reverse, ifs := s.ifs.reverse, dmds := s.dmds.reverse }

/-- both fans meet the hypotheses; the lists of paths differ, the sets do not -/
example (k : Kind) : Tidy (Ex.fanOut k 10) ∧ NoShortcuts (Ex.fanOut k 10) ∧
    Reordered (Ex.fanOut k 10) (Ex.reversed k 10) ∧ (Ex.fanOut k 10).lsps = [] ∧
    updateSimulation Env.default (Ex.fanOut k 10) =
      .ok () (finalState (updateSimulation Env.default) (Ex.fanOut k 10)) ∧
    updateSimulation Env.default (Ex.reversed k 10) =
      .ok () (finalState (updateSimulation Env.default) (Ex.reversed k 10)) ∧
    ((finalState (updateSimulation Env.default) (Ex.fanOut k 10)).dmd 0).path ≠
      ((finalState (updateSimulation Env.default) (Ex.reversed k 10)).dmd 0).path := by
  refine ⟨by cases k <;> decide +kernel, by cases k <;> decide +kernel,
    ⟨List.reverse_perm _, List.reverse_perm _, List.reverse_perm _, List.Perm.refl _,
      List.Perm.refl _, rfl⟩, rfl, ok_of_raised (by cases k <;> decide +kernel),
    ok_of_raised (by cases k <;> decide +kernel), by cases k <;> decide +kernel⟩

/-- **C13** In a FlexModel without LSPs and without IGP shortcuts, multiplying the traffic of
every demand by `k` multiplies the traffic of every interface that is not failed by `k` and
leaves the paths of all demands unchanged. -/
theorem C13_linear {env env' : Env} {s s' t t' : State} {k : ℚ} (hks : s.kind = .flex)
    (hkt : t.kind = .flex) (hts : Tidy s) (htt : Tidy t) (hsc : NoShortcuts s)
    (hn : SameNetwork s t) (hd : SameDemands k s t) (hls : s.lsps = []) (hlt : t.lsps = [])
    (hrs : updateSimulation env s = .ok () s') (hrt : updateSimulation env' t = .ok () t') :
    (∀ d ∈ s.dmds, SamePaths (s'.dmd d).path (t'.dmd d).path) ∧
    ∀ i ∈ s.ifs, (t'.ifc i).traffic = Traffic.scale k (s'.ifc i).traffic := by
  obtain ⟨s1, Δ, hs⟩ := sim_spec hts.dmds hts.ends hts.ckts hrs
  obtain ⟨t1, Δ', ht⟩ := sim_spec htt.dmds htt.ends htt.ckts hrt
  obtain ⟨r1, g1⟩ := hs.noLsps hls
  obtain ⟨r2, g2⟩ := ht.noLsps hlt
  have hn' : SameNetwork s' t' := hn.run hs.cfg ht.cfg
  have hc := fun d (hdm : d ∈ s.dmds) => compare_igp hs ht hts htt (fun _ => hsc)
    (fun _ n hm => by rw [hn.node]; exact hsc n (hn.nodes.mem_iff.1 hm)) hn hd
    (usable_same hn' fun i hi => by rw [r1 i hi, r2 i (hn'.ifs.mem_iff.2 hi)]) hdm (g1 _) (g2 _)
  refine ⟨fun d hdm => (hc d hdm).1, fun i hi => interface_same hs ht hn hd (fun d hdm i hi => ?_) hi⟩
  rcases (hc d hdm).2 with ⟨-, -, h⟩ | ⟨l, l', det, det', h1, h2, e⟩
  · rw [(h i).1, (h i).2, mul_zero]
  · have k1 := hs.cfg.kind.trans hks
    have k2 := ht.cfg.kind.trans hkt
    have htr : (t'.dmd d).traffic = k * (s'.dmd d).traffic := by
      rw [ht.cfg.dmd d, hs.cfg.dmd d, hd.dmd d]
    rw [h1.load, h2.load, k1, k2]
    simp only []
    rw [h1.flex_carried k1, h2.flex_carried k2, e, htr, hn'.tail, mul_assoc]

/-- the fan with all traffic tripled -/
example : (Ex.fanOut .flex 10).kind = .flex ∧ Tidy (Ex.fanOut .flex 10) ∧
    Tidy (Ex.fanOut .flex 30) ∧ NoShortcuts (Ex.fanOut .flex 10) ∧
    SameNetwork (Ex.fanOut .flex 10) (Ex.fanOut .flex 30) ∧
    (∀ d < 2, (Ex.fanOut .flex 30).dmd d = { (Ex.fanOut .flex 10).dmd d with
      traffic := 3 * ((Ex.fanOut .flex 10).dmd d).traffic }) ∧
    raised (updateSimulation Env.default) (Ex.fanOut .flex 30) = none ∧
    ((finalState (updateSimulation Env.default) (Ex.fanOut .flex 10)).ifc 8).traffic =
      .val (5 / 3) ∧
    ((finalState (updateSimulation Env.default) (Ex.fanOut .flex 30)).ifc 8).traffic = .val 5 := by
  refine ⟨rfl, by decide +kernel, by decide +kernel, by decide +kernel,
    ⟨rfl, List.Perm.refl _, List.Perm.refl _, fun _ => rfl⟩, ?_, by decide +kernel,
    by decide +kernel, by decide +kernel⟩
  intro d hd
  match d, hd with
  | 0, _ =>
    show Dmd.mk 0 3 30 "x" none none = Dmd.mk 0 3 (3 * 10) "x" none none
    norm_num
  | 1, _ =>
    show Dmd.mk 0 0 0 "" none none = Dmd.mk 0 0 (3 * 0) "" none none
    norm_num

theorem contribution_zero {env : Env} {s s' : State} (ht : Tidy s)
    (hsc : s.kind = .flex → NoShortcuts s) (hrun : updateSimulation env s = .ok () s') {d : ℕ}
    (hd : d ∈ s'.dmds) (h0 : (s'.dmd d).traffic = 0) (i : ℕ) : contribution s' d i = 0 := by
  obtain ⟨s1, Δ, h⟩ := sim_spec ht.dmds ht.ends ht.ckts hrun
  rw [h.cfg.dmds] at hd
  rcases h.placed ht hsc hd with ⟨ls, hne, hr, hpl⟩ | ⟨-, ⟨hpl, -⟩ | ⟨l, hpl, -, -, -⟩⟩
  · rw [← h.delta_eq ht hsc hd, (h.lspLoad ht hd hne hr hpl).2, h0]
    simp
  · unfold contribution; rw [hpl]
  · obtain ⟨l', det, -, -, h3⟩ := h.igpLoad ht hsc hd hpl (by
      intro p hp m hm
      obtain ⟨q, -, rfl⟩ := List.mem_map.1 hp
      simp at hm)
    have hr : ∀ n, pyRound n 0 = 0 := fun n => pyRound_zero n
    have hc : carried det i = 0 := by
      rw [h3.carried]
      refine Finset.sum_eq_zero fun q _ => ?_
      unfold pathShare
      rw [h0, zero_mul]
      unfold pathRound
      cases s'.kind <;> simp [hr]
    rw [← h.delta_eq ht hsc hd, h3.load, hc]
    cases s'.kind <;> simp [hr]

/-- **C13** (both model classes, with or without LSPs) A demand without traffic adds no load:
every interface carries what the other demands put on it. -/
theorem C13_zero_demand {env : Env} {s s' : State} (ht : Tidy s)
    (hsc : s.kind = .flex → NoShortcuts s) (hrun : updateSimulation env s = .ok () s') {d : ℕ}
    (hd : d ∈ s'.dmds) (h0 : (s'.dmd d).traffic = 0) {i : ℕ} (hi : i ∈ s'.ifs)
    (hup : (s'.ifc i).failed = false) :
    contribution s' d i = 0 ∧ (s'.ifc i).traffic =
      .val ((s'.dmds.erase d).map fun d' => contribution s' d' i).sum := by
  have hc := contribution_zero ht hsc hrun hd h0 i
  refine ⟨hc, ?_⟩
  rw [interface_traffic ht hsc hrun hi hup, ((List.perm_cons_erase hd).map _).sum_eq]
  simp [hc]

/-- a demand without traffic beside one with: it is routed and adds nothing -/
example (k : Kind) :
    let s := { Ex.fanOut k 10 with
      dmds := [0, 1], dmd := fun d => if d = 0 then ⟨0, 3, 10, "x", none, none⟩
        else ⟨0, 3, 0, "y", none, none⟩ }
    let s' := finalState (updateSimulation Env.default) s
    Tidy s ∧ NoShortcuts s ∧ updateSimulation Env.default s = .ok () s' ∧ 1 ∈ s'.dmds ∧
      (s'.dmd 1).traffic = 0 ∧ (s'.dmd 1).path.isSome ∧ 8 ∈ s'.ifs ∧
      (s'.ifc 8).failed = false ∧ (s'.ifc 8).traffic ≠ .val 0 := by
  intro s s'
  exact ⟨by cases k <;> decide +kernel, by cases k <;> decide +kernel,
    ok_of_raised (by cases k <;> decide +kernel), by cases k <;> decide +kernel,
    by cases k <;> decide +kernel, by cases k <;> decide +kernel, by cases k <;> decide +kernel,
    by cases k <;> decide +kernel, by cases k <;> decide +kernel⟩

end NTM
