import Verif.Proof.DmdTotal
import Verif.Proof.HopSum
import Verif.Props.Lsp

/-!
# A simulation of a well-formed model raises nothing
-/

namespace NTM

open Spec

variable {env : Env} {s t : State}

theorem Spec.WellConfigured.single (h : WellConfigured s) (hk : s.kind = .perf) : SingleLinks s := by
  intro i hi j hj e1 e2
  exact h.links hk i hi j hj (by rw [e1, e2])

theorem Spec.WellConfigured.sane (h : WellConfigured s) : Sane s := ⟨h.tidy.ifs, h.tidy.costs, h.single⟩

theorem Spec.WellConfigured.setup_nonneg (h : WellConfigured s) {l : ℕ} (hl : l ∈ s.lsps) :
    0 ≤ setupBandwidth s l := by
  unfold setupBandwidth
  cases hc : (s.lsp l).configured with
  | some c => exact h.setup l hl c hc
  | none => exact div_nonneg (groupTraffic_nonneg h.traffic l) (Nat.cast_nonneg _)

theorem Spec.WellConfigured.lspEnds_reset (h : WellConfigured s) : LspEnds s.resetSim := by
  intro l hl
  rw [resetSim_lspSrc, resetSim_lspDst]
  exact h.lspEnds l hl

theorem Spec.NoParallelLsps.allOrNone (h : NoParallelLsps s) (hc : Cfg s t) : AllOrNone t := by
  intro l hl m hm e1 e2 hr
  rw [hc.lsps] at hl hm
  rw [hc.lspSrc, hc.lspSrc] at e1
  rw [hc.lspDst, hc.lspDst] at e2
  rwa [← h l hl m hm e1 e2]

/-- what the LSP phase leaves of the configuration -/
structure LspsDone (env : Env) (s t : State) : Prop where
  cfg : Cfg s t
  fresh : GroupsFresh env t
  cktId : ∀ i, (t.ifc i).cktId = (s.ifc i).cktId

theorem lspsDone (hrun : routeLsps env s.resetSim = .ok () t) : LspsDone env s t := by
  obtain ⟨hfr, hfresh⟩ := of_wp_ok (routeLsps_frame env s.resetSim rfl) hrun
  refine ⟨?_, hfresh, ?_⟩
  · refine (cfg_resetSim s).trans ?_
    have h1 : Cfg s.resetSim { s.resetSim with
        groups := buildGroups env s.resetSim.lsps s.resetSim.lspSrc s.resetSim.lspDst } :=
      ⟨rfl, rfl, rfl, rfl, rfl, rfl, rfl, rfl, rfl, fun _ => rfl, fun _ => rfl, fun _ => rfl⟩
    exact h1.trans hfr.cfg
  · intro i
    rw [hfr.ifc i]
    show (if i ∈ s.ifs then { s.ifc i with reservedRaw := 0, traffic := .val 0 } else s.ifc i).cktId
      = _
    split <;> rfl

theorem Cfg.nodeNames (h : Cfg s t) : t.nodeNames = s.nodeNames := by
  unfold State.nodeNames
  rw [h.nodes, h.node]

theorem Cfg.limit (h : Cfg s t) (i : ℕ) : reservationLimit t i = reservationLimit s i := by
  unfold reservationLimit; rw [h.ifc i]

theorem Spec.WellConfigured.limit_nonneg (h : WellConfigured s) {i : ℕ} (hi : i ∈ s.ifs) :
    0 ≤ reservationLimit s i ∧ reservationLimit s i ≤ (s.ifc i).capacity := by
  have h1 := h.capacity i hi
  obtain ⟨h2, h3⟩ := h.percent i hi
  unfold reservationLimit
  constructor
  · positivity
  · have : (s.ifc i).pct / 100 ≤ 1 := by linarith
    nlinarith

/-- the state after the LSP phase -/
structure AfterLsps (env : Env) (s t : State) : Prop where
  done : LspsDone env s t
  placed : ∀ l ∈ t.lsps, Placed t l
  eligible : ∀ l ∈ t.lsps, ∀ p c h, (t.lsp l).path = .routed p c h →
    Eligible t (t.lspSrc l) (t.lspDst l) p
  barred : ∀ i ∈ t.ifs, (t.ifc i).rsvpEnabled = false → t.reservedBw i = 0
  room : ∀ i ∈ t.ifs, (t.ifc i).rsvpEnabled = true →
    0 ≤ t.reservable i ∧ t.reservedBw i ≤ reservationLimit s i + 1 / 20
  ledger : LedgerBalanced t

theorem afterLsps (h : WellConfigured s) (htie : NoTies s)
    (hx : NoParallelLsps s ∨ (SingleLinks s ∧ NoCoincidence s))
    (hrun : routeLsps env s.resetSim = .ok () t) : AfterLsps env s t := by
  have hd := lspsDone hrun
  have hc := hd.cfg
  have c0 := cfg_resetSim s
  have hs0 : Sane s.resetSim := c0.sane h.sane
  have hx' : NoCoincidence s ∨ AllOrNone t := hx.symm.imp And.right fun hx => hx.allOrNone hc
  obtain ⟨done, hg, hdone⟩ := phase_inv h.tidy h.single hrun (barred_rule env hs0)
  have hall : ∀ l ∈ t.lsps, l ∈ done := by
    intro l hl
    rw [hc.lsps] at hl
    exact (hdone l).2 (mem_groups_all h.keys hl)
  have hnm : ¬ (¬ SingleLinks s.resetSim ∧ Mixed s.resetSim done t) := by
    rintro ⟨h1, h2⟩
    rcases hx with hx | hx
    · exact not_mixed (s := s) hg.inv.1.1.sub hc rfl (hx.allOrNone hc) h2
    · refine h1 ?_
      intro i hi j hj e1 e2
      rw [c0.tail, c0.tail] at e1
      rw [c0.head, c0.head] at e2
      exact hx.1 i hi j hj e1 e2
  refine ⟨hd, fun l hl => hg.inv.1.1.placed l (hall l hl), ?_, ?_, ?_,
    C19_ledger_balanced h.tidy h.single h.keys h.traffic htie hrun hx'⟩
  · intro l hl p c hh hp
    have := hg.inv.1.2.resolve_left hnm l (hall l hl) p c hh hp
    rwa [resetSim_lspSrc, resetSim_lspDst, ← hc.lspSrc, ← hc.lspDst] at this
  · intro i hi hr
    have hr' : (s.resetSim.ifc i).rsvpEnabled = false := by rw [c0.ifc i, ← hr, hc.ifc i]
    have := hg.inv.2.resolve_left hnm i (show i ∈ s.ifs from hc.ifs ▸ hi)
      (.inr hr')
    unfold State.reservedBw
    rw [this]
    exact pyRound_zero 1
  · intro i hi hr
    have hi' : i ∈ s.ifs := hc.ifs ▸ hi
    obtain ⟨h1, h2, -⟩ := C20_within_limit h.tidy h.single h.keys h.traffic h.ifcNames
      (fun l hl => (htie l hl).1) (fun l hl => h.setup_nonneg hl) hrun hi hr
      (by rw [hc.limit]; exact (h.limit_nonneg hi').1)
    rw [hc.limit] at h2
    exact ⟨h1, h2⟩

theorem manualView_ok {l : Lsp} (h : ∀ m, l.initialMetric = some m → 0 ≤ m) :
    ∃ m, l.manualView = .ok m := by
  unfold Lsp.manualView Lsp.readMetric
  cases hm : l.initialMetric with
  | none => exact ⟨_, rfl⟩
  | some m =>
    have := h m hm
    simp only []
    split
    · exact ⟨_, rfl⟩
    · rw [if_pos (by omega)]; exact ⟨_, rfl⟩

theorem AfterLsps.ready (ha : AfterLsps env s t) (h : WellConfigured s) : Ready env t := by
  have hc := ha.done.cfg
  refine ⟨ha.done.fresh, hc.sane h.sane, ?_, ?_, ?_, ?_⟩
  · intro l hl
    rcases ha.placed l hl with ⟨h1, -⟩ | ⟨p, c, m, b, h1, -⟩
    · exact .inl h1
    · refine .inr ⟨p, c, m, h1, ?_⟩
      refine (ha.eligible l hl p c m h1).mono ?_
      rintro i - ⟨h2, h3, h4⟩
      exact ⟨h2, h3, (ha.room i h2 h4).1⟩
  · intro l hl
    rw [hc.lspSrc, hc.nodeNames]
    exact (h.lspEnds l (hc.lsps ▸ hl)).1
  · intro l hl
    refine manualView_ok ?_
    intro m hm
    rw [hc.lsp l] at hm
    exact h.metric l (hc.lsps ▸ hl) m hm
  · intro i hi
    rw [hc.head, hc.nodeNames]
    exact h.heads i (hc.ifs ▸ hi)

theorem AfterLsps.cap (ha : AfterLsps env s t) (h : WellConfigured s) (hten : CapacityTenths s ∨ s.lsps = []) {i : ℕ}
    (hi : i ∈ t.ifs) : t.reservedBw i ≤ (t.ifc i).capacity := by
  have hc := ha.done.cfg
  have hi' : i ∈ s.ifs := hc.ifs ▸ hi
  have ecap : (t.ifc i).capacity = (s.ifc i).capacity := by rw [hc.ifc i]
  rcases hten with hten | hten
  swap
  · rw [ha.ledger i hi, hc.lsps, hten, ecap]
    exact h.capacity i hi'
  cases hr : (t.ifc i).rsvpEnabled with
  | false => rw [ha.barred i hi hr, ecap]; exact h.capacity i hi'
  | true =>
    have h1 := (ha.room i hi hr).2
    have h2 := (h.limit_nonneg hi').2
    obtain ⟨n, hn⟩ := reservedBw_decimal t i
    obtain ⟨m, hm⟩ := hten i hi'
    rw [ecap]
    have h3 : t.reservedBw i ≤ (s.ifc i).capacity + 1 / 20 := by linarith
    rw [hn, hm] at h3
    rw [hn, hm]
    have h4 : (n : ℚ) < m + 1 := by
      have : (n : ℚ) / 10 ^ 1 = n / 10 := by norm_num
      rw [this] at h3
      linarith
    have h5 : n < m + 1 := by exact_mod_cast h4
    have h6 : (n : ℚ) ≤ m := by exact_mod_cast Int.lt_add_one_iff.1 h5
    have : (n : ℚ) / 10 ^ 1 = n / 10 := by norm_num
    rw [this]
    linarith

theorem multipleLinks_nil (hn : s.ifs.Nodup)
    (h : ∀ i ∈ s.ifs, ∀ j ∈ s.ifs, s.tail i ++ "-" ++ s.head i = s.tail j ++ "-" ++ s.head j →
      i = j) : s.multipleLinks = [] := by
  unfold State.multipleLinks
  have hnd : (s.ifs.map fun i => s.tail i ++ "-" ++ s.head i).Nodup :=
    List.Nodup.map_on h hn
  rw [List.filter_eq_nil_iff]
  intro c hc
  have := List.nodup_iff_count_le_one.1 hnd c
  simpa using this

theorem AfterLsps.core (ha : AfterLsps env s t) (h : WellConfigured s) (hten : CapacityTenths s ∨ s.lsps = []) :
    ValidCore t := by
  have hc := ha.done.cfg
  have hu : UniqueIfcKeys t := by
    intro a hai b hbi e
    refine h.ifcNames a (hc.ifs ▸ hai) b (hc.ifs ▸ hbi) ?_
    unfold State.ifcKey at *
    rw [hc.tail, hc.tail, hc.ifc a, hc.ifc b] at e
    exact e
  refine ⟨⟨_, lspHops_ok ha.placed, ?_⟩, fun i hi => ha.cap h hten hi, ?_, ?_, ?_⟩
  · intro i hi
    rw [infoReserved_sum hu ha.placed hi, ha.ledger i hi]
  · intro hk n hn
    rw [hc.node]
    exact h.shortcuts (hc.kind ▸ hk) n (hc.nodes ▸ hn)
  · intro hk
    refine multipleLinks_nil (hc.ifs ▸ h.tidy.ifs) ?_
    intro i hi j hj e
    rw [hc.tail, hc.tail, hc.head, hc.head] at e
    exact h.links (hc.kind ▸ hk) i (hc.ifs ▸ hi) j (hc.ifs ▸ hj) e
  · rw [hc.nodeNames, hc.nodes, List.dedup_eq_self.2 h.nodeNames]
    unfold State.nodeNames
    rw [List.length_map]

theorem ValidCore.withLoad {D : ℕ → Dmd} {T : ℕ → Traffic} (h : ValidCore s) :
    ValidCore (s.withLoad D T) := ⟨h.hops, h.cap, h.shortcuts, h.links, h.names⟩

theorem AfterLsps.matchable (ha : AfterLsps env s t) {i : ℕ} :
    i ∈ t.matchable ↔ i ∈ t.ifs ∧ (t.ifc i).rsvpEnabled = true := by
  rw [mem_matchable]
  refine and_congr_right fun hi => ?_
  cases hr : (t.ifc i).rsvpEnabled with
  | true => simp only [iff_true]; exact (ha.room i hi hr).1
  | false =>
    have : t.reservable i = -1 := by unfold State.reservable; rw [hr]; rfl
    rw [this]
    norm_num

theorem AfterLsps.opposite (ha : AfterLsps env s t) {i j : ℕ} : Opposite t i j ↔ Opposite s i j := by
  unfold Opposite
  have hc := ha.done.cfg
  rw [hc.tail, hc.tail, hc.head, hc.head, ha.done.cktId, ha.done.cktId, hc.kind]

theorem ifcsFromNodes_unique {u v : String} {c : CktId} (hc : c ≠ .none) {j : ℕ} (hj : j ∈ s.ifs)
    (hn : s.ifs.Nodup)
    (h1 : s.tail j = u) (h2 : s.head j = v) (h3 : (s.ifc j).cktId = c)
    (hu : ∀ i ∈ s.ifs, s.tail i = u → s.head i = v → (s.ifc i).cktId = c → i = j) :
    s.ifcsFromNodes u v c = some [j] := by
  have hl : (s.ifs.filter fun i => s.tail i = u && s.head i = v && (s.ifc i).cktId = c) = [j] := by
    have hnd := hn.filter fun i => s.tail i = u && s.head i = v && (s.ifc i).cktId = c
    refine List.perm_singleton.1 ((List.perm_ext_iff_of_nodup hnd (List.nodup_singleton j)).2 ?_)
    intro i
    rw [List.mem_filter, List.mem_singleton]
    simp only [Bool.and_eq_true, decide_eq_true_eq]
    constructor
    · rintro ⟨hi, ⟨e1, e2⟩, e3⟩
      exact hu i hi e1 e2 e3
    · rintro rfl
      exact ⟨hj, ⟨h1, h2⟩, h3⟩
  unfold State.ifcsFromNodes
  cases c with
  | none => exact absurd rfl hc
  | _ => simp only [hl]; rfl

theorem AfterLsps.validates (ha : AfterLsps env s t) (h : WellConfigured s) (hten : CapacityTenths s ∨ s.lsps = [])
    (D : ℕ → Dmd) (T : ℕ → Traffic) : ∃ v, validate env (t.withLoad D T) = .ok () v := by
  have hc := ha.done.cfg
  have hmatch : ∀ i, i ∈ (t.withLoad D T).matchable ↔ i ∈ t.ifs ∧ (t.ifc i).rsvpEnabled = true :=
    fun i => ha.matchable (i := i)
  have hrs : ∀ i, (t.ifc i).rsvpEnabled = (s.ifc i).rsvpEnabled := fun i => by rw [hc.ifc i]
  have hset : CktIdsSet (t.withLoad D T) := by
    intro hk i hi
    show (t.ifc i).cktId ≠ _
    rw [ha.done.cktId]
    exact h.tidy.ckts (hc.kind ▸ hk) i (hc.ifs ▸ hi)
  have hsingle : (t.withLoad D T).kind = .perf → SingleLinks (t.withLoad D T) := by
    intro hk i hi j hj e1 e2
    change t.tail i = t.tail j at e1
    change t.head i = t.head j at e2
    rw [hc.tail, hc.tail] at e1
    rw [hc.head, hc.head] at e2
    exact h.single (hc.kind ▸ hk) i (hc.ifs ▸ hi) j (hc.ifs ▸ hj) e1 e2
  have hids : s.kind = .flex → ∀ i ∈ t.ifs, ∀ j ∈ t.ifs, t.tail i = t.tail j → t.head i = t.head j →
      (t.ifc i).cktId = (t.ifc j).cktId → i = j := by
    intro hk i hi j hj e1 e2 e3
    rw [hc.tail, hc.tail] at e1
    rw [hc.head, hc.head] at e2
    rw [ha.done.cktId, ha.done.cktId] at e3
    exact h.ids hk i (hc.ifs ▸ hi) j (hc.ifs ▸ hj) e1 e2 e3
  obtain ⟨v, -, hv⟩ := validate_complete env (s := t.withLoad D T)
    (by
      rintro ⟨i, hi, hno⟩
      obtain ⟨hi, hr⟩ := (hmatch i).1 hi
      obtain ⟨j, hj, ho, -, hrj⟩ := h.twin i (hc.ifs ▸ hi)
      have ho := ha.opposite.2 ho
      refine hno ⟨j, (hmatch j).2 ⟨hc.ifs ▸ hj, ?_⟩, ho.2.1.symm, ho.1.symm⟩
      rw [hrs j, ← hrj, ← hrs i, hr])
    (by
      intro hk e he
      have hk' : s.kind = .flex := hc.kind ▸ hk
      have he := ((hmatch e).1 he).1
      obtain ⟨j, hj, ho, -, -⟩ := h.twin e (hc.ifs ▸ he)
      have ho := ha.opposite.2 ho
      have hj : j ∈ t.ifs := hc.ifs ▸ hj
      have hne : (t.ifc e).cktId ≠ .none := hset hk e he
      have hn : t.ifs.Nodup := hc.ifs ▸ h.tidy.ifs
      exact ⟨⟨e, [], ifcsFromNodes_unique (s := t) hne he hn rfl rfl rfl
        fun i hi e1 e2 e3 => hids hk' i hi e he e1 e2 e3⟩,
        ⟨j, [], ifcsFromNodes_unique (s := t) hne hj hn ho.2.1.symm ho.1.symm
          (ho.2.2 (hc.kind.trans hk')).symm
          fun i hi e1 e2 e3 => hids hk' i hi j hj (e1.trans ho.2.1) (e2.trans ho.1)
            (e3.trans (ho.2.2 (hc.kind.trans hk')))⟩⟩)
    (by
      intro u hp
      refine ValidCore.ok (hp.core.2 (ha.core h hten).withLoad) ?_
      have hw : PairedWell (t.withLoad D T) u := { hp with single := hsingle, set := hset }
      intro c hcm
      obtain ⟨h1, h2, -⟩ := hp.ends c hcm
      have ho : Opposite t c.1 c.2 := hw.opposite hcm
      have ho := ha.opposite.1 ho
      have h1 : c.1 ∈ s.ifs := hc.ifs ▸ h1
      have h2 : c.2 ∈ s.ifs := hc.ifs ▸ h2
      obtain ⟨j, hj, hoj, hcap, -⟩ := h.twin c.1 h1
      have ej : j = c.2 := by
        have e1 : s.tail j = s.tail c.2 := by rw [← hoj.2.1, ho.2.1]
        have e2 : s.head j = s.head c.2 := by rw [← hoj.1, ho.1]
        cases hk : s.kind with
        | perf => exact h.single hk j hj c.2 h2 e1 e2
        | flex => exact h.ids hk j hj c.2 h2 e1 e2 (by rw [← hoj.2.2 hk, ho.2.2 hk])
      obtain ⟨B, I, heq⟩ := hp.eq
      have e1 : ∀ k, (u.ifc k).capacity = (s.ifc k).capacity := by
        intro k
        have : (u.ifc k).capacity = (t.ifc k).capacity := by rw [heq]; rfl
        rw [this, hc.ifc k]
      rw [e1, e1, hcap, ej])
  exact ⟨_, hv⟩

theorem updateSimulation_runs (env : Env) (h : WellConfigured s) (htie : NoTies s)
    (hten : CapacityTenths s ∨ s.lsps = []) (hx : NoParallelLsps s ∨ (SingleLinks s ∧ NoCoincidence s)) :
    ∃ t, updateSimulation env s = .ok () t := by
  have c0 := cfg_resetSim s
  obtain ⟨_, s1, h1⟩ := (routeLsps_runs (env := env) (c0.sane h.sane) rfl h.lspEnds_reset
    (c0.nonneg h.traffic)).ok
  have ha := afterLsps h htie hx h1
  have hc := ha.done.cfg
  have hdw := routeDemands_runs (ha.ready h)
    (by
      intro d hd
      rw [hc.dmdSrc, hc.nodeNames]
      exact (h.dmdEnds d (hc.dmds ▸ hd)).1)
    (by
      intro d hd
      rw [hc.dmdSrc, hc.dmdDst]
      exact (h.dmdEnds d (hc.dmds ▸ hd)).2)
  obtain ⟨_, s2, h2⟩ := Runs.ok (wp_mono hdw (fun _ _ _ => trivial) (fun _ _ h => h))
  obtain ⟨D, T, rfl⟩ := of_wp_ok hdw h2
  obtain ⟨v, h3⟩ := ha.validates h hten D T
  refine ⟨v, ?_⟩
  unfold updateSimulation
  rw [py_bind_ok (show (modify State.resetSim : Py Unit) s = .ok () s.resetSim from rfl),
    py_bind_ok h1, py_bind_ok h2, h3]

end NTM
