import Verif.Proof.Float
import Verif.Proof.FloatTotal
import Verif.Proof.Circuits
import Verif.Props.Queries
import Mathlib.Data.Int.Log

/-!
# C92: floating point and interface load
-/

namespace NTM

open Spec

variable {u : ℚ} {fl : ℚ → ℚ}

/-- validation of a model whose circuits' ends agree touches circuits only -/
theorem validate_still {env : Env} {s t : State} (he : EndsAgree s) (hc : CktIdsSet s)
    (h : validate env s = .ok () t) : ∃ C B I, t = s.withCkt C B I := by
  obtain ⟨w, hP, rfl, -⟩ := validate_ok h
  obtain ⟨B, I, heq⟩ := hP.eq
  have hagree : ∀ c ∈ w.circuits, (w.ifc c.1).failed = (w.ifc c.2).failed := by
    intro c hcm
    obtain ⟨h1, h2, h3, h4⟩ := hP.ends c hcm
    have hid := hP.sameId hc c hcm
    have hf : ∀ i, (w.ifc i).failed = (s.ifc i).failed := by intro i; rw [heq]; rfl
    rw [hf, hf]
    refine he _ h1 _ h2 ⟨h3, h4, fun hk => ?_⟩
    rw [← hP.flexIds hk c.1, ← hP.flexIds hk c.2, hid]
  rw [repair_self hagree]
  exact ⟨_, B, I, heq⟩

theorem IsLoad.trans {s0 s1 s2 : State} (h : IsLoad s0 s1) (g : IsLoad s1 s2) : IsLoad s0 s2 := by
  refine ⟨fun d => ?_, ?_⟩
  · rw [g.dmd d, h.dmd d]
  · conv_lhs => rw [g.eq, h.eq]
    rfl

theorem routeDemandsFl_eq (env : Env) (s : State) : routeDemandsFl fl env s =
    (forEach s.dmds (routeDemand env (s.graphOf s.igpEdges) s.igpEdges) >>=
      fun _ => updateUtilizationFl fl env) s := by
  have hg : (match s.kind with
    | .perf => s.graphPerf false 0 false
    | .flex => s.graphFlex false 0 false) = s.graphOf s.igpEdges := by
    unfold State.graphOf; cases s.kind <;> rfl
  rw [← hg]
  rfl

/-- the two runs, phase by phase -/
theorem float_spec (hf : FloatRounding u fl) {env : Env} {s s' t' : State} (ht : Tidy s)
    (hk : s.kind = .flex) (hsc : NoShortcuts s) (hq : NonnegTraffic s)
    (hrun : updateSimulation env s = .ok () s') (hfl : updateSimulationFl fl env s = .ok () t') :
    (∀ d, (t'.dmd d).path = (s'.dmd d).path) ∧ t'.lsp = s'.lsp ∧
      ∀ i ∈ s.ifs, Near u (pathsOver s' i + 1) (s'.ifc i).traffic (t'.ifc i).traffic := by
  obtain ⟨s1, Δ, hS⟩ := sim_spec ht.dmds ht.ends ht.ckts hrun
  have hpl := fun d hd => hS.placed ht (fun _ => hsc) (d := d) hd
  have hcfg := hS.cfg
  unfold updateSimulation at hrun
  unfold updateSimulationFl at hfl
  obtain ⟨_, s0, h0, hrun⟩ := py_bind_inv hrun
  obtain ⟨_, t0, g0, hfl⟩ := py_bind_inv hfl
  cases h0
  cases g0
  obtain ⟨_, sX, hl, hrun⟩ := py_bind_inv hrun
  obtain ⟨_, t1, gl, hfl⟩ := py_bind_inv hfl
  rw [hl] at gl
  cases gl
  have hL := hS.lspRun
  change routeLsps env s.resetSim = .ok () sX at hl
  rw [hl] at hL
  cases hL
  have hfresh := hS.fresh
  have hc1 := hS.cfg1
  obtain ⟨_, s3, hr, hv⟩ := py_bind_inv hrun
  obtain ⟨_, t3, gr, gv⟩ := py_bind_inv hfl
  rw [routeDemands_eq] at hr
  rw [routeDemandsFl_eq] at gr
  obtain ⟨_, s2, h2, hr⟩ := py_bind_inv hr
  obtain ⟨_, t2, g2, gr⟩ := py_bind_inv gr
  rw [h2] at g2
  cases g2
  obtain ⟨D, rfl, hDcfg, -, -⟩ :=
    of_wp_ok (routeLoop_spec hfresh (s1.graphOf s1.igpEdges) s1.igpEdges s1.dmds) h2
  unfold updateUtilization at hr
  unfold updateUtilizationFl at gr
  obtain ⟨_, a, ha, hr⟩ := py_bind_inv hr
  obtain ⟨_, b, hb, gr⟩ := py_bind_inv gr
  cases ha
  cases hb
  rw [py_bind_ok (show (get : Py State) _ = .ok _ _ from rfl)] at hr gr
  set s0 := State.resetTraffic { s1 with dmd := D } with hs0
  have hl0 : s0 = s1.withLoad D fun i => (s0.ifc i).traffic := by
    rw [hs0]
    unfold State.withLoad State.resetTraffic
    simp only []
    congr 1
    funext i
    by_cases hi : i ∈ s1.ifs <;> simp [hi]
  have hdm : s0.dmds = s.dmds := hc1.dmds
  have hifs : s0.ifs = s.ifs := hc1.ifs
  have hkind : s0.kind = .flex := hc1.kind.trans hk
  have hfresh0 : GroupsFresh env s0 := hfresh
  have hT0 : Track u s0 (fun _ => 1) s0 s0 := by
    refine ⟨.refl _, .refl _, fun _ => le_refl _, fun i hi => ?_⟩
    have e : (s0.ifc i).traffic = if (s1.ifc i).failed then .down else .val 0 := by
      show (if i ∈ s1.ifs then { s1.ifc i with traffic := (if (s1.ifc i).failed then
        Traffic.down else .val 0) } else s1.ifc i).traffic = _
      rw [if_pos (show i ∈ s1.ifs from hi)]
    rw [e]
    cases (s1.ifc i).failed
    · exact ⟨le_refl _, by simp⟩
    · trivial
  -- the final states
  have hsame : ∀ {x y : State}, IsLoad s0 x → validate env x = .ok () y →
      y.dmd = x.dmd ∧ y.lsp = s1.lsp ∧ (∀ i, (y.ifc i).traffic = (x.ifc i).traffic) ∧
        ∀ key ls, RidingOf y key ls ↔ RidingOf s0 key ls := by
    intro x y hx hy
    have hif : ∀ i, x.ifc i = { s1.ifc i with traffic := (x.ifc i).traffic } := by
      intro i
      conv_lhs => rw [hx.eq, hl0]
      rfl
    have hnode : x.node = s1.node := by rw [hx.eq, hl0]; rfl
    have hxk : x.kind = s.kind := hx.kind.trans (hkind.trans hk.symm)
    have hxi : x.ifs = s.ifs := by rw [hx.eq]; exact hifs
    have htail : ∀ i, x.tail i = s.tail i := by
      intro i; rw [← hc1.tail]; unfold State.tail; rw [hif, hnode]
    have hhead : ∀ i, x.head i = s.head i := by
      intro i; rw [← hc1.head]; unfold State.head; rw [hif, hnode]
    have hcid : ∀ i ∈ s.ifs, (x.ifc i).cktId = (s.ifc i).cktId := by
      intro i hi
      rw [hif]
      show (s1.ifc i).cktId = _
      rw [hS.frame.ifc i]
      show (if i ∈ s.ifs then _ else _ : Ifc).cktId = _
      rw [if_pos hi]
    have hfail : ∀ i ∈ s.ifs, (x.ifc i).failed = (s.ifc i).failed := by
      intro i hi
      rw [hif]
      show (s1.ifc i).failed = _
      rw [hS.frame.ifc i]
      show (if i ∈ s.ifs then _ else _ : Ifc).failed = _
      rw [if_pos hi]
    have he : EndsAgree x := by
      intro i hi j hj ho
      rw [hxi] at hi hj
      rw [hfail i hi, hfail j hj]
      refine ht.ends i hi j hj ⟨?_, ?_, fun hk' => ?_⟩
      · rw [← htail, ← hhead]; exact ho.1
      · rw [← htail, ← hhead]; exact ho.2.1
      · rw [← hcid i hi, ← hcid j hj]; exact ho.2.2 (hxk.trans hk')
    have hc : CktIdsSet x := by
      intro hk' i hi
      rw [hcid i (hxi ▸ hi)]
      exact ht.ckts hk i (hxi ▸ hi)
    obtain ⟨C, B, I, rfl⟩ := validate_still he hc hy
    refine ⟨rfl, ?_, fun _ => rfl, ?_⟩
    · show x.lsp = _
      rw [hx.lsp]; rfl
    · intro key ls
      have e : x.withCkt C B I = x.over x.dmd (fun i => (x.ifc i).traffic) C B I := rfl
      rw [e, RidingOf.over, hx.riding]
  have hsrc : ∀ d, s0.dmdSrc d = s.dmdSrc d := by
    intro d
    rw [← hc1.dmdSrc]
    unfold State.dmdSrc
    show (s1.node (D d).src).name = _
    rw [hDcfg d]
  have hdst : ∀ d, s0.dmdDst d = s.dmdDst d := by
    intro d
    rw [← hc1.dmdDst]
    unfold State.dmdDst
    show (s1.node (D d).dst).name = _
    rw [hDcfg d]
  -- the exact run alone, to read off the final paths
  have hleft : ∀ (ds : List ℕ) (x y : State), IsLoad s0 x → forEach ds (loadDemand env) x = .ok () y →
      IsLoad s0 y := by
    intro ds x y hx hy
    have hnn : True := trivial
    induction ds generalizing x with
    | nil => rw [forEach_nil_inv hy]; exact hx
    | cons d ds ih =>
      obtain ⟨m, e1, e2⟩ := forEach_cons_inv hy
      refine ih m ?_ e2
      have hx1 : forEach [d] (loadDemand env) x = .ok () m := by
        show (loadDemand env d >>= fun _ => forEach [] (loadDemand env)) x = _
        rw [py_bind_ok e1]
        rfl
      obtain ⟨Δ', E, hm, -⟩ := of_wp_ok (loadLoop_spec (hx.fresh hfresh0) [d]
        (List.nodup_singleton d)) hx1
      refine hx.trans ⟨fun e => by rw [hm]; rfl, ?_⟩
      conv_lhs => rw [hm]
      rw [hm]
      rfl
  have hLs := hleft _ _ _ (.refl _) hr
  obtain ⟨f1, f2, f3, f4⟩ := hsame hLs hv
  have hpath : ∀ d, (s'.dmd d).path = (s0.dmd d).path := by
    intro d; rw [f1, hLs.dmd d]
  have hplain : ∀ d ∈ s.dmds, PlainPaths s0 d := by
    intro d hd ps hps
    rw [hsrc, hdst]
    rw [← hpath] at hps
    rcases hpl d hd with ⟨ls, n, r, e⟩ | ⟨r, ⟨e, -⟩ | ⟨l, e, -⟩⟩
    · rw [hps] at e
      cases e
      exact .inl ⟨ls, n, (f4 _ _).1 r, rfl⟩
    · rw [hps] at e; cases e
    · rw [hps] at e
      cases e
      exact .inr ⟨(f4 _ _).1 r, l, rfl⟩
  have hself : ∀ L : List ℕ, (∀ d ∈ L, d ∈ s.dmds) →
      List.Forall₂ (fun x y : ℕ => x = y ∧ x ∈ s.dmds) L L := by
    intro L
    induction L with
    | nil => intro _; exact .nil
    | cons x L ih =>
      intro hL
      exact .cons ⟨rfl, hL x (by simp)⟩ (ih fun y hy => hL y (by simp [hy]))
  have hT := Track.forEach hf.unit (N := fun d i => match (s0.dmd d).path with
      | none => 0
      | some ps => (ps.map fun p => timesOver s0 p i).sum)
    (fun x y e c a b a1 b1 h h1 h2 => by
      obtain ⟨rfl, hx⟩ := e
      refine h.demand hf hkind hfresh0 ?_ (hplain x hx) h1 h2
      show 0 ≤ (D x).traffic
      rw [hDcfg x]
      show 0 ≤ (s1.dmd x).traffic
      rw [hc1.dmd x]
      exact hq x hx)
    (hself s0.dmds fun d hd => hdm ▸ hd) hT0 hr gr
  obtain ⟨k1, k2, k3, -⟩ := hsame hT.right gv
  refine ⟨fun d => ?_, by rw [k2, f2], fun i hi => ?_⟩
  · rw [hpath, k1, hT.right.dmd d]
  · rw [f3, k3]
    have := hT.near i (hifs ▸ hi)
    convert this using 1
    unfold pathsOver
    rw [add_comm, hcfg.dmds, hdm]
    congr 2
    refine List.map_congr_left fun d _ => ?_
    rw [hpath]
    cases (s0.dmd d).path with
    | none => rfl
    | some ps =>
      simp only []
      congr 1
      refine List.map_congr_left fun p _ => ?_
      unfold timesOver
      rw [f2]
      rfl

/-- the error of `n` roundings -/
theorem pow_bound (hu : 0 ≤ u) (n : ℕ) (hn : (n : ℚ) * u ≤ 1 / 2) :
    (1 + u) ^ n - 1 ≤ 2 * n * u := by
  have h : ∀ n : ℕ, (n : ℚ) * u ≤ 1 → (1 + u) ^ n * (1 - n * u) ≤ 1 := by
    intro n
    induction n with
    | zero => intro _; simp
    | succ n ih =>
      intro h
      push_cast at h ⊢
      have h' : (n : ℚ) * u ≤ 1 := by nlinarith
      have h1 := ih h'
      have h2 : (1 + u) ^ n * ((1 + u) * (1 - (n + 1) * u)) ≤ (1 + u) ^ n * (1 - n * u) := by
        refine mul_le_mul_of_nonneg_left ?_ (by positivity)
        have : (0 : ℚ) ≤ n := Nat.cast_nonneg n
        nlinarith [mul_nonneg this (mul_nonneg hu hu), mul_nonneg hu hu]
      calc (1 + u) ^ (n + 1) * (1 - (n + 1) * u)
          = (1 + u) ^ n * ((1 + u) * (1 - (n + 1) * u)) := by rw [pow_succ]; ring
        _ ≤ 1 := h2.trans h1
  have h1 := h n (by linarith)
  have h0 : 0 ≤ (n : ℚ) * u := mul_nonneg (Nat.cast_nonneg n) hu
  have h2 : (1 + u) ^ n ≤ 1 + 2 * (n * u) := by
    have h3 : 1 ≤ (1 + 2 * (n * u)) * (1 - n * u) := by nlinarith
    have h4 : 0 < 1 - (n : ℚ) * u := by linarith
    by_contra hc
    push Not at hc
    have := mul_lt_mul_of_pos_right hc h4
    linarith
  linarith

/-- rounding to `p` bits is within half a unit in the last place -/
theorem roundBits_rounding (p : ℕ) : FloatRounding (1 / 2 ^ p) (roundBits p) := by
  refine ⟨by positivity, fun x => ?_⟩
  unfold roundBits
  by_cases h : x = 0
  · simp [h]
  · rw [if_neg h]
    simp only []
    set e : ℤ := Int.log 2 |x| - (p - 1) with he
    have hpos : 0 < |x| := abs_pos.2 h
    have h2 : (0 : ℚ) < 2 ^ e := zpow_pos (by norm_num) e
    have h1 := roundHalfEven_close (x / 2 ^ e)
    have h3 : |(roundHalfEven (x / 2 ^ e) : ℚ) - x / 2 ^ e| ≤ 1 / 2 := by
      rw [abs_le]; constructor <;> linarith [h1.1, h1.2]
    have h4 : (roundHalfEven (x / 2 ^ e) : ℚ) * 2 ^ e - x =
        ((roundHalfEven (x / 2 ^ e) : ℚ) - x / 2 ^ e) * 2 ^ e := by
      field_simp
    rw [h4, abs_mul, abs_of_pos h2]
    have h5 : (2 : ℚ) ^ (Int.log 2 |x|) ≤ |x| := Int.zpow_log_le_self (by norm_num) hpos
    have h6 : (2 : ℚ) ^ e * 2 ^ p = 2 ^ (Int.log 2 |x|) * 2 := by
      rw [he, ← zpow_natCast, ← zpow_add₀ (by norm_num), ← zpow_add_one₀ (by norm_num)]
      congr 1
      ring
    have h7 : (0 : ℚ) < 2 ^ p := by positivity
    calc |(roundHalfEven (x / 2 ^ e) : ℚ) - x / 2 ^ e| * 2 ^ e ≤ 1 / 2 * 2 ^ e :=
          mul_le_mul_of_nonneg_right h3 h2.le
      _ ≤ 1 / 2 ^ p * |x| := by
          rw [div_mul_eq_mul_div, div_mul_eq_mul_div, div_le_div_iff₀ (by norm_num) h7]
          nlinarith

/-- **C92** Whatever the rounding `fl`, of either kind of model and with or without IGP shortcuts:
the simulation in floating point completes if and only if the exact one does, and then every demand
and LSP takes the same paths and the same interfaces are down. -/
theorem C92_same_paths (fl : ℚ → ℚ) (env : Env) {s : State} (ht : Tidy s) :
    ((∃ s', updateSimulation env s = .ok () s') ↔ ∃ t', updateSimulationFl fl env s = .ok () t') ∧
    ∀ s' t', updateSimulation env s = .ok () s' → updateSimulationFl fl env s = .ok () t' →
      (∀ d, (t'.dmd d).path = (s'.dmd d).path) ∧ (∀ l, t'.lsp l = s'.lsp l) ∧
      ∀ i, ((t'.ifc i).traffic = .down ↔ (s'.ifc i).traffic = .down) ∧
        (t'.ifc i).reservedRaw = (s'.ifc i).reservedRaw := by
  refine ⟨float_completes env ht.ckts, fun s' t' h g => ?_⟩
  rcases runs_alike (fl := fl) env ht.ckts with ⟨s3, t3, e1, e2, ha, c1, c2, hcfg⟩ |
    ⟨e, u, v, e1, e2⟩
  · rw [e1] at h
    rw [e2] at g
    have he1 : EndsAgree s3 := by
      intro i hi j hj ho
      have hfail : ∀ i, (s3.ifc i).failed = (s.ifc i).failed := by intro i; rw [hcfg.ifc i]
      have htl : ∀ i, s3.tail i = s.tail i := by
        intro i; unfold State.tail; rw [hcfg.ifc i, hcfg.node]
      have hhd : ∀ i, s3.head i = s.head i := by
        intro i; unfold State.head; rw [hcfg.ifc i, hcfg.node]
      rw [hfail, hfail]
      refine ht.ends i (hcfg.ifs ▸ hi) j (hcfg.ifs ▸ hj) ⟨?_, ?_, fun hk => ?_⟩
      · rw [← htl, ← hhd]; exact ho.1
      · rw [← htl, ← hhd]; exact ho.2.1
      · have := ho.2.2 (hcfg.kind.trans hk)
        rwa [hcfg.ifc i, hcfg.ifc j] at this
    have he2 : EndsAgree t3 := by
      have := ha.load.eq
      rw [this]
      exact he1
    obtain ⟨C, B, I, rfl⟩ := validate_still he1 c1 h
    obtain ⟨C', B', I', rfl⟩ := validate_still he2 c2 g
    refine ⟨fun d => ?_, fun l => ?_, fun i => ⟨ha.down i, ?_⟩⟩
    · show (t3.dmd d).path = (s3.dmd d).path
      rw [ha.load.dmd d]
    · show t3.lsp l = s3.lsp l
      rw [ha.load.lsp]
    · show (t3.ifc i).reservedRaw = (s3.ifc i).reservedRaw
      rw [ha.load.eq]
      rfl
  · rw [e1] at h
    cases h

/-- **C92** In a FlexModel without IGP shortcuts, let every addition and division of the load
computation have relative error at most `u`.  Then the run completes when the exact one does,
demands and LSPs take the same paths, the same interfaces are down, and the load of an interface
crossed by `n` paths has relative error at most `(1 + u) ^ (n + 1) - 1`. -/
theorem C92_float_load (hf : FloatRounding u fl) {env : Env} {s s' : State} (ht : Tidy s)
    (hk : s.kind = .flex) (hsc : NoShortcuts s) (hq : NonnegTraffic s)
    (hrun : updateSimulation env s = .ok () s') :
    ∃ t', updateSimulationFl fl env s = .ok () t' ∧
      (∀ d, (t'.dmd d).path = (s'.dmd d).path) ∧ (∀ l, (t'.lsp l).path = (s'.lsp l).path) ∧
      ∀ i ∈ s.ifs, CloseTo ((1 + u) ^ (pathsOver s' i + 1) - 1) (s'.ifc i).traffic
        (t'.ifc i).traffic := by
  obtain ⟨t', hfl⟩ := (float_completes (fl := fl) env ht.ckts).1 ⟨s', hrun⟩
  refine ⟨t', hfl, ?_⟩
  obtain ⟨h1, h2, h3⟩ := float_spec hf ht hk hsc hq hrun hfl
  refine ⟨h1, fun l => by rw [h2], fun i hi => ?_⟩
  have := h3 i hi
  revert this
  cases (s'.ifc i).traffic <;> cases (t'.ifc i).traffic <;> intro h
  · exact h
  · exact h
  · exact h
  · exact h.2

/-- **C92** with the rounding of a Python `float`: on every interface crossed by `n < 2 ^ 52` paths
the error is at most `(n + 1) / 2 ^ 52` of the load. -/
theorem C92_double {env : Env} {s s' : State} (ht : Tidy s) (hk : s.kind = .flex)
    (hsc : NoShortcuts s) (hq : NonnegTraffic s) (hrun : updateSimulation env s = .ok () s') :
    ∃ t', updateSimulationFl (roundBits 53) env s = .ok () t' ∧
      ∀ i ∈ s.ifs, pathsOver s' i < 2 ^ 52 →
        CloseTo ((pathsOver s' i + 1) / 2 ^ 52) (s'.ifc i).traffic (t'.ifc i).traffic := by
  have hf := roundBits_rounding 53
  obtain ⟨t', hfl⟩ := (float_completes (fl := roundBits 53) env ht.ckts).1 ⟨s', hrun⟩
  refine ⟨t', hfl, fun i hi hn => ?_⟩
  obtain ⟨-, -, h⟩ := float_spec hf ht hk hsc hq hrun hfl
  have := h i hi
  have hb := pow_bound hf.unit (pathsOver s' i + 1) (by
    have : ((pathsOver s' i + 1 : ℕ) : ℚ) ≤ 2 ^ 52 := by exact_mod_cast hn
    calc ((pathsOver s' i + 1 : ℕ) : ℚ) * (1 / 2 ^ 53) ≤ 2 ^ 52 * (1 / 2 ^ 53) :=
          mul_le_mul_of_nonneg_right this (by norm_num)
      _ ≤ 1 / 2 := by norm_num)
  revert this
  cases (s'.ifc i).traffic <;> cases (t'.ifc i).traffic <;> intro h
  · exact h
  · exact h
  · exact h
  · refine h.2.trans (mul_le_mul_of_nonneg_right (hb.trans (le_of_eq ?_)) h.1)
    push_cast
    ring

/-- three parallel links and a demand of 1: a third on each -/
def Ex.thirds : State := Ex.mk .flex [{ name := "A" }, { name := "B" }]
  (Ex.link "x" 0 1 10 100 1 ++ Ex.link "y" 0 1 10 100 2 ++ Ex.link "z" 0 1 10 100 3)
  [{ src := 0, dst := 1, traffic := 1, name := "d" }, { src := 0, dst := 1, traffic := 1, name := "e" }] [] []

set_option maxRecDepth 20000 in
example : Tidy Ex.thirds ∧ NoShortcuts Ex.thirds ∧ NonnegTraffic Ex.thirds ∧
    updateSimulation Env.default Ex.thirds =
      .ok () (finalState (updateSimulation Env.default) Ex.thirds) ∧
    updateSimulationFl (roundBits 53) Env.default Ex.thirds =
      .ok () (finalState (updateSimulationFl (roundBits 53) Env.default) Ex.thirds) ∧
    pathsOver (finalState (updateSimulation Env.default) Ex.thirds) 0 = 2 ∧
    ((finalState (updateSimulation Env.default) Ex.thirds).ifc 0).traffic = .val (2 / 3) ∧
    ((finalState (updateSimulationFl (roundBits 53) Env.default) Ex.thirds).ifc 0).traffic =
      .val (6004799503160661 / 2 ^ 53) :=
  ⟨by decide +kernel, by decide +kernel, by decide +kernel, ok_of_raised (by decide +kernel),
    ok_of_raised (by decide +kernel), by decide +kernel, by decide +kernel, by decide +kernel⟩

/-- a tenth in binary: the value Python prints as 0.1 -/
example : roundBits 53 (1 / 10) = 3602879701896397 / 2 ^ 55 := by decide +kernel

end NTM
