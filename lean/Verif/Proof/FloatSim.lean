import Verif.Proof.FloatValid
import Verif.Proof.Bandwidth
import Verif.Proof.SimTotal
import Verif.Proof.LoadSum

/-!
# The whole simulation in floating point follows the exact one
-/

namespace NTM

open Spec

theorem LspRule.and {env : Env} {s : State} {I J : List ℕ → State → Prop} (h1 : LspRule env s I)
    (h2 : LspRule env s J) : LspRule env s fun done t => I done t ∧ J done t where
  init := ⟨h1.init, h2.init⟩
  signal done l t t' hf hi hl hld hun hsig :=
    ⟨h1.signal done l t t' hf hi.1 hl hld hun hsig, h2.signal done l t t' hf hi.2 hl hld hun hsig⟩
  reopt done l l' r t t' a1 a2 a3 a4 a5 a6 a7 a8 a9 a10 a11 a12 a13 a14 :=
    ⟨h1.reopt done l l' r t t' a1 a2.1 a3 a4 a5 a6 a7 a8 a9 a10 a11 a12 a13 a14,
      h2.reopt done l l' r t t' a1 a2.2 a3 a4 a5 a6 a7 a8 a9 a10 a11 a12 a13 a14⟩

/-- a routed LSP of the phase holds a bandwidth it may be signalled with -/
theorem BwOf.signals {env : Env} {s t : State} {done : List ℕ} {l : ℕ} (hl : l ∈ s.lsps)
    (h : BwOf env s done t l) {b : ℚ} (hb : (t.lsp l).reserved = .val b) : Signals env s b := by
  rcases h with ⟨-, h, -⟩ | ⟨-, h, -⟩ | ⟨⟨p, c, m, hr⟩, -, ⟨l', h1, h2⟩, h, -⟩
  · rw [h] at hb; cases hb
  · rw [h] at hb; cases hb
    exact .inr ⟨l, hl, .inl rfl⟩
  · rw [h] at hb; cases hb
    refine .inr ⟨l, hl, .inr ⟨routedPeers s t l, ?_, ?_, rfl⟩⟩
    · unfold routedPeers
      rw [Nat.one_le_iff_ne_zero, Ne, List.length_eq_zero_iff, List.filter_eq_nil_iff]
      push Not
      refine ⟨l, ?_, by rw [hr]; simp⟩
      unfold State.peers
      exact mem_between.2 ⟨hl, rfl, rfl⟩
    · unfold routedPeers
      exact List.length_filter_lt_length_iff_exists.2 ⟨l', h1, by simp [h2]⟩

section
variable {env : Env} {s : State} {fl : ℚ → ℚ} {K₀ K : ℚ}

/-- everything known of the LSP phase -/
def Phase (env : Env) (s : State) (done : List ℕ) (t : State) : Prop :=
  ((Basic s done t ∧ ((Coincides env s ∧ Mixed s done t) ∨
      ∀ i ∈ s.ifs, t.reservedBw i = (done.map (lspShare t i)).sum)) ∧
    (Basic s done t ∧ WithinLimit s t)) ∧
  ((Basic s done t ∧ ∀ l ∈ done, BwOf env s done t l) ∧
    ((Basic s done t ∧ ((¬ SingleLinks s ∧ Mixed s done t) ∨
        ∀ l ∈ done, ∀ p c h, (t.lsp l).path = .routed p c h →
          Eligible t (s.lspSrc l) (s.lspDst l) p)) ∧
      ((¬ SingleLinks s ∧ Mixed s done t) ∨
        ∀ i ∈ s.ifs, Barred s i → (t.ifc i).reservedRaw = 0)))

theorem phase_rule (hw : WellConfigured s) (htie : NoTies s) :
    LspRule env s.resetSim (Phase env s.resetSim) := by
  have c0 := cfg_resetSim s
  have hs0 : Sane s.resetSim := c0.sane hw.sane
  have hu0 : UniqueIfcKeys s.resetSim := by
    intro a ha b hb e
    refine hw.ifcNames a ha b hb ?_
    unfold State.ifcKey at *
    rw [c0.tail, c0.tail, c0.ifc a, c0.ifc b] at e
    exact e
  have htot : ∀ l ∈ s.lsps, totalFor env s.resetSim l = groupTraffic s l := fun l hl => by
    rw [totalFor_eq (c0.keysDistinct hw.keys) hl, c0.groupTraffic]
  have hpeers : ∀ l, s.resetSim.peers l = groupLsps s l := fun l => by
    rw [peers_eq, c0.groupLsps]
  have htf : TieFree env s.resetSim := by
    intro l hl
    rw [asked_reset hw.keys hw.traffic hl, tie_iff, htot l hl, hpeers l]
    exact ⟨(htie l hl).1, fun r h1 h2 => by rw [tie_iff]; exact (htie l hl).2 r h1 h2⟩
  exact ((ledger_rule env hs0 htf).and (limit_rule env hs0 hu0 (fun l hl => (htf l hl).1)
    (fun l hl => by rw [asked_reset hw.keys hw.traffic hl]; exact hw.setup_nonneg hl))).and
    ((bw_rule env hs0).and (barred_rule env hs0))

theorem phase_within (hw : WellConfigured s)
    (hx : NoParallelLsps s ∨ (SingleLinks s ∧ NoCoincidence s))
    (hnn : ∀ b, Signals env s.resetSim b → 0 ≤ b)
    (hK : ∀ i ∈ s.ifs, reservationLimit s i + 1 / 20 ≤ K₀) {done : List ℕ} {t : State}
    (hf : LspFrame (startLsps env s.resetSim) t) (h : Phase env s.resetSim done t) :
    Within K₀ t ∧ Basic s.resetSim done t := by
  obtain ⟨⟨⟨hb, hled⟩, -, hlim⟩, ⟨-, hbw⟩, -, hbar⟩ := h
  refine ⟨?_, hb⟩
  have c0 := cfg_resetSim s
  have hmix : NoParallelLsps s → ¬ Mixed s.resetSim done t := by
    rintro hp ⟨l, hl, l', hl', e1, e2, ⟨p, c, m, e3⟩, e4⟩
    rw [resetSim_lspSrc] at e1
    rw [resetSim_lspDst] at e2
    have := hp l' (hb.sub l' hl') l (hb.sub l hl) e1 e2
    subst this
    rw [e3] at e4; cases e4
  have hled : ∀ i ∈ s.ifs, t.reservedBw i = (done.map (lspShare t i)).sum := by
    refine hled.resolve_left ?_
    rintro ⟨⟨l, hl, r, h1, h2, h3, h4⟩, hm⟩
    rcases hx with hx | ⟨-, hx⟩
    · exact hmix hx hm
    · rw [asked_reset hw.keys hw.traffic hl] at h3 h4
      rw [totalFor_eq (c0.keysDistinct hw.keys) hl, c0.groupTraffic] at h3
      rw [peers_eq, c0.groupLsps] at h2
      exact h4 (hx l hl r h1 h2 h3)
  have hbar : ∀ i ∈ s.ifs, Barred s.resetSim i → (t.ifc i).reservedRaw = 0 := by
    refine hbar.resolve_left ?_
    rintro ⟨h1, hm⟩
    rcases hx with hx | ⟨hx, -⟩
    · exact hmix hx hm
    · refine h1 ?_
      intro i hi j hj e1 e2
      rw [c0.tail, c0.tail] at e1
      rw [c0.head, c0.head] at e2
      exact hx i hi j hj e1 e2
  intro i hi
  have hi : i ∈ s.ifs := by rw [hf.ifs] at hi; exact hi
  have hlim0 := hw.limit_nonneg hi
  have hk := hK i hi
  have h0 : 0 ≤ t.reservedBw i := by
    rw [hled i hi]
    refine sum_nonneg_of fun x hx => ?_
    obtain ⟨l, hl, rfl⟩ := List.mem_map.1 hx
    unfold lspShare
    split
    · next b h1 h2 =>
      split
      · exact pyRound_nonneg 1 (hnn _ ((hbw l hl).signals (hb.sub l hl) h2))
      · exact le_refl _
    · exact le_refl _
  rw [abs_of_nonneg h0]
  cases hr : (s.ifc i).rsvpEnabled with
  | false =>
    have : (s.resetSim.ifc i).rsvpEnabled = false := by rw [c0.ifc i, hr]
    have := hbar i hi (.inr this)
    unfold State.reservedBw
    rw [this, pyRound_zero]
    linarith [hlim0.1]
  | true =>
    have hr' : (s.resetSim.ifc i).rsvpEnabled = true := by rw [c0.ifc i, hr]
    have e2 : s.resetSim.ceiling i = reservationLimit s i := by
      unfold reservationLimit State.ceiling
      rw [c0.ifc i]
    have h1 := hlim i hi hr' (by rw [e2]; exact hlim0.1)
    rw [reservable_eq ⟨_, (startLsps_frame env _).trans hf⟩ hr', e2] at h1
    have := (abs_le.1 (pyRound_close 1 (reservationLimit s i - t.reservedBw i))).2
    norm_num at this
    linarith

/-- the LSP phase in floating point ends where the exact one does -/
theorem full_lsps (hw : WellConfigured s) (htie : NoTies s)
    (hx : NoParallelLsps s ∨ (SingleLinks s ∧ NoCoincidence s))
    (hE : Exactly fl env s.resetSim K₀ K) (hK : ∀ i ∈ s.ifs, reservationLimit s i + 1 / 20 ≤ K₀)
    {t : State} (hrun : routeLsps env s.resetSim = .ok () t) :
    ∃ o, routeLspsFl fl env s.resetSim = .ok () (t.gloss o) ∧ Fits o t ∧ Within K₀ t ∧
      FRel fl s.resetSim {l | l ∈ s.lsps} t (t.gloss o) ∧
      ∀ l ∈ s.lsps, (o.res l = (t.lsp l).reserved.fl fl ∧ o.setup l = (t.lsp l).setup.map fl) ∧
        ∀ b, (t.lsp l).reserved = .val b → Signals env s.resetSim b := by
  have hs0 : Sane s.resetSim := (cfg_resetSim s).sane hw.sane
  obtain ⟨_, _, h1, done, hk, hdone⟩ := rwp_left (routeLspsFl_rel hE hs0
    (show s.resetSim.lsps.Nodup from hw.tidy.lsps) rfl (phase_rule hw htie)
    fun done t hf h => phase_within hw hx hE.nonneg hK hf h) hrun
  obtain ⟨o, rfl, hfit, hP⟩ := hk.rel.eq
  have hall : ∀ l ∈ s.lsps, l ∈ done := by
    intro l hl
    rw [resetSim_lspSrc, resetSim_lspDst] at hdone
    exact (hdone l).2 (mem_groups_all hw.keys hl)
  have hsub : ∀ l ∈ done, l ∈ s.lsps := hk.inv.inv.1.1.1.sub
  have hset : {l | l ∈ done} = {l | l ∈ s.lsps} := by
    ext l; exact ⟨hsub l, hall l⟩
  refine ⟨o, h1, hfit, (phase_within hw hx hE.nonneg hK hk.inv.frame hk.inv.inv).1,
    by rw [← hset]; exact hk.rel, fun l hl => ⟨hP l (hall l hl), fun b hb => ?_⟩⟩
  exact BwOf.signals (s := s.resetSim) hl (hk.inv.inv.2.1.2 l (hall l hl)) hb

/-- **the floating point run completes and differs from the run with exact signalling only in the
roundings of reservations and bandwidths** -/
theorem full_runs (hw : WellConfigured s) (htie : NoTies s)
    (hx : NoParallelLsps s ∨ (SingleLinks s ∧ NoCoincidence s))
    (hE : Exactly fl env s.resetSim K₀ K) (hK : ∀ i ∈ s.ifs, reservationLimit s i + 1 / 20 ≤ K₀)
    (hS : Sums fl s.lsps.length K₀)
    (hself : ∀ b, Signals env s.resetSim b → pyRound 1 (fl b) = pyRound 1 b)
    {s' : State} (hrun : updateSimulationFl fl env s = .ok () s') :
    ∃ o, updateSimulationFull fl env s = .ok () (s'.gloss o) ∧ Fits o s' ∧
      ∀ l ∈ s.lsps, o.res l = (s'.lsp l).reserved.fl fl ∧ o.setup l = (s'.lsp l).setup.map fl := by
  unfold updateSimulationFl at hrun
  unfold updateSimulationFull
  obtain ⟨_, s0, h0, hrun⟩ := py_bind_inv hrun
  cases h0
  obtain ⟨_, t, hl, hrun⟩ := py_bind_inv hrun
  obtain ⟨_, s3, hd, hv⟩ := py_bind_inv hrun
  rw [py_bind_ok (show (modify State.resetSim : Py Unit) s = .ok () s.resetSim from rfl)]
  change routeLsps env s.resetSim = .ok () t at hl
  obtain ⟨o, g1, hfit, hin, hrel, hP⟩ := full_lsps hw htie hx hE hK hl
  have ha := afterLsps hw htie hx hl
  have hc := ha.done.cfg
  rw [py_bind_ok g1]
  have hreads : Reads fl K t (t.gloss o) := hrel.reads hE hin
  have hc0 : ∀ x y, (t.gloss o).consideredFl fl x 0 y = t.considered x 0 y := by
    intro x y
    have := hreads.considered hE (b := 0) (.inl rfl) x y
    rwa [hE.zero] at this
  obtain ⟨_, _, g2, rfl, hpf⟩ := rwp_left (gl_routeDemands hfit fl env (hc0 _ _)) hd
  rw [py_bind_ok g2]
  have hfit3 := hfit.pframe hpf
  obtain ⟨I, D, g, e3, eI, -⟩ := hpf
  have hifs : s3.ifs = t.ifs := by rw [e3]
  have hlsp : s3.lsp = t.lsp := by rw [e3]
  have hlsps : s3.lsps = s.lsps := by rw [e3]; exact hc.lsps
  have hifc : ∀ i, s3.ifc i = { t.ifc i with traffic := (s3.ifc i).traffic } := by
    intro i; rw [e3]; exact eI i
  have hres3 : ∀ i, s3.reservedBw i = t.reservedBw i := by
    intro i; unfold State.reservedBw; rw [hifc i]
  have hu3 : UniqueIfcKeys s3 := by
    intro a hai b hbi e
    refine hw.ifcNames a (hc.ifs ▸ hifs ▸ hai) b (hc.ifs ▸ hifs ▸ hbi) ?_
    have hk : ∀ i, s3.ifcKey i = s.ifcKey i := by
      intro i
      have : s3.node = s.node := by rw [e3]; exact hc.node
      unfold State.ifcKey State.tail
      rw [this, hifc i]
      show ((t.ifc i).name, (s.node (t.ifc i).node).name) = _
      rw [hc.ifc i]
    rwa [hk, hk] at e
  have hc3 : (s3.gloss o).consideredFl fl true 0 false = s3.considered true 0 false := by
    have e1 : (s3.gloss o).consideredFl fl true 0 false =
        (t.gloss o).consideredFl fl true 0 false := by
      unfold State.consideredFl
      show s3.ifs.filter _ = t.ifs.filter _
      rw [hifs]
      refine List.filter_congr fun i _ => ?_
      unfold State.reservableFl State.reservedFl
      show ((true || !(s3.ifc i).failed) && decide (0 ≤ if (s3.ifc i).rsvpEnabled then
        fl (pyRound 1 (fl (fl (fl (s3.ifc i).capacity * fl (fl (s3.ifc i).pct / 100)) -
          fl (pyRound 1 (o.raw i))))) else -1) && (!false || (s3.ifc i).rsvpEnabled)) = _
      rw [hifc i]
      rfl
    have e2 : s3.considered true 0 false = t.considered true 0 false := by
      unfold State.considered
      rw [hifs]
      refine List.filter_congr fun i _ => ?_
      unfold State.reservable
      rw [hres3 i, hifc i]
    rw [e1, e2, hc0]
  obtain ⟨_, g3, ⟨r, rfl, hfr⟩, hCF⟩ := validate_gloss (o := o) hE.mono (by rw [hlsps]; exact hS) hu3
    (by
      intro l hl
      have := ha.placed l (by rw [hc.lsps, ← hlsps]; exact hl)
      unfold Placed at this ⊢
      rwa [hlsp, hifs])
    (by rw [hlsps, hlsp]; exact fun l hl b hb => hE.nonneg b ((hP l hl).2 b hb))
    (by rw [hlsps, hlsp]; exact fun l hl => (hP l hl).1.1)
    (by rw [hlsps, hlsp]; exact fun l hl b hb => hself b ((hP l hl).2 b hb))
    hfit3 (by intro i hi; rw [hres3 i]; exact hin i (hifs ▸ hi)) hc3 hv
  refine ⟨_, g3, hfr, fun l hl => ?_⟩
  rw [hCF.lsp, hlsp]
  exact (hP l hl).1

end

end NTM
