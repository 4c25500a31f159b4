import Verif.Proof.LspInv

/-!
# The reservation ledger and the reservation limits
-/

namespace NTM

open Spec

theorem Resignalled.inv {t t' : State} {needed : ℚ} {l : ℕ} (h : Resignalled t needed l t') :
    ∃ path c hd res, (t.lsp l).path = .routed path c hd ∧ (t.lsp l).reserved = .val res ∧
      (t' = t ∨ ∃ p c' h', ReoptCand t path res needed (t.lspSrc l) (t.lspDst l) p ∧ p ≠ [] ∧
        (t'.lsp l).path = .routed p c' h' ∧ (t'.lsp l).reserved = .val needed ∧
        t'.ifc = if res = needed then t.ifc
          else ((t.reserveOn path (-res)).reserveOn p needed).ifc) := by
  obtain ⟨path, c, hd, res, h1, h2, h3 | ⟨p, k, x, hp, hne, hx, h3⟩⟩ := h
  · exact ⟨path, c, hd, res, h1, h2, .inl h3⟩
  · refine ⟨path, c, hd, res, h1, h2, .inr ⟨p, t.pathCost p,
      (t.routedHeadroom path res p).getD 0, hp, hne, ?_, ?_, ?_⟩⟩
    · rw [h3, resignalled_lsp, hx]
    · rw [h3, resignalled_lsp, hx]
    · rw [h3]
      show (if res = needed then _ else _ : State).ifc = _
      split
      · rfl
      · have : ∀ (q : List ℕ) (v : ℚ) (u u' : State), u.ifc = u'.ifc →
            (u.reserveOn q v).ifc = (u'.reserveOn q v).ifc := by
          intro q v
          unfold State.reserveOn
          induction q with
          | nil => intro u u' h; exact h
          | cons i q ih =>
            intro u u' h
            refine ih _ _ ?_
            unfold State.addReserved State.setReserved State.updIfc State.reservedBw
            simp only [h]
        exact this _ _ _ _ (this _ _ _ _ rfl)

theorem Signalled.inv {t t' : State} (ht : Sane t) {bw : ℚ} {l : ℕ} (h : Signalled t bw l t') :
    ((t'.lsp l).path = .unrouted ∧ t'.ifc = t.ifc) ∨
    ∃ p c hd, Chosen t bw (t.lspSrc l) (t.lspDst l) p ∧ p.Nodup ∧
      (t'.lsp l).path = .routed p c hd ∧ (t'.lsp l).reserved = .val bw ∧
      t'.ifc = (t.reserveOn p bw).ifc := by
  rcases h with ⟨-, rfl⟩ | ⟨p, k, hc, rfl⟩
  · left; rw [unrouted_lsp]; exact ⟨rfl, rfl⟩
  · right
    refine ⟨p, t.pathCost p, (t.pathHeadroom p).getD 0, hc, hc.nodup ht, ?_, ?_, ?_⟩
    · rw [signalled_lsp]
    · rw [signalled_lsp]
    · funext i
      show (State.reserveOn _ p bw).ifc i = _
      rw [reserveOn_ifc (hc.nodup ht), reserveOn_ifc (hc.nodup ht)]
      rfl

theorem reservedBw_decimal (s : State) (i : ℕ) : Decimal 1 (s.reservedBw i) := pyRound_decimal _ _

theorem reserveOn_exact {s : State} {p : List ℕ} (hp : p.Nodup) {v : ℚ} (hv : ¬ Tie 1 v) (i : ℕ) :
    (s.reserveOn p v).reservedBw i = s.reservedBw i + if i ∈ p then pyRound 1 v else 0 := by
  rw [reserveOn_reservedBw hp]
  split
  · exact pyRound_decimal_add (reservedBw_decimal s i) hv
  · simp

theorem reservedBw_congr {s t : State} (h : s.ifc = t.ifc) : s.reservedBw = t.reservedBw := by
  funext i; unfold State.reservedBw; rw [h]

theorem reservable_congr {s t : State} (h : s.ifc = t.ifc) : s.reservable = t.reservable := by
  funext i; unfold State.reservable State.reservedBw; rw [h]

theorem lspShare_routed {t : State} {l : ℕ} {p : List ℕ} {c : ℕ} {h b : ℚ} (i : ℕ)
    (hp : (t.lsp l).path = .routed p c h) (hb : (t.lsp l).reserved = .val b) :
    lspShare t i l = if i ∈ p then pyRound 1 b else 0 := by
  unfold lspShare; rw [hp, hb]

theorem lspShare_unrouted {t : State} {l : ℕ} (i : ℕ) (hp : (t.lsp l).path = .unrouted) :
    lspShare t i l = 0 := by
  unfold lspShare; rw [hp]

theorem lspShare_congr {t t' : State} {l : ℕ} (i : ℕ) (h : t'.lsp l = t.lsp l) :
    lspShare t' i l = lspShare t i l := by
  unfold lspShare; rw [h]

/-- changing one term of a sum over a duplicate-free list -/
theorem sum_change {done : List ℕ} (hnd : done.Nodup) {l : ℕ} (hl : l ∈ done) {f g : ℕ → ℚ}
    (h : ∀ m ∈ done, m ≠ l → g m = f m) :
    (done.map g).sum = (done.map f).sum - f l + g l := by
  induction done with
  | nil => cases hl
  | cons a done ih =>
    rw [List.nodup_cons] at hnd
    simp only [List.map_cons, List.sum_cons]
    by_cases ha : a = l
    · subst ha
      have : done.map g = done.map f := by
        refine List.map_congr_left fun m hm => h m (by simp [hm]) ?_
        rintro rfl; exact hnd.1 hm
      rw [this]; ring
    · have hl' : l ∈ done := by
        rcases List.mem_cons.1 hl with h | h
        · exact absurd h.symm ha
        · exact h
      rw [ih hnd.2 hl' fun m hm => h m (by simp [hm]), h a (by simp) ha]
      ring

/-- a re-signalled LSP keeps the bandwidth it had, although that bandwidth counts -/
def Coincides (env : Env) (s : State) : Prop :=
  ∃ l ∈ s.lsps, ∃ r : ℕ, 1 ≤ r ∧ r < (s.peers l).length ∧
    askedBw s (shareOf env s l) l = totalFor env s l / r ∧
    pyRound 1 (askedBw s (shareOf env s l) l) ≠ 0

/-- no bandwidth an LSP may be signalled with is a rounding tie -/
def TieFree (env : Env) (s : State) : Prop :=
  ∀ l ∈ s.lsps, ¬ Tie 1 (askedBw s (shareOf env s l) l) ∧
    ∀ r : ℕ, 1 ≤ r → r < (s.peers l).length → ¬ Tie 1 (totalFor env s l / r)

theorem ledger_rule (env : Env) {s : State} (hs : Sane s) (htie : TieFree env s) :
    LspRule env s fun done t => Basic s done t ∧
      ((Coincides env s ∧ Mixed s done t) ∨
        ∀ i ∈ s.ifs, t.reservedBw i = (done.map (lspShare t i)).sum) := by
  refine LspRule.on_basic hs (.inr ?_) ?_ ?_
  · intro i hi
    show pyRound 1 (if i ∈ s.ifs then { s.ifc i with reservedRaw := 0 } else s.ifc i).reservedRaw = _
    rw [if_pos hi]
    exact pyRound_zero 1
  · intro done l t t' hf ht hb hx hl hld hun hsig
    rcases hx with ⟨hx, hm⟩ | hx
    · exact .inl ⟨hx, hm.signal hld hsig⟩
    · right
      intro i hi
      have hold : done.map (lspShare t' i) = done.map (lspShare t i) := by
        refine List.map_congr_left fun m hm => lspShare_congr i (hsig.other ?_)
        rintro rfl; exact hld hm
      rw [List.map_append, List.sum_append, hold, ← hx i hi]
      simp only [List.map_cons, List.map_nil, List.sum_cons, List.sum_nil, add_zero]
      rcases hsig.inv ht with ⟨h1, h2⟩ | ⟨p, c, hd, hc, hnd, h1, h2, h3⟩
      · rw [lspShare_unrouted i h1, reservedBw_congr h2, add_zero]
      · rw [lspShare_routed i h1 h2, reservedBw_congr h3,
          reserveOn_exact hnd (htie l hl).1]
  · intro done l l' r t t' hf ht hb hx hld hld' e1 e2 e3 e4 e5 e6 hre
    rcases hx with ⟨hx, hm⟩ | hx
    · exact .inl ⟨hx, .reopt hld hld' e1 e2 e3 hre⟩
    · have hmix := Mixed.reopt hld hld' e1 e2 e3 hre
      have hother : ∀ m, m ≠ l → t'.lsp m = t.lsp m := fun m hm => hre.other hm
      obtain ⟨path, c, hd, res, h1, h2, rfl | ⟨p, c', hd', hp, hne, h3, h4, h5⟩⟩ := hre.inv
      · exact .inr hx
      · by_cases hco : Coincides env s
        · exact .inl ⟨hco, hmix⟩
        right
        have hl := hb.sub l hld
        rw [e4] at h2
        have hres : askedBw s (shareOf env s l) l = res := by injection h2
        intro i hi
        rw [sum_change hb.nodup hld (f := lspShare t i)
          (fun m _ hm => lspShare_congr i (hother m hm)), ← hx i hi,
          lspShare_routed i h3 h4, lspShare_routed i h1 (e4.trans h2)]
        by_cases hq : res = totalFor env s l / r
        · rw [if_pos hq] at h5
          rw [reservedBw_congr h5]
          have hz : pyRound 1 res = 0 := by
            by_contra hz
            exact hco ⟨l, hl, r, e5, e6, hres.trans hq, by rw [hres]; exact hz⟩
          rw [← hq, hz]; simp
        · rw [if_neg hq] at h5
          have hpn : path.Nodup := by
            rcases hb.placed l hld with ⟨h, -⟩ | ⟨p', c'', h'', b, g1, -, -, g2, -⟩
            · rw [h1] at h; cases h
            · rw [h1] at g1; cases g1; exact g2
          have ht1 := (htie l hl).1
          rw [hres] at ht1
          rw [reservedBw_congr h5, reserveOn_exact hp.nodup ((htie l hl).2 r e5 e6),
            reserveOn_exact hpn (by rwa [tie_neg_iff])]
          have : (if i ∈ path then pyRound 1 (-res) else 0) =
              - (if i ∈ path then pyRound 1 res else 0) := by
            split
            · exact pyRound_neg 1 res
            · simp
          rw [this]
          ring

/-! ### Limits -/

/-- the ceiling on reservations of an interface -/
def State.ceiling (s : State) (i : ℕ) : ℚ := (s.ifc i).capacity * ((s.ifc i).pct / 100)

/-- no RSVP-enabled interface is over-reserved -/
def WithinLimit (s t : State) : Prop :=
  ∀ i ∈ s.ifs, (s.ifc i).rsvpEnabled = true → 0 ≤ s.ceiling i → 0 ≤ t.reservable i

theorem reservable_eq {s t : State} (hf : ∃ u, LspFrame { s with groups := u } t) {i : ℕ}
    (h : (s.ifc i).rsvpEnabled = true) :
    t.reservable i = pyRound 1 (s.ceiling i - t.reservedBw i) := by
  obtain ⟨u, hf⟩ := hf
  unfold State.reservable State.ceiling
  have := hf.ifc i
  rw [show (t.ifc i).rsvpEnabled = true by rw [this]; exact h]
  simp only [if_true]
  rw [show (t.ifc i).capacity = (s.ifc i).capacity by rw [this],
    show (t.ifc i).pct = (s.ifc i).pct by rw [this]]

/-- adding at most what is reservable keeps the limit -/
theorem limit_add {C R b : ℚ} (hR : Decimal 1 R) (hb : b ≤ pyRound 1 (C - R)) :
    0 ≤ pyRound 1 (C - pyRound 1 (R + b)) := by
  apply pyRound_nonneg_of_slack
  have h1 : pyRound 1 (R + b) ≤ R + pyRound 1 (C - R) := by
    rw [← pyRound_of_decimal (hR.add (pyRound_decimal 1 (C - R)))]
    exact pyRound_mono 1 (by linarith)
  have h2 := abs_le.1 (pyRound_close 1 (C - R))
  linarith [h2.2]

/-- replacing a reservation by at most what was reservable plus the old reservation keeps
the limit -/
theorem limit_replace {C R res b : ℚ} (hR : Decimal 1 R) (ht : ¬ Tie 1 res)
    (hb : b ≤ pyRound 1 (C - R) + res) :
    0 ≤ pyRound 1 (C - pyRound 1 (pyRound 1 (R + -res) + b)) := by
  apply pyRound_nonneg_of_slack
  rw [pyRound_decimal_add hR (by rwa [tie_neg_iff]), pyRound_neg]
  have hc := abs_lt.1 (pyRound_strict ht)
  have h0 : pyRound 1 (res - pyRound 1 res) = 0 := by
    have := pyRound_decimal_add (pyRound_decimal 1 res).neg ht
    rw [show res - pyRound 1 res = -pyRound 1 res + res by ring, this]
    ring
  have h1 : pyRound 1 (R + -pyRound 1 res + b) ≤ R + pyRound 1 (C - R) := by
    have hnt : ¬ Tie 1 (res - pyRound 1 res) := by
      rintro ⟨n, hn⟩
      apply ht
      obtain ⟨m, hm⟩ := pyRound_decimal 1 res
      refine ⟨n + m, ?_⟩
      rw [hm] at hn
      push_cast at hn ⊢
      simp only [pow_one] at hn ⊢
      linarith
    have := pyRound_decimal_add (hR.add (pyRound_decimal 1 (C - R))) hnt
    rw [h0, add_zero] at this
    rw [← this]
    exact pyRound_mono 1 (by linarith)
  have h2 := abs_le.1 (pyRound_close 1 (C - R))
  linarith [h2.2]

theorem limit_sub {C R res : ℚ} (hR : Decimal 1 R) (hr : 0 ≤ res) (h : 0 ≤ pyRound 1 (C - R)) :
    0 ≤ pyRound 1 (C - pyRound 1 (R + -res)) := by
  have h1 : pyRound 1 (R + -res) ≤ R := by
    conv_rhs => rw [← pyRound_of_decimal hR]
    exact pyRound_mono 1 (by linarith)
  exact h.trans (pyRound_mono 1 (by linarith))

theorem ifcEq_key {s : State} {i j : ℕ} (h : s.ifcEq i j = true) : s.ifcKey i = s.ifcKey j := by
  unfold State.ifcEq at h
  simp only [Bool.or_eq_true, beq_iff_eq, Bool.and_eq_true] at h
  rcases h with rfl | ⟨⟨⟨⟨h1, -⟩, h2⟩, -⟩, -⟩
  · rfl
  · unfold State.ifcKey State.tail
    rw [h2]
    unfold State.nodeEq at h1
    simp only [Bool.or_eq_true, beq_iff_eq, Bool.and_eq_true] at h1
    rcases h1 with h1 | h1
    · rw [h1]
    · rw [h1.1.1.1.1.1.1]

theorem memIfc_iff {s : State} (hu : UniqueIfcKeys s) {i : ℕ} {p : List ℕ} (hi : i ∈ s.ifs)
    (hp : ∀ j ∈ p, j ∈ s.ifs) : s.memIfc i p = true ↔ i ∈ p := by
  unfold State.memIfc
  rw [List.any_eq_true]
  constructor
  · rintro ⟨j, hj, h⟩
    rw [hu i hi j (hp j hj) (ifcEq_key h)]
    exact hj
  · intro h
    exact ⟨i, h, by unfold State.ifcEq; simp⟩

/-- bandwidths LSPs are first signalled with are not negative -/
def AskNonneg (env : Env) (s : State) : Prop :=
  ∀ l ∈ s.lsps, 0 ≤ askedBw s (shareOf env s l) l

theorem limit_rule (env : Env) {s : State} (hs : Sane s) (hu : UniqueIfcKeys s)
    (htie : ∀ l ∈ s.lsps, ¬ Tie 1 (askedBw s (shareOf env s l) l)) (hnn : AskNonneg env s) :
    LspRule env s fun done t => Basic s done t ∧ WithinLimit s t := by
  have hfr : ∀ {t}, LspFrame (startLsps env s) t → ∃ u, LspFrame { s with groups := u } t :=
    fun hf => ⟨_, (startLsps_frame env s).trans hf⟩
  refine LspRule.on_basic hs ?_ ?_ ?_
  · intro i hi hr hc
    rw [reservable_eq (hfr (LspFrame.refl _)) hr]
    have : (startLsps env s).reservedBw i = 0 := by
      show pyRound 1 (if i ∈ s.ifs then { s.ifc i with reservedRaw := 0 } else s.ifc i).reservedRaw = _
      rw [if_pos hi]
      exact pyRound_zero 1
    rw [this, sub_zero]
    exact pyRound_nonneg 1 hc
  · intro done l t t' hf ht hb hx hl hld hun hsig i hi hr hc
    have hold := hx i hi hr hc
    rcases hsig.inv ht with ⟨h1, h2⟩ | ⟨p, c, hd, hc', hnd, h1, h2, h3⟩
    · rw [reservable_congr h2]; exact hold
    · rw [reservable_eq (hfr (hf.trans hsig.frame)) hr, reservedBw_congr h3,
        reserveOn_reservedBw hnd]
      rw [reservable_eq (hfr hf) hr] at hold
      split
      · next hip =>
        refine limit_add (reservedBw_decimal t i) ?_
        have := (Route.mem_ok hc'.cheapest.1 i hip).1.2.2
        rwa [reservable_eq (hfr hf) hr] at this
      · exact hold
  · intro done l l' r t t' hf ht hb hx hld hld' e1 e2 e3 e4 e5 e6 hre
    have hfr' := hre.frame
    obtain ⟨path, c, hd, res, h1, h2, rfl | ⟨p, c', hd', hp, hne, h3, h4, h5⟩⟩ := hre.inv
    · exact hx
    · intro i hi hr hc
      have hold := hx i hi hr hc
      by_cases hq : res = totalFor env s l / r
      · rw [if_pos hq] at h5
        rw [reservable_congr h5]; exact hold
      · rw [if_neg hq] at h5
        have hl := hb.sub l hld
        rw [e4] at h2
        have hres : askedBw s (shareOf env s l) l = res := by injection h2
        have hpn : path.Nodup ∧ ∀ j ∈ path, j ∈ t.ifs := by
          rcases hb.placed l hld with ⟨h, -⟩ | ⟨p', c'', h'', b, g1, -, -, g2, g3⟩
          · rw [h1] at h; cases h
          · rw [h1] at g1; cases g1; exact ⟨g2, g3⟩
        have hut : UniqueIfcKeys t := by
          have hf2 := (startLsps_frame env s).trans hf
          intro a ha b hb' hab
          rw [hf2.ifs] at ha hb'
          refine hu a ha b hb' ?_
          unfold State.ifcKey at *
          rw [hf2.tail, hf2.tail, hf2.ifc a, hf2.ifc b] at hab
          exact hab
        have hif : t.ifs = s.ifs := ((startLsps_frame env s).trans hf).ifs
        rw [reservable_eq (hfr (hf.trans hfr')) hr, reservedBw_congr h5,
          reserveOn_reservedBw hp.nodup, reserveOn_reservedBw hpn.1]
        rw [reservable_eq (hfr hf) hr] at hold
        have hrt := htie l hl
        have hrn := hnn l hl
        rw [hres] at hrt hrn
        have hdec := reservedBw_decimal t i
        by_cases hip : i ∈ p
        · rw [if_pos hip]
          have hh := (hp.hop i hip).2
          rw [memIfc_iff hut (hif ▸ hi) hpn.2, reservable_eq (hfr hf) hr] at hh
          by_cases hio : i ∈ path
          · rw [if_pos hio]
            refine limit_replace hdec hrt ?_
            rcases hh with hh | hh
            · exact hh.2
            · linarith
          · rw [if_neg hio]
            refine limit_add hdec ?_
            rcases hh with hh | hh
            · exact absurd hh.1 hio
            · exact hh
        · rw [if_neg hip]
          split
          · exact limit_sub hdec hrn hold
          · exact hold

/-! ### Nothing is reserved on interfaces that are down or not RSVP-enabled -/

/-- an interface no LSP may use -/
def Barred (s : State) (i : ℕ) : Prop := (s.ifc i).failed = true ∨ (s.ifc i).rsvpEnabled = false

theorem Eligible.not_barred {t : State} {a b : String} {p : List ℕ} (h : Eligible t a b p) :
    ∀ i ∈ p, ¬ Barred t i := by
  intro i hi hb
  obtain ⟨-, h1, h2⟩ := Route.mem_ok h i hi
  rcases hb with hb | hb
  · rw [h1] at hb; cases hb
  · rw [h2] at hb; cases hb

theorem LspFrame.barred {t t' : State} (h : LspFrame t t') (i : ℕ) : Barred t' i ↔ Barred t i := by
  unfold Barred
  rw [h.ifc i]

theorem barred_rule (env : Env) {s : State} (hs : Sane s) :
    LspRule env s fun done t =>
      (Basic s done t ∧ ((¬ SingleLinks s ∧ Mixed s done t) ∨
        ∀ l ∈ done, ∀ p c h, (t.lsp l).path = .routed p c h →
          Eligible t (s.lspSrc l) (s.lspDst l) p)) ∧
      ((¬ SingleLinks s ∧ Mixed s done t) ∨
        ∀ i ∈ s.ifs, Barred s i → (t.ifc i).reservedRaw = 0) := by
  have R := eligible_rule env hs
  refine ⟨⟨R.init, .inr ?_⟩, ?_, ?_⟩
  · intro i hi hb
    show (if i ∈ s.ifs then { s.ifc i with reservedRaw := 0 } else s.ifc i).reservedRaw = _
    rw [if_pos hi]
  · intro done l t t' hf hx hl hld hun hsig
    refine ⟨R.signal done l t t' hf hx.1 hl hld hun hsig, ?_⟩
    have ht : Sane t := hf.sane (startLsps_sane hs)
    rcases hx.2 with ⟨h1, h2⟩ | hz
    · exact .inl ⟨h1, h2.signal hld hsig⟩
    · right
      intro i hi hb
      rcases hsig.inv ht with ⟨-, h2⟩ | ⟨p, c, hd, hc, hnd, h1, h2, h3⟩
      · rw [h2]; exact hz i hi hb
      · rw [h3, reserveOn_ifc hnd, if_neg]
        · exact hz i hi hb
        · intro hip
          obtain ⟨⟨-, h4, -⟩, h5⟩ := Route.mem_ok hc.cheapest.1 i hip
          have hb' : Barred t i := (((startLsps_frame env s).trans hf).barred i).2 hb
          rcases hb' with hb' | hb'
          · rw [h4] at hb'; cases hb'
          · rw [h5] at hb'; cases hb'
  · intro done l l' r t t' hf hx hl hld hld' hl' e1 e2 e3 e4 e5 e6 e7 hre
    have hnew := R.reopt done l l' r t t' hf hx.1 hl hld hld' hl' e1 e2 e3 e4 e5 e6 e7 hre
    refine ⟨hnew, ?_⟩
    by_cases hsl : SingleLinks s
    swap
    · exact .inl ⟨hsl, .reopt hld hld' e1 e2 e3 hre⟩
    right
    rcases hx.2 with ⟨h1, h2⟩ | hz
    · exact absurd hsl h1
    intro i hi hb
    have hb' : Barred t i := (((startLsps_frame env s).trans hf).barred i).2 hb
    have hb'' : Barred t' i := (hre.frame.barred i).2 hb'
    obtain ⟨path, c, hd, res, h1, h2, rfl | ⟨p, c', hd', hp, hne, h3, h4, h5⟩⟩ := hre.inv
    · exact hz i hi hb
    · have hpn : path.Nodup := by
        rcases hx.1.1.placed l hld with ⟨h, -⟩ | ⟨p', c'', h'', b, g1, -, -, g2, -⟩
        · rw [h1] at h; cases h
        · rw [h1] at g1; cases g1; exact g2
      have hold : i ∉ path := by
        rcases hx.1.2 with ⟨h, -⟩ | h
        · exact absurd hsl h
        · exact fun hip => (h l hld _ _ _ h1).not_barred i hip hb'
      have hnw : i ∉ p := by
        rcases hnew.2 with ⟨h, -⟩ | h
        · exact absurd hsl h
        · exact fun hip => (h l hld _ _ _ h3).not_barred i hip hb''
      rw [h5]
      split
      · exact hz i hi hb
      · rw [reserveOn_ifc hp.nodup, if_neg hnw, reserveOn_ifc hpn, if_neg hold]
        exact hz i hi hb

end NTM
