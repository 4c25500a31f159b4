import Verif.Proof.Outcome

/-!
# The order in which LSPs are served
-/

namespace NTM

open Spec

theorem tie_iff (q : ℚ) : Tie 1 q ↔ RoundingTie q := by
  unfold Tie RoundingTie
  refine exists_congr fun n => ?_
  constructor
  · intro h; linarith
  · intro h; rw [h]; ring

/-! ### Setup bandwidth -/

theorem cfg_endNames {s t : State} (h : Cfg s t) : endNames t = endNames s := by
  unfold endNames
  rw [h.lsps, h.dmds, funext h.lspSrc, funext h.lspDst, funext h.dmdSrc, funext h.dmdDst]

theorem totalFor_eq {env : Env} {s : State} (hk : KeysDistinct s) {l : ℕ} (hl : l ∈ s.lsps) :
    totalFor env s l = groupTraffic s l := by
  unfold totalFor groupTotal State.demandGroups groupTraffic
  rw [dictGet_buildGroups]
  · have hb : between s.dmds s.dmdSrc s.dmdDst (s.lspSrc l) (s.lspDst l) =
        s.dmds.filter fun d => s.dmdSrc d = s.lspSrc l ∧ s.dmdDst d = s.lspDst l := by
      unfold between
      refine List.filter_congr fun d _ => ?_
      simp
    by_cases hn : between s.dmds s.dmdSrc s.dmdDst (s.lspSrc l) (s.lspDst l) = []
    · rw [if_pos hn]
      rw [← hb, hn]; rfl
    · rw [if_neg hn, hb]
  · intro a' ha' b' hb' e
    refine hk a' ?_ b' ?_ _ (lsp_endNames hl).1 _ (lsp_endNames hl).2 e
    · unfold endNames; simp only [List.mem_append]; exact .inl (.inr ha')
    · unfold endNames; simp only [List.mem_append]; exact .inr hb'

theorem peers_eq (s : State) (l : ℕ) : s.peers l = groupLsps s l := by
  unfold State.peers groupLsps between
  refine List.filter_congr fun d _ => ?_
  simp

theorem groupTraffic_nonneg {s : State} (h : NonnegTraffic s) (l : ℕ) : 0 ≤ groupTraffic s l := by
  unfold groupTraffic
  have : ∀ ds : List ℕ, (∀ d ∈ ds, d ∈ s.dmds) →
      0 ≤ (ds.map fun d => (s.dmd d).traffic).sum := by
    intro ds
    induction ds with
    | nil => simp
    | cons d ds ih =>
      intro hd
      rw [List.map_cons, List.sum_cons]
      exact add_nonneg (h d (hd d (by simp))) (ih fun e he => hd e (by simp [he]))
  exact this _ fun d hd => List.mem_of_mem_filter hd

theorem asked_eq {env : Env} {s : State} (hk : KeysDistinct s) (hn : NonnegTraffic s) {l : ℕ}
    (hl : l ∈ s.lsps) : askedBw s (shareOf env s l) l = setupBandwidth s l := by
  unfold askedBw setupBandwidth shareOf
  cases (s.lsp l).configured with
  | some c => rfl
  | none =>
    simp only [Option.getD_none]
    rw [totalFor_eq hk hl, peers_eq]
    split
    · rfl
    · next h =>
      have : groupTraffic s l = 0 := le_antisymm (not_lt.1 h) (groupTraffic_nonneg hn l)
      rw [this, zero_div]

theorem Cfg.groupTraffic {s t : State} (h : Cfg s t) (l : ℕ) :
    Spec.groupTraffic t l = Spec.groupTraffic s l := by
  unfold Spec.groupTraffic
  rw [h.dmds, funext h.dmdSrc, funext h.dmdDst, h.lspSrc, h.lspDst]
  congr 1
  refine List.map_congr_left fun d _ => ?_
  rw [h.dmd d]

theorem Cfg.groupLsps {s t : State} (h : Cfg s t) (l : ℕ) :
    Spec.groupLsps t l = Spec.groupLsps s l := by
  unfold Spec.groupLsps
  rw [h.lsps, funext h.lspSrc, funext h.lspDst]

theorem Cfg.setupBandwidth {s t : State} (h : Cfg s t) (l : ℕ) :
    Spec.setupBandwidth t l = Spec.setupBandwidth s l := by
  unfold Spec.setupBandwidth
  rw [h.groupTraffic, h.groupLsps, h.lsp l]

theorem Cfg.keysDistinct {s t : State} (h : Cfg s t) (hk : KeysDistinct s) : KeysDistinct t := by
  unfold KeysDistinct; rw [cfg_endNames h]; exact hk

theorem Cfg.nonneg {s t : State} (h : Cfg s t) (hk : NonnegTraffic s) : NonnegTraffic t := by
  intro d hd
  rw [h.dmd d]
  exact hk d (h.dmds ▸ hd)

/-! ### Order -/

/-- the state of the ledger and the verdict on every LSP served so far -/
def Ordered (env : Env) (s : State) (done : List ℕ) (t : State) : Prop :=
  (∀ i ∈ s.ifs, t.reservedBw i = (done.map (lspShare t i)).sum) ∧
  ∀ pre l post, done = pre ++ l :: post → Served t pre (askedBw s (shareOf env s l) l) l

theorem reservableAfter_eq {t : State} {done : List ℕ} {i : ℕ}
    (h : t.reservedBw i = (done.map (lspShare t i)).sum) :
    reservableAfter t done i = t.reservable i := by
  unfold reservableAfter State.reservable
  rw [h]

theorem reservableAfter_congr {t t' : State} (hf : LspFrame t t') {pre : List ℕ}
    (h : ∀ m ∈ pre, t'.lsp m = t.lsp m) : reservableAfter t' pre = reservableAfter t pre := by
  funext i
  unfold reservableAfter
  have : pre.map (lspShare t' i) = pre.map (lspShare t i) :=
    List.map_congr_left fun m hm => lspShare_congr i (h m hm)
  rw [this, hf.ifc i]

theorem usableAfter_congr {t t' : State} (hf : LspFrame t t') {pre : List ℕ}
    (h : ∀ m ∈ pre, t'.lsp m = t.lsp m) (bw : ℚ) :
    UsableAfter t' pre bw = UsableAfter t pre bw := by
  funext i
  unfold UsableAfter
  rw [reservableAfter_congr hf h, hf.ifs, hf.ifc i]

theorem served_congr {t t' : State} (hf : LspFrame t t') {pre : List ℕ}
    (h : ∀ m ∈ pre, t'.lsp m = t.lsp m) {l : ℕ} (hl : t'.lsp l = t.lsp l) {bw : ℚ}
    (hs : Served t pre bw l) : Served t' pre bw l := by
  have ec : (fun i => (t'.ifc i).cost) = fun i => (t.ifc i).cost := by
    funext i; rw [hf.ifc i]
  unfold Served CheapestOver at *
  rw [usableAfter_congr hf h, reservableAfter_congr hf h, hl, hf.lspSrc, hf.lspDst,
    funext hf.tail, funext hf.head, ec]
  exact hs

theorem order_rule (env : Env) {s : State} (hs : Sane s)
    (htie : ∀ l ∈ s.lsps, ¬ Tie 1 (askedBw s (shareOf env s l) l)) :
    LspRule env s fun done t => Basic s done t ∧ (Mixed s done t ∨ Ordered env s done t) := by
  refine LspRule.on_basic hs (.inr ⟨?_, ?_⟩) ?_ ?_
  · intro i hi
    show pyRound 1 (if i ∈ s.ifs then { s.ifc i with reservedRaw := 0 } else s.ifc i).reservedRaw = _
    rw [if_pos hi]
    exact pyRound_zero 1
  · intro pre l post h; simp at h
  · intro done l t t' hf ht hb hx hl hld hun hsig
    rcases hx with hm | ⟨hx, hall⟩
    · exact .inl (hm.signal hld hsig)
    · right
      have hdone : ∀ m ∈ done, t'.lsp m = t.lsp m := fun m hm =>
        hsig.other (fun e => hld (e ▸ hm))
      have hfr : LspFrame t t' := hsig.frame
      have hifs : t.ifs = s.ifs := hf.ifs
      refine ⟨?_, ?_⟩
      · intro i hi
        have hold : done.map (lspShare t' i) = done.map (lspShare t i) :=
          List.map_congr_left fun m hm => lspShare_congr i (hdone m hm)
        rw [List.map_append, List.sum_append, hold, ← hx i hi]
        simp only [List.map_cons, List.map_nil, List.sum_cons, List.sum_nil, add_zero]
        rcases hsig.inv ht with ⟨h1, h2⟩ | ⟨p, c, hd, hc, hnd, h1, h2, h3⟩
        · rw [lspShare_unrouted i h1, reservedBw_congr h2, add_zero]
        · rw [lspShare_routed i h1 h2, reservedBw_congr h3, reserveOn_exact hnd (htie l hl)]
      · intro pre m post he
        rcases List.eq_nil_or_concat post with rfl | ⟨post', z, rfl⟩
        · -- the new LSP
          obtain ⟨h1, h2⟩ := List.append_inj' he rfl
          simp only [List.cons.injEq, and_true] at h2
          subst h1
          subst h2
          have hu : ∀ bw, UsableAfter t' done bw = RsvpUsable t bw := by
            intro bw
            rw [usableAfter_congr hfr hdone]
            funext i
            unfold UsableAfter RsvpUsable Usable
            refine propext ⟨?_, ?_⟩
            · rintro ⟨g1, g2, g3, g4⟩
              rw [reservableAfter_eq (hx i (hifs ▸ g1))] at g4
              exact ⟨⟨g1, g2, g4⟩, g3⟩
            · rintro ⟨⟨g1, g2, g4⟩, g3⟩
              rw [← reservableAfter_eq (hx i (hifs ▸ g1))] at g4
              exact ⟨g1, g2, g3, g4⟩
          have ec : (fun i => (t'.ifc i).cost) = fun i => (t.ifc i).cost := by
            funext i; rw [hfr.ifc i]
          unfold Served CheapestOver
          rw [hu, hfr.lspSrc, hfr.lspDst, funext hfr.tail, funext hfr.head, ec,
            reservableAfter_congr hfr hdone]
          rcases hsig with ⟨hno, rfl⟩ | ⟨p, k, hc, rfl⟩
          · left
            rw [unrouted_lsp]
            exact ⟨rfl, rfl, hno⟩
          · right
            rw [signalled_lsp]
            have hp : ∀ i ∈ p, i ∈ s.ifs := fun i hi =>
              hifs ▸ (Route.mem_ok hc.cheapest.1 i hi).1.1
            obtain ⟨v, hv⟩ : ∃ v, t.pathHeadroom p = some v := by
              unfold State.pathHeadroom minQ
              cases hm : (p.map t.reservable).min? with
              | some v => exact ⟨v, rfl⟩
              | none =>
                rw [List.min?_eq_none_iff, List.map_eq_nil_iff] at hm
                exact absurd hm hc.ne
            refine ⟨p, t.pathCost p, (t.pathHeadroom p).getD 0, rfl, rfl, hc.cheapest, hc.fewest,
              rfl, ?_, ?_⟩
            · intro i hi
              rw [hv, reservableAfter_eq (hx i (hp i hi))]
              exact (List.min?_eq_some_iff.1 hv).2 _ (List.mem_map.2 ⟨i, hi, rfl⟩)
            · obtain ⟨i, hi, e⟩ := List.mem_map.1 (List.min?_eq_some_iff.1 hv).1
              refine ⟨i, hi, ?_⟩
              rw [hv, reservableAfter_eq (hx i (hp i hi)), e]
              rfl
        · -- an earlier LSP
          have he' : done ++ [l] = (pre ++ m :: post') ++ [z] := by rw [he]; simp
          have h1 := (List.append_inj' he' rfl).1
          have hmd : m ∈ done := by rw [h1]; simp
          have hpre : ∀ x ∈ pre, x ∈ done := by intro x hx; rw [h1]; simp [hx]
          exact served_congr hfr (fun x hx => hdone x (hpre x hx)) (hdone m hmd)
            (hall pre m post' h1)
  · intro done l l' r t t' hf ht hb hx hld hld' e1 e2 e3 e4 e5 e6 hre
    exact .inl (.reopt hld hld' e1 e2 e3 hre)

end NTM
