import Verif.Proof.LspRule
import Verif.Proof.Rounding
import Verif.Spec.Results

/-!
# Invariants of the LSP phase
-/

namespace NTM

open Spec

theorem reserveOn_ifc {s : State} {p : List ℕ} (hp : p.Nodup) (v : ℚ) (i : ℕ) :
    (s.reserveOn p v).ifc i =
      if i ∈ p then { s.ifc i with reservedRaw := s.reservedBw i + v } else s.ifc i := by
  unfold State.reserveOn
  induction p generalizing s with
  | nil => simp
  | cons j p ih =>
    rw [List.nodup_cons] at hp
    rw [List.foldl_cons, ih hp.2]
    by_cases hij : i = j
    · subst hij
      rw [if_neg hp.1, if_pos (by simp)]
      unfold State.addReserved State.setReserved State.updIfc
      simp
    · have h1 : (s.addReserved j v).ifc i = s.ifc i := by
        unfold State.addReserved State.setReserved State.updIfc
        simp [hij]
      have h2 : (s.addReserved j v).reservedBw i = s.reservedBw i := by
        unfold State.reservedBw; rw [h1]
      rw [h1, h2]
      simp [hij]

theorem reserveOn_reservedBw {s : State} {p : List ℕ} (hp : p.Nodup) (v : ℚ) (i : ℕ) :
    (s.reserveOn p v).reservedBw i =
      if i ∈ p then pyRound 1 (s.reservedBw i + v) else s.reservedBw i := by
  conv_lhs => unfold State.reservedBw
  rw [reserveOn_ifc hp]
  split <;> rfl

/-- an LSP is either unrouted or sits on a path of the model with a reservation -/
def Placed (t : State) (l : ℕ) : Prop :=
  ((t.lsp l).path = .unrouted ∧ (t.lsp l).reserved = .unrouted) ∨
  ∃ p c h b, (t.lsp l).path = .routed p c h ∧ (t.lsp l).reserved = .val b ∧ p ≠ [] ∧ p.Nodup ∧
    ∀ i ∈ p, i ∈ t.ifs

theorem Chosen.nodup {t : State} (ht : Sane t) {bw : ℚ} {a b : String} {p : List ℕ}
    (h : Chosen t bw a b p) : p.Nodup := by
  refine visited_nodup_path (cheapest_simple ?_ h.cheapest)
  intro i hi
  exact ht.costs i (Route.mem_ok h.cheapest.1 i hi).1.1

theorem signalled_lsp {t : State} {l : ℕ} {bw : ℚ} {p : List ℕ} {k : ℕ} :
    ({ t.afterRouted l bw p with rngPos := k } : State).lsp l =
      { t.lsp l with path := .routed p (t.pathCost p) ((t.pathHeadroom p).getD 0)
                     reserved := .val bw, setup := some bw } := by
  show (State.reserveOn _ _ _).lsp l = _
  rw [reserveOn_lsp]
  unfold State.updLsp; simp

theorem unrouted_lsp {t : State} {l : ℕ} {bw : ℚ} :
    (t.afterUnrouted l bw).lsp l =
      { t.lsp l with path := .unrouted, reserved := .unrouted, setup := some bw } := by
  unfold State.afterUnrouted State.updLsp; simp

theorem Signalled.placed {t t' : State} (ht : Sane t) {bw : ℚ} {l : ℕ} (h : Signalled t bw l t') :
    Placed t' l := by
  have hf := h.frame
  rcases h with ⟨-, rfl⟩ | ⟨p, k, hc, rfl⟩
  · left; rw [unrouted_lsp]; exact ⟨rfl, rfl⟩
  · right
    rw [signalled_lsp]
    refine ⟨_, _, _, _, rfl, rfl, hc.ne, hc.nodup ht, ?_⟩
    intro i hi
    rw [hf.ifs]
    exact (Route.mem_ok hc.cheapest.1 i hi).1.1

theorem resignalled_lsp {t : State} {l : ℕ} {x : Lsp} {res needed : ℚ} {path p : List ℕ} {k : ℕ} :
    ({ (if res = needed then t.updLsp l fun _ => x
        else ((t.updLsp l fun _ => x).reserveOn path (-res)).reserveOn p needed) with
        rngPos := k } : State).lsp l = x := by
  show (if res = needed then _ else _ : State).lsp l = _
  split
  · unfold State.updLsp; simp
  · rw [reserveOn_lsp, reserveOn_lsp]; unfold State.updLsp; simp

theorem Resignalled.placed {t t' : State} {needed : ℚ} {l : ℕ} (h : Resignalled t needed l t')
    (hl : Placed t l) : Placed t' l := by
  have hf := h.frame
  obtain ⟨path, c, hd, res, h1, h2, rfl | ⟨p, k, x, hp, hne, hx, rfl⟩⟩ := h
  · exact hl
  · right
    rw [hf.ifs, resignalled_lsp, hx]
    exact ⟨_, _, _, _, rfl, rfl, hne, hp.nodup, fun i hi => (hp.hop i hi).1⟩

theorem Placed.congr {t t' : State} {l : ℕ} (h : t'.lsp l = t.lsp l) (hf : LspFrame t t')
    (hl : Placed t l) : Placed t' l := by
  unfold Placed at *
  rw [h, hf.ifs]
  exact hl

/-- the basic invariant -/
structure Basic (s : State) (done : List ℕ) (t : State) : Prop where
  nodup : done.Nodup
  sub : ∀ l ∈ done, l ∈ s.lsps
  placed : ∀ l ∈ done, Placed t l

theorem basic_rule (env : Env) {s : State} (hs : Sane s) : LspRule env s (Basic s) where
  init := ⟨List.nodup_nil, by simp, by simp⟩
  signal := by
    intro done l t t' hf hi hl hld _ hsig
    have ht : Sane t := hf.sane (startLsps_sane hs)
    refine ⟨?_, ?_, ?_⟩
    · rw [List.nodup_append]
      refine ⟨hi.nodup, by simp, ?_⟩
      rintro a ha b hb rfl
      exact hld (by rwa [List.mem_singleton.1 hb] at ha)
    · intro m hm
      rcases List.mem_append.1 hm with hm | hm
      · exact hi.sub m hm
      · rw [List.mem_singleton.1 hm]; exact hl
    · intro m hm
      rcases List.mem_append.1 hm with hm' | hm
      · have : m ≠ l := fun e => hld (e ▸ hm')
        exact (hi.placed m hm').congr (hsig.other this) hsig.frame
      · rw [List.mem_singleton.1 hm]; exact hsig.placed ht
  reopt := by
    intro done l l' r t t' hf hi hl hld _ _ _ _ _ _ _ _ _ hre
    refine ⟨hi.nodup, hi.sub, ?_⟩
    intro m hm
    by_cases hml : m = l
    · subst hml; exact hre.placed (hi.placed m hm)
    · exact (hi.placed m hm).congr (hre.other hml) hre.frame

/-- invariants on top of the basic one -/
theorem LspRule.on_basic {env : Env} {s : State} (hs : Sane s) {X : List ℕ → State → Prop}
    (init : X [] (startLsps env s))
    (signal : ∀ done l t t', LspFrame (startLsps env s) t → Sane t → Basic s done t → X done t →
      l ∈ s.lsps → l ∉ done → t.lsp l = s.lsp l →
      Signalled t (askedBw s (shareOf env s l) l) l t' → X (done ++ [l]) t')
    (reopt : ∀ done l l' r t t', LspFrame (startLsps env s) t → Sane t → Basic s done t →
      X done t → l ∈ done → l' ∈ done → s.lspSrc l' = s.lspSrc l → s.lspDst l' = s.lspDst l →
      (t.lsp l').path = .unrouted →
      (t.lsp l).reserved = .val (askedBw s (shareOf env s l) l) → 1 ≤ r →
      r < (s.peers l).length → Resignalled t (totalFor env s l / r) l t' → X done t') :
    LspRule env s fun done t => Basic s done t ∧ X done t where
  init := ⟨(basic_rule env hs).init, init⟩
  signal done l t t' hf hi hl hld hun hsig :=
    ⟨(basic_rule env hs).signal done l t t' hf hi.1 hl hld hun hsig,
      signal done l t t' hf (hf.sane (startLsps_sane hs)) hi.1 hi.2 hl hld hun hsig⟩
  reopt done l l' r t t' hf hi hl hld hld' hl' h1 h2 h3 h4 h5 h6 h7 hre :=
    ⟨(basic_rule env hs).reopt done l l' r t t' hf hi.1 hl hld hld' hl' h1 h2 h3 h4 h5 h6 h7 hre,
      reopt done l l' r t t' hf (hf.sane (startLsps_sane hs)) hi.1 hi.2 hld hld' h1 h2 h3 h4 h5 h6
        hre⟩

/-! ### Partially routed groups -/

/-- some LSPs between two nodes are routed and some are not -/
def Mixed (s : State) (done : List ℕ) (t : State) : Prop :=
  ∃ l ∈ done, ∃ l' ∈ done, s.lspSrc l' = s.lspSrc l ∧ s.lspDst l' = s.lspDst l ∧
    IsRouted t l ∧ (t.lsp l').path = .unrouted

theorem Mixed.signal {s t t' : State} {done : List ℕ} {l : ℕ} {bw : ℚ} (h : Mixed s done t)
    (hld : l ∉ done) (hsig : Signalled t bw l t') : Mixed s (done ++ [l]) t' := by
  obtain ⟨m, hm, m', hm', h1, h2, h3, h4⟩ := h
  have n1 : m ≠ l := by rintro rfl; exact hld hm
  have n2 : m' ≠ l := by rintro rfl; exact hld hm'
  refine ⟨m, by simp [hm], m', by simp [hm'], h1, h2, ?_, ?_⟩
  · unfold IsRouted; rw [hsig.other n1]; exact h3
  · rw [hsig.other n2]; exact h4

theorem Resignalled.routed {t t' : State} {needed : ℚ} {l : ℕ} (h : Resignalled t needed l t') :
    IsRouted t l ∧ IsRouted t' l := by
  obtain ⟨path, c, hd, res, h1, h2, rfl | ⟨p, k, x, hp, hne, hx, rfl⟩⟩ := h
  · exact ⟨⟨_, _, _, h1⟩, ⟨_, _, _, h1⟩⟩
  · refine ⟨⟨_, _, _, h1⟩, ?_⟩
    unfold IsRouted
    rw [resignalled_lsp, hx]
    exact ⟨_, _, _, rfl⟩

theorem Mixed.reopt {s t t' : State} {done : List ℕ} {l l' : ℕ} {needed : ℚ}
    (hl : l ∈ done) (hl' : l' ∈ done) (h1 : s.lspSrc l' = s.lspSrc l)
    (h2 : s.lspDst l' = s.lspDst l) (h3 : (t.lsp l').path = .unrouted)
    (hre : Resignalled t needed l t') : Mixed s done t' := by
  have hne : l' ≠ l := by
    rintro rfl
    obtain ⟨a, b, c, h⟩ := hre.routed.1
    rw [h3] at h; cases h
  exact ⟨l, hl, l', hl', h1, h2, hre.routed.2, by rw [hre.other hne]; exact h3⟩

/-! ### Paths are contiguous and eligible -/

/-- `p` leads from `a` to `b` over interfaces that are up and RSVP-enabled -/
def Eligible (t : State) (a b : String) (p : List ℕ) : Prop :=
  PathOver t (fun i => i ∈ t.ifs ∧ (t.ifc i).failed = false ∧ (t.ifc i).rsvpEnabled = true) a p b

theorem Eligible.frame {t t' : State} (hf : LspFrame t t') {a b : String} {p : List ℕ}
    (h : Eligible t a b p) : Eligible t' a b p := by
  unfold Eligible PathOver at *
  have e1 : t'.tail = t.tail := funext hf.tail
  have e2 : t'.head = t.head := funext hf.head
  rw [e1, e2]
  refine h.mono ?_
  rintro i - ⟨h1, h2, h3⟩
  rw [hf.ifs, hf.ifc i]
  exact ⟨h1, h2, h3⟩

theorem eligible_rule (env : Env) {s : State} (hs : Sane s) :
    LspRule env s fun done t => Basic s done t ∧
      ((¬ SingleLinks s ∧ Mixed s done t) ∨
        ∀ l ∈ done, ∀ p c h, (t.lsp l).path = .routed p c h →
          Eligible t (s.lspSrc l) (s.lspDst l) p) := by
  have hends : ∀ t, LspFrame (startLsps env s) t → ∀ l, t.lspSrc l = s.lspSrc l ∧
      t.lspDst l = s.lspDst l := by
    intro t hf l
    unfold State.lspSrc State.lspDst
    rw [hf.lsp l, hf.node]
    exact ⟨rfl, rfl⟩
  refine LspRule.on_basic hs (.inr (by simp)) ?_ ?_
  · intro done l t t' hf ht hb hx hl hld hun hsig
    rcases hx with ⟨hx, hm⟩ | hx
    · exact .inl ⟨hx, hm.signal hld hsig⟩
    · right
      intro m hm p c h hp
      rcases List.mem_append.1 hm with hm' | hm
      · have : m ≠ l := fun e => hld (e ▸ hm')
        rw [hsig.other this] at hp
        exact (hx m hm' p c h hp).frame hsig.frame
      · rw [List.mem_singleton.1 hm] at hp ⊢
        have hfr := hsig.frame
        rcases hsig with ⟨-, rfl⟩ | ⟨q, k, hc, rfl⟩
        · rw [unrouted_lsp] at hp; cases hp
        · rw [signalled_lsp] at hp
          cases hp
          refine Eligible.frame hfr ?_
          have := hc.cheapest.1
          rw [(hends t hf l).1, (hends t hf l).2] at this
          exact this.mono fun i _ hi => ⟨hi.1.1, hi.1.2.1, hi.2⟩
  · intro done l l' r t t' hf ht hb hx hld hld' h1 h2 h3 h4 h5 h6 hre
    rcases hx with ⟨hx, hm⟩ | hx
    · exact .inl ⟨hx, .reopt hld hld' h1 h2 h3 hre⟩
    · by_cases hsl : SingleLinks s
      · right
        have hslt : SingleLinks t := by
          intro i hi j hj e1 e2
          have hf2 := (startLsps_frame env s).trans hf
          rw [hf2.ifs] at hi hj
          rw [hf2.tail, hf2.tail] at e1
          rw [hf2.head, hf2.head] at e2
          exact hsl i hi j hj e1 e2
        intro m hm p c h hp
        by_cases hml : m = l
        · subst hml
          have hfr := hre.frame
          obtain ⟨path, c', hd, res, e1, e2, rfl | ⟨q, k, x, hq, hne, hxx, rfl⟩⟩ := hre
          · exact hx m hm p c h hp
          · rw [resignalled_lsp, hxx] at hp
            cases hp
            refine Eligible.frame hfr ?_
            have := (hq.good hslt).1
            rw [(hends t hf m).1, (hends t hf m).2] at this
            refine this.mono fun i _ hi => ?_
            obtain ⟨a1, a2, a3, -⟩ := mem_routedEdges.1 hi
            exact ⟨a1, a2, a3⟩
        · rw [hre.other hml] at hp
          exact (hx m hm p c h hp).frame hre.frame
      · exact .inl ⟨hsl, .reopt hld hld' h1 h2 h3 hre⟩

/-- `p` consists of an eligible path from `a` to `b` and of interfaces parallel to its hops -/
def Along (t : State) (a b : String) (p : List ℕ) : Prop :=
  ∃ q, Eligible t a b q ∧ (∀ i ∈ q, i ∈ p) ∧
    ∀ i ∈ p, ∃ j ∈ q, t.tail i = t.tail j ∧ t.head i = t.head j

theorem Along.frame {t t' : State} (hf : LspFrame t t') {a b : String} {p : List ℕ}
    (h : Along t a b p) : Along t' a b p := by
  obtain ⟨q, h1, h2, h3⟩ := h
  refine ⟨q, h1.frame hf, h2, fun i hi => ?_⟩
  obtain ⟨j, hj, e1, e2⟩ := h3 i hi
  exact ⟨j, hj, by rw [hf.tail, hf.tail, e1], by rw [hf.head, hf.head, e2]⟩

theorem along_rule (env : Env) {s : State} (hs : Sane s) :
    LspRule env s fun done t => Basic s done t ∧
      ∀ l ∈ done, ∀ p c h, (t.lsp l).path = .routed p c h →
        Along t (s.lspSrc l) (s.lspDst l) p := by
  have hends : ∀ t, LspFrame (startLsps env s) t → ∀ l, t.lspSrc l = s.lspSrc l ∧
      t.lspDst l = s.lspDst l := by
    intro t hf l
    unfold State.lspSrc State.lspDst
    rw [hf.lsp l, hf.node]
    exact ⟨rfl, rfl⟩
  refine LspRule.on_basic hs (by simp) ?_ ?_
  · intro done l t t' hf ht hb hx hl hld hun hsig
    intro m hm p c h hp
    rcases List.mem_append.1 hm with hm' | hm
    · have : m ≠ l := fun e => hld (e ▸ hm')
      rw [hsig.other this] at hp
      exact (hx m hm' p c h hp).frame hsig.frame
    · rw [List.mem_singleton.1 hm] at hp ⊢
      have hfr := hsig.frame
      rcases hsig with ⟨-, rfl⟩ | ⟨q, k, hc, rfl⟩
      · rw [unrouted_lsp] at hp; cases hp
      · rw [signalled_lsp] at hp
        cases hp
        refine Along.frame hfr ?_
        have := hc.cheapest.1
        rw [(hends t hf l).1, (hends t hf l).2] at this
        exact ⟨p, this.mono fun i _ hi => ⟨hi.1.1, hi.1.2.1, hi.2⟩, fun _ hi => hi,
          fun i hi => ⟨i, hi, rfl, rfl⟩⟩
  · intro done l l' r t t' hf ht hb hx hld hld' h1 h2 h3 h4 h5 h6 hre
    intro m hm p c h hp
    by_cases hml : m = l
    · subst hml
      have hfr := hre.frame
      obtain ⟨path, c', hd, res, e1, e2, rfl | ⟨q, k, x, hq, hne, hxx, rfl⟩⟩ := hre
      · exact hx m hm p c h hp
      · rw [resignalled_lsp, hxx] at hp
        cases hp
        refine Along.frame hfr ?_
        obtain ⟨q', g1, g2, g3⟩ := hq.covers
        have := g1.1
        rw [(hends t hf m).1, (hends t hf m).2] at this
        refine ⟨q', this.mono fun i _ hi => ?_, g2, g3⟩
        obtain ⟨a1, a2, a3, -⟩ := mem_routedEdges.1 hi
        exact ⟨a1, a2, a3⟩
    · rw [hre.other hml] at hp
      exact (hx m hm p c h hp).frame hre.frame

end NTM
