import Verif.Model.FloatLsp
import Verif.Proof.Twist
import Verif.Proof.Ledger

/-!
# The LSP phase in floating point takes the decisions of the exact one

`Exactly` lists what the arithmetic must get right for the model at hand.  Under it the two runs of
the LSP phase go step by step through states that differ only in reservations, bandwidths and
headrooms.
-/

namespace NTM

open Spec

/-! ### What differs -/

/-- the same path with another headroom -/
def LspPath.withHd : LspPath → ℚ → LspPath
  | .routed p c _, h => .routed p c h
  | x, _ => x

/-- the numbers that may differ -/
structure Gl where
  raw : ℕ → ℚ
  hd : ℕ → ℚ
  res : ℕ → Bw
  setup : ℕ → Option ℚ

/-- the state with other reservations, headrooms and bandwidths -/
def State.gloss (s : State) (o : Gl) : State :=
  { s with
    ifc := fun i => { s.ifc i with reservedRaw := o.raw i }
    lsp := fun l => { s.lsp l with
      path := (s.lsp l).path.withHd (o.hd l), reserved := o.res l, setup := o.setup l } }

/-- rounding of a bandwidth -/
def Bw.fl (f : ℚ → ℚ) : Bw → Bw
  | .val q => .val (f q)
  | x => x

theorem withHd_unrouted {x : LspPath} {h : ℚ} : x.withHd h = .unrouted ↔ x = .unrouted := by
  cases x <;> simp [LspPath.withHd]

theorem withHd_interfaces (x : LspPath) (h : ℚ) : (x.withHd h).interfaces = x.interfaces := by
  cases x <;> rfl

theorem withHd_withHd (x : LspPath) (h k : ℚ) : (x.withHd h).withHd k = x.withHd k := by
  cases x <;> rfl

theorem Bw.fl_num (f : ℚ → ℚ) (x : Bw) : (x.fl f).num = x.num.map f := by cases x <;> rfl

/-- a bandwidth an LSP may be signalled with, or none at all -/
def Signals (env : Env) (s : State) (b : ℚ) : Prop :=
  b = 0 ∨ ∃ l ∈ s.lsps, b = askedBw s (shareOf env s l) l ∨
    ∃ r : ℕ, 1 ≤ r ∧ r < (s.peers l).length ∧ b = totalFor env s l / r

/-- what the arithmetic gets right, for reservations up to `K₀` -/
structure Exactly (fl : ℚ → ℚ) (env : Env) (s : State) (K₀ K : ℚ) : Prop where
  mono : Monotone fl
  zero : fl 0 = 0
  minus : fl (-1) = -1
  nonneg : ∀ b, Signals env s b → 0 ≤ b
  limit : ∀ i ∈ s.ifs, (s.ifc i).rsvpEnabled = true → ∀ T, Decimal 1 T → |T| ≤ K →
    pyRound 1 (fl (fl (fl (s.ifc i).capacity * fl (fl (s.ifc i).pct / 100)) - fl T)) =
      pyRound 1 (s.ceiling i - T)
  le : ∀ b, Signals env s b → ∀ T, Decimal 1 T → |T| ≤ K → (fl b ≤ fl T ↔ b ≤ T)
  plus : ∀ b, Signals env s b → ∀ T, Decimal 1 T → |T| ≤ K →
    pyRound 1 (fl (fl T + fl b)) = pyRound 1 (T + b)
  sub : ∀ b, Signals env s b → ∀ T, Decimal 1 T → |T| ≤ K →
    pyRound 1 (fl (fl T + -fl b)) = pyRound 1 (T + -b)
  more : ∀ l ∈ s.lsps, ∀ r : ℕ, 1 ≤ r → r < (s.peers l).length → ∀ T, Decimal 1 T → |T| ≤ K →
    (fl (totalFor env s l / r) ≤ fl (fl T + fl (askedBw s (shareOf env s l) l)) ↔
      totalFor env s l / r ≤ T + askedBw s (shareOf env s l) l)
  same : ∀ l ∈ s.lsps, ∀ r : ℕ, 1 ≤ r → r < (s.peers l).length →
    fl (totalFor env s l / r) = fl (askedBw s (shareOf env s l) l) →
      totalFor env s l / r = askedBw s (shareOf env s l) l
  total : ∀ key ds, dictGet (s.demandGroups env) key = some ds →
    sumFl fl (ds.map fun d => (s.dmd d).traffic) = (ds.map fun d => (s.dmd d).traffic).sum
  large : K₀ ≤ K
  one : 1 ≤ K
  room : ∀ i ∈ s.ifs, ∀ T, |T| ≤ K₀ → |pyRound 1 (s.ceiling i - T)| ≤ K
  less : ∀ b, Signals env s b → ∀ T, |T| ≤ K₀ → |pyRound 1 (T + -b)| ≤ K

/-- all reservations are in range -/
def Within (K : ℚ) (s : State) : Prop := ∀ i ∈ s.ifs, |s.reservedBw i| ≤ K

/-- the states of the two runs: `P` are the LSPs signalled so far -/
structure FRel (fl : ℚ → ℚ) (s0 : State) (P : Set ℕ) (s t : State) : Prop where
  frame : ∃ g, LspFrame { s0 with groups := g } s
  eq : ∃ o, t = s.gloss o ∧ (∀ i ∈ s.ifs, pyRound 1 (o.raw i) = s.reservedBw i) ∧
    ∀ l ∈ P, o.res l = (s.lsp l).reserved.fl fl ∧ o.setup l = (s.lsp l).setup.map fl

section
variable {fl : ℚ → ℚ} {env : Env} {s0 : State} {K₀ K : ℚ} {P : Set ℕ} {s t : State} {o : Gl}

/-! ### What the phase reads -/

theorem gloss_reservedFl {i : ℕ} (h : pyRound 1 (o.raw i) = s.reservedBw i) :
    (s.gloss o).reservedFl fl i = fl (s.reservedBw i) := by
  show fl (pyRound 1 (o.raw i)) = _
  rw [h]

theorem gloss_reservable (hE : Exactly fl env s0 K₀ K) (hf : ∃ g, LspFrame { s0 with groups := g } s)
    {i : ℕ} (hi : i ∈ s.ifs) (h : pyRound 1 (o.raw i) = s.reservedBw i)
    (hb : |s.reservedBw i| ≤ K) : (s.gloss o).reservableFl fl i = fl (s.reservable i) := by
  obtain ⟨g, hf⟩ := hf
  have hi0 : i ∈ s0.ifs := by rw [hf.ifs] at hi; exact hi
  have he : (s.ifc i).rsvpEnabled = (s0.ifc i).rsvpEnabled := by rw [hf.ifc i]
  have e1 : ((s.gloss o).ifc i).capacity = (s0.ifc i).capacity := by
    show (s.ifc i).capacity = _; rw [hf.ifc i]
  have e2 : ((s.gloss o).ifc i).pct = (s0.ifc i).pct := by
    show (s.ifc i).pct = _; rw [hf.ifc i]
  have e3 : ((s.gloss o).ifc i).rsvpEnabled = (s0.ifc i).rsvpEnabled := he
  by_cases hr : (s0.ifc i).rsvpEnabled = true
  · rw [reservable_eq ⟨g, hf⟩ hr]
    unfold State.reservableFl
    rw [gloss_reservedFl h, e1, e2, e3, if_pos hr, hE.limit i hi0 hr _ (reservedBw_decimal s i) hb]
  · unfold State.reservableFl State.reservable
    rw [e3, he, if_neg hr, if_neg hr, hE.minus]

theorem reservable_decimal (s : State) (i : ℕ) : Decimal 1 (s.reservable i) := by
  unfold State.reservable
  split
  · exact pyRound_decimal _ _
  · exact ⟨-10, by norm_num⟩

theorem reservable_small (hE : Exactly fl env s0 K₀ K) (hf : ∃ g, LspFrame { s0 with groups := g } s)
    {i : ℕ} (hi : i ∈ s.ifs) (hb : |s.reservedBw i| ≤ K₀) : |s.reservable i| ≤ K := by
  obtain ⟨g, hf⟩ := hf
  have hi0 : i ∈ s0.ifs := by rw [hf.ifs] at hi; exact hi
  have he : (s.ifc i).rsvpEnabled = (s0.ifc i).rsvpEnabled := by rw [hf.ifc i]
  by_cases hr : (s0.ifc i).rsvpEnabled = true
  · rw [reservable_eq ⟨g, hf⟩ hr]
    exact hE.room i hi0 _ hb
  · unfold State.reservable
    rw [he, if_neg hr]
    simpa using hE.one

/-- the reads of the two runs agree -/
structure Reads (fl : ℚ → ℚ) (K : ℚ) (s t : State) : Prop where
  eq : ∃ o, t = s.gloss o
  val : ∀ i ∈ s.ifs, t.reservableFl fl i = fl (s.reservable i)
  small : ∀ i ∈ s.ifs, |s.reservable i| ≤ K

theorem FRel.reads (hE : Exactly fl env s0 K₀ K) (h : FRel fl s0 P s t) (hb : Within K₀ s) :
    Reads fl K s t := by
  obtain ⟨o, rfl, h1, -⟩ := h.eq
  exact ⟨⟨o, rfl⟩, fun i hi => gloss_reservable hE h.frame hi (h1 i hi) ((hb i hi).trans hE.large),
    fun i hi => reservable_small hE h.frame hi (hb i hi)⟩

theorem Reads.le (hE : Exactly fl env s0 K₀ K) (h : Reads fl K s t) {b : ℚ}
    (hb : Signals env s0 b) {i : ℕ} (hi : i ∈ s.ifs) :
    fl b ≤ t.reservableFl fl i ↔ b ≤ s.reservable i := by
  rw [h.val i hi]
  exact hE.le b hb _ (reservable_decimal s i) (h.small i hi)

theorem Reads.considered (hE : Exactly fl env s0 K₀ K) (h : Reads fl K s t) {b : ℚ}
    (hb : Signals env s0 b) (x y : Bool) :
    t.consideredFl fl x (fl b) y = s.considered x b y := by
  obtain ⟨o, rfl⟩ := h.eq
  unfold State.consideredFl State.considered
  refine List.filter_congr fun i hi => ?_
  have := h.le hE hb hi
  simp only [this]
  rfl

theorem gloss_graphOn (es : List ℕ) : (s.gloss o).graphOn es = s.graphOn es := rfl

theorem lspGraph_on (s : State) (b : ℚ) :
    s.lspGraph b = s.graphOn (s.considered false b true) := by
  unfold State.lspGraph State.graphOn
  cases s.kind <;> rfl

theorem Reads.candidates (hE : Exactly fl env s0 K₀ K) (h : Reads fl K s t) {b : ℚ}
    (hb : Signals env s0 b) (nxSp : List (List String)) :
    t.lspCandidatesFl fl (fl b) nxSp = s.lspCandidates b nxSp := by
  unfold State.lspCandidatesFl State.lspCandidates
  rw [h.considered hE hb]
  obtain ⟨o, rfl⟩ := h.eq
  rfl

theorem min?_map {f : ℚ → ℚ} (hf : Monotone f) (l : List ℚ) :
    (l.map f).min? = l.min?.map f := by
  have : ∀ (l : List ℚ) (a : ℚ), (l.map f).foldl min (f a) = f (l.foldl min a) := by
    intro l
    induction l with
    | nil => intro a; rfl
    | cons x l ih => intro a; rw [List.map_cons, List.foldl_cons, List.foldl_cons, ← hf.map_min, ih]
  cases l with
  | nil => rfl
  | cons a l => rw [List.map_cons, List.min?_cons', List.min?_cons', this]; rfl

theorem Reads.headroom (hE : Exactly fl env s0 K₀ K) (h : Reads fl K s t) {p : List ℕ}
    (hp : ∀ i ∈ p, i ∈ s.ifs) : t.pathHeadroomFl fl p = (s.pathHeadroom p).map fl := by
  unfold State.pathHeadroomFl State.pathHeadroom minQ
  rw [← min?_map hE.mono, List.map_map]
  congr 1
  exact List.map_congr_left fun i hi => h.val i (hp i hi)

theorem Reads.withHeadroom (hE : Exactly fl env s0 K₀ K) (h : Reads fl K s t) {b : ℚ}
    (hb : Signals env s0 b) {all : List (List ℕ)} (hall : ∀ p ∈ all, ∀ i ∈ p, i ∈ s.ifs) :
    t.withHeadroomFl fl (fl b) all = s.withHeadroom b all := by
  induction all with
  | nil => rfl
  | cons p ps ih =>
    unfold State.withHeadroomFl State.withHeadroom
    rw [ih fun q hq => hall q (by simp [hq]), h.headroom hE (hall p (by simp))]
    cases hm : s.pathHeadroom p with
    | none => rfl
    | some m =>
      simp only [Option.map_some]
      unfold State.pathHeadroom minQ at hm
      have := (List.min?_eq_some_iff.1 hm).1
      obtain ⟨i, hi, rfl⟩ := List.mem_map.1 this
      have hi' := hall p (by simp) i hi
      have := hE.le b hb _ (reservable_decimal s i) (h.small i hi')
      simp only [this]
      cases s.withHeadroom b ps <;> rfl

/-! ### Steps -/

/-- the LSP that stands for `y` in the floating point run -/
def Lsp.glossed (f : ℚ → ℚ) (h : ℚ) (y : Lsp) : Lsp :=
  { y with path := y.path.withHd h, reserved := y.reserved.fl f, setup := y.setup.map f }

theorem FRel.put (h : FRel fl s0 P s t) {l : ℕ} {y y' : Lsp} (hd : ℚ)
    (hy : OnlyRes (s.lsp l) y) (hy' : y' = y.glossed fl hd) :
    FRel fl s0 (insert l P) (s.updLsp l fun _ => y) (t.updLsp l fun _ => y') := by
  obtain ⟨g, hf⟩ := h.frame
  obtain ⟨o, rfl, h1, h2⟩ := h.eq
  refine ⟨⟨g, hf.trans (.put s l y hy)⟩, { o with
    hd := upd o.hd l hd, res := upd o.res l (y.reserved.fl fl)
    setup := upd o.setup l (y.setup.map fl) }, ?_, h1, ?_⟩
  · unfold State.gloss State.updLsp upd
    simp only [State.mk.injEq, true_and, and_true]
    funext k
    by_cases hk : k = l
    · simp only [hk, if_true]; exact hy'
    · simp only [hk, if_false]
  · intro k hk
    unfold upd State.updLsp
    by_cases hkl : k = l
    · simp [hkl]
    · simp only [hkl, if_false]
      exact h2 k (hk.resolve_left hkl)

theorem FRel.lsp (h : FRel fl s0 P s t) {l : ℕ} (hl : l ∈ P) :
    ∃ hd, t.lsp l = (s.lsp l).glossed fl hd := by
  obtain ⟨o, rfl, -, h2⟩ := h.eq
  refine ⟨o.hd l, ?_⟩
  show ({ s.lsp l with path := (s.lsp l).path.withHd (o.hd l), reserved := o.res l, setup := o.setup l } : Lsp) = _
  rw [(h2 l hl).1, (h2 l hl).2]
  rfl

theorem FRel.update (h : FRel fl s0 P s t) {l : ℕ} (hl : l ∈ P) {f f' : Lsp → Lsp}
    (hy : OnlyRes (s.lsp l) (f (s.lsp l)))
    (hf : ∀ hd, ∃ hd', f' ((s.lsp l).glossed fl hd) = (f (s.lsp l)).glossed fl hd') :
    FRel fl s0 P (s.updLsp l f) (t.updLsp l f') := by
  obtain ⟨hd, e⟩ := h.lsp hl
  obtain ⟨hd', e'⟩ := hf hd
  rw [updLsp_const s, updLsp_const t, e]
  have := h.put hd' hy e'
  rwa [Set.insert_eq_of_mem hl] at this

theorem FRel.path (h : FRel fl s0 P s t) (l : ℕ) :
    (t.lsp l).path = .unrouted ↔ (s.lsp l).path = .unrouted := by
  obtain ⟨o, rfl, -, -⟩ := h.eq
  exact withHd_unrouted

theorem FRel.rng (h : FRel fl s0 P s t) (k : ℕ) :
    FRel fl s0 P ({ s with rngPos := k } : State) ({ t with rngPos := k } : State) := by
  obtain ⟨g, hf⟩ := h.frame
  obtain ⟨o, rfl, h1, h2⟩ := h.eq
  exact ⟨⟨g, hf.trans (.rng s k)⟩, o, rfl, h1, h2⟩

theorem FRel.rngPos (h : FRel fl s0 P s t) : t.rngPos = s.rngPos := by
  obtain ⟨o, rfl, -⟩ := h.eq
  rfl

theorem reserveOnFl_eq {s : State} {p : List ℕ} (hp : p.Nodup) (v : ℚ) :
    s.reserveOnFl fl p v = { s with ifc := fun i =>
      if i ∈ p then { s.ifc i with reservedRaw := fl (s.reservedFl fl i + v) } else s.ifc i } := by
  unfold State.reserveOnFl
  induction p generalizing s with
  | nil => simp
  | cons j p ih =>
    rw [List.nodup_cons] at hp
    rw [List.foldl_cons, ih hp.2]
    unfold State.addReservedFl State.setReserved State.updIfc State.reservedFl
    simp only [State.mk.injEq, true_and, and_true]
    funext i
    by_cases hij : i = j
    · subst hij; simp [hp.1]
    · simp [hij]

theorem reserveOn_eq {s : State} {p : List ℕ} (hp : p.Nodup) (v : ℚ) :
    s.reserveOn p v = { s with ifc := fun i =>
      if i ∈ p then { s.ifc i with reservedRaw := s.reservedBw i + v } else s.ifc i } := by
  unfold State.reserveOn
  induction p generalizing s with
  | nil => simp
  | cons j p ih =>
    rw [List.nodup_cons] at hp
    rw [List.foldl_cons, ih hp.2]
    unfold State.addReserved State.setReserved State.updIfc State.reservedBw
    simp only [State.mk.injEq, true_and, and_true]
    funext i
    by_cases hij : i = j
    · subst hij; simp [hp.1]
    · simp [hij]

theorem FRel.reserve (h : FRel fl s0 P s t) {p : List ℕ} (hp : p.Nodup) {v v' : ℚ}
    (hv : ∀ i ∈ p, i ∈ s.ifs → pyRound 1 (fl (fl (s.reservedBw i) + v')) =
      pyRound 1 (s.reservedBw i + v)) :
    FRel fl s0 P (s.reserveOn p v) (t.reserveOnFl fl p v') := by
  obtain ⟨g, hf⟩ := h.frame
  have hfr := LspFrame.reserveOn s p v
  have hl := reserveOn_lsp s p v
  obtain ⟨o, rfl, h1, h2⟩ := h.eq
  refine ⟨⟨g, hf.trans hfr⟩,
    ⟨fun i => if i ∈ p then fl (fl (pyRound 1 (o.raw i)) + v') else o.raw i, o.hd, o.res, o.setup⟩,
    ?_, ?_, ?_⟩
  · rw [reserveOnFl_eq hp, reserveOn_eq hp]
    unfold State.gloss
    simp only [State.mk.injEq, true_and, and_true]
    funext i
    by_cases hi : i ∈ p
    · simp only [hi, if_true]; rfl
    · simp only [hi, if_false]
  · intro i hi
    rw [hfr.ifs] at hi
    rw [reserveOn_reservedBw hp]
    by_cases hip : i ∈ p
    · simp only [hip, if_true]
      rw [h1 i hi]
      exact hv i hip hi
    · simp only [hip, if_false]
      exact h1 i hi
  · rw [hl]; exact h2

theorem FRel.randomChoice (h : FRel fl s0 P s t) {α : Type} (env : Env) (l : List α) :
    rwp (randomChoice env l) (randomChoice env l)
      (fun x y s' t' => y = x ∧ x ∈ l ∧ (∃ k, s' = { s with rngPos := k }) ∧
        FRel fl s0 P s' t') s t := by
  unfold rwp NTM.randomChoice
  rw [h.rngPos]
  cases he : l[env.rand s.rngPos % l.length]? with
  | none => exact rfl
  | some x => exact ⟨rfl, List.mem_of_getElem? he, ⟨_, rfl⟩, h.rng _⟩

theorem FRel.choosePath (h : FRel fl s0 P s t) (env : Env) (ps : List (List ℕ)) :
    rwp (choosePath env ps) (choosePath env ps)
      (fun x y s' t' => y = x ∧ x ∈ ps ∧ (∃ k, s' = { s with rngPos := k }) ∧
        FRel fl s0 P s' t') s t := by
  unfold NTM.choosePath
  split
  · exact rwp_pure ⟨rfl, by simp, ⟨s.rngPos, rfl⟩, h⟩
  · split
    · next hp =>
      refine rwp_pure ⟨rfl, ?_, ⟨s.rngPos, rfl⟩, h⟩
      exact (mem_fewestHops.1 (by rw [hp]; simp)).1
    · refine rwp_mono (h.randomChoice env _) ?_
      rintro x y s' t' ⟨h1, h2, h3⟩
      exact ⟨h1, (mem_fewestHops.1 h2).1, h3⟩

theorem FRel.pickCandidate (h : FRel fl s0 P s t) (env : Env) (ps : List (List ℕ)) :
    rwp (pickCandidate env ps) (pickCandidate env ps)
      (fun x y s' t' => y = x ∧ x ∈ ps ∧ (∃ k, s' = { s with rngPos := k }) ∧
        FRel fl s0 P s' t') s t := by
  unfold NTM.pickCandidate
  split
  · exact rwp_pure ⟨rfl, by simp, ⟨s.rngPos, rfl⟩, h⟩
  · exact h.randomChoice env _

/-- the setup bandwidths correspond -/
theorem setSetupFl_of {x : Lsp} {b : ℚ} {hd : ℚ} {u : Option ℚ} (hb : 0 ≤ b) (hm : Monotone fl)
    (hz : fl 0 = 0) :
    ∃ y, x.setSetup b = .ok y ∧ Lsp.setSetupFl fl { x with
      path := x.path.withHd hd, reserved := x.reserved.fl fl, setup := u } (fl b) =
        .ok (y.glossed fl hd) := by
  have hb' : 0 ≤ fl b := by rw [← hz]; exact hm hb
  unfold Lsp.setSetup Lsp.setSetupFl
  simp only []
  cases x.configured with
  | none =>
    simp only []
    rw [if_pos hb, if_pos hb']
    exact ⟨_, rfl, rfl⟩
  | some c =>
    simp only []
    by_cases h0 : c ≠ 0
    · rw [if_pos h0, if_pos h0]
      exact ⟨_, rfl, rfl⟩
    · rw [if_neg h0, if_neg h0, if_pos hb, if_pos hb']
      exact ⟨_, rfl, rfl⟩

theorem setSetup_signals {x y : Lsp} {traff : ℚ} {r : Bw}
    (h : Lsp.setSetup { x with reserved := r } (x.configured.getD traff) = .ok y) :
    y.setup = some (x.configured.getD traff) := by
  unfold Lsp.setSetup at h
  cases hc : x.configured with
  | none =>
    simp only [hc, Option.getD_none] at h ⊢
    split at h
    · cases h; rfl
    · cases h
  | some c =>
    simp only [hc, Option.getD_some] at h ⊢
    split at h
    · cases h; rfl
    · split at h
      · cases h; rfl
      · cases h

theorem FRel.signal (hE : Exactly fl env s0 K₀ K) (h : FRel fl s0 P s t) (hs : Sane s)
    (hb : Within K₀ s) {traff : ℚ} {l : ℕ} (hsig : Signals env s0 (askedBw s traff l)) :
    rwp (signalLsp env traff l) (signalLspFl fl env (fl traff) l)
      (fun _ _ => FRel fl s0 (insert l P)) s t := by
  have hreads := h.reads hE hb
  have hlsp : ∃ hd, t.lsp l = { s.lsp l with
      path := (s.lsp l).path.withHd hd, reserved := (t.lsp l).reserved, setup := (t.lsp l).setup } := by
    obtain ⟨o, rfl, -⟩ := h.eq
    exact ⟨o.hd l, rfl⟩
  obtain ⟨hd, hlsp⟩ := hlsp
  unfold signalLsp signalLspFl
  refine rwp_bind (rwp_get ?_)
  simp only []
  have hbw : ((t.lsp l).configured.map fl).getD (fl traff) = fl (askedBw s traff l) := by
    have : (t.lsp l).configured = (s.lsp l).configured := by rw [hlsp]
    rw [this]
    unfold askedBw
    cases (s.lsp l).configured <;> rfl
  rw [hbw]
  show rwp (liftE (Lsp.setSetup { s.lsp l with reserved := .val (askedBw s traff l) }
    (askedBw s traff l)) >>= _) _ _ s t
  generalize hB : askedBw s traff l = b at hsig
  obtain ⟨x, hx, hx'⟩ := setSetupFl_of (fl := fl) (b := b) (hd := hd)
    (x := { s.lsp l with reserved := .val b }) (u := (t.lsp l).setup)
    (hE.nonneg b hsig) hE.mono hE.zero
  have hx'' : Lsp.setSetupFl fl { t.lsp l with reserved := .val (fl b) } (fl b) =
      .ok (x.glossed fl hd) := by
    rw [← hx', hlsp]; rfl
  refine rwp_bind ?_
  rw [hx, hx'']
  show rwp (set _ >>= _) (set _ >>= _) _ s t
  have hsu : x.setup = some b := by
    have := setSetup_signals (x := s.lsp l) (traff := traff) (r := .val b) (y := x) (by
      rw [← hx, ← hB]; rfl)
    rw [this, ← hB]; rfl
  have hxe := setSetup_eq hx
  have hsu' : (x.glossed fl hd).setup.getD 0 = fl b := by
    show (x.setup.map fl).getD 0 = _; rw [hsu]; rfl
  rw [hsu', show x.setup.getD 0 = b by rw [hsu]; rfl]
  refine rwp_bind (rwp_set ?_)
  have h1 : FRel fl s0 (insert l P) (s.updLsp l fun _ => { x with path := .blank })
      (t.updLsp l fun _ => { x.glossed fl hd with path := .blank }) :=
    h.put hd (by unfold OnlyRes; rw [hxe]) rfl
  have hunroute : FRel fl s0 (insert l P)
      ((s.updLsp l fun _ => { x with path := .blank }).unrouteLsp l)
      ((t.updLsp l fun _ => { x.glossed fl hd with path := .blank }).unrouteLsp l) := by
    unfold State.unrouteLsp
    rw [updLsp_updLsp, updLsp_updLsp]
    exact h.put hd (by unfold OnlyRes; rw [hxe]) rfl
  rw [hreads.considered hE hsig, ← hB, lspGraph_on, hB]
  have hends : (t.graphOn (s.considered false b true)).allShortestPaths (t.lspSrc l) (t.lspDst l) =
      (s.graphOn (s.considered false b true)).allShortestPaths (s.lspSrc l) (s.lspDst l) := by
    obtain ⟨o, rfl, -⟩ := h.eq
    rfl
  rw [hends]
  cases hg : (s.graphOn (s.considered false b true)).allShortestPaths (s.lspSrc l) (s.lspDst l) with
  | error e => cases e <;> first | exact rwp_raise | exact rwp_modify hunroute
  | ok nxSp =>
    simp only []
    refine rwp_bind (rwp_liftE (hreads.candidates hE hsig nxSp) fun all hall => ?_)
    obtain ⟨-, hspec⟩ := lspCandidates_spec hs (by rw [lspGraph_on]; exact hg) hall
    have hsub : ∀ p ∈ all, ∀ i ∈ p, i ∈ s.ifs := lspCandidates_sub hall
    refine rwp_bind (rwp_liftE (hreads.withHeadroom hE hsig hsub) fun cands hcands => ?_)
    cases cands with
    | nil => exact rwp_modify hunroute
    | cons q cands =>
      refine rwp_bind (rwp_mono (h1.choosePath env (q :: cands)) ?_)
      rintro p p' s' t' ⟨rfl, hp, ⟨k, rfl⟩, h2⟩
      refine rwp_modify ?_
      have hpa := withHeadroom_sub hcands p' hp
      have hnd : p'.Nodup := by
        have hc := (hspec p').1 hpa
        exact visited_nodup_path (cheapest_simple
          (fun i hi => hs.costs i (Route.mem_ok hc.1 i hi).1.1) hc)
      refine FRel.reserve ?_ hnd ?_
      · have e1 : t'.pathCost p' = s.pathCost p' := by
          obtain ⟨o, rfl, -⟩ := h2.eq; rfl
        rw [e1]
        exact h2.update (Set.mem_insert _ _) rfl fun hd => ⟨_, rfl⟩
      · intro i _ hi
        have := hE.plus b hsig _ (reservedBw_decimal s i) ((hb i hi).trans hE.large)
        rw [← hB] at this ⊢
        exact this


/-! ### Re-optimisation -/

theorem gloss_memIfc (i : ℕ) (p : List ℕ) : (s.gloss o).memIfc i p = s.memIfc i p := rfl

/-- what re-optimisation compares -/
structure Compares (fl : ℚ → ℚ) (K b N : ℚ) : Prop where
  le : ∀ T, Decimal 1 T → |T| ≤ K → (fl N ≤ fl T ↔ N ≤ T)
  more : ∀ T, Decimal 1 T → |T| ≤ K → (fl N ≤ fl (fl T + fl b) ↔ N ≤ T + b)

theorem Reads.enough {b N : ℚ} (h : Reads fl K s t) (hc : Compares fl K b N) (path : List ℕ)
    {i : ℕ} (hi : i ∈ s.ifs) :
    fl N ≤ t.effReservableFl fl path (fl b) i ↔ N ≤ s.effReservable path b i := by
  have h1 := hc.le _ (reservable_decimal s i) (h.small i hi)
  have h2 := hc.more _ (reservable_decimal s i) (h.small i hi)
  have hv := h.val i hi
  obtain ⟨o, rfl⟩ := h.eq
  unfold State.effReservableFl State.effReservable
  rw [gloss_memIfc, hv]
  split
  · exact h2
  · exact h1

theorem Reads.routedEdges {b N : ℚ} (h : Reads fl K s t) (hc : Compares fl K b N)
    (path : List ℕ) : t.routedEdgesFl fl path (fl b) (fl N) = s.routedEdges path b N := by
  have hle := fun i hi => h.enough hc path (i := i) hi
  obtain ⟨o, rfl⟩ := h.eq
  unfold State.routedEdgesFl State.routedEdges
  refine List.filter_congr fun i hi => ?_
  simp only [hle i hi]
  rfl

theorem Reads.convertRouted {b N : ℚ} (h : Reads fl K s t) (hc : Compares fl K b N)
    (path : List ℕ) (p : List String) :
    t.convertRoutedFl fl path (fl b) (fl N) p = s.convertRouted path b N p := by
  have h1 := fun i hi => hc.le _ (reservable_decimal s i) (h.small i hi)
  have h2 := fun i hi => hc.more _ (reservable_decimal s i) (h.small i hi)
  have hv := h.val
  obtain ⟨o, rfl⟩ := h.eq
  unfold State.convertRoutedFl State.convertRouted
  refine List.flatMap_congr fun hop _ => ?_
  congr 1
  refine List.filter_congr fun i hi => ?_
  have hi' : i ∈ s.ifs := (List.mem_filter.1 hi).1
  rw [gloss_memIfc, hv i hi']
  simp only [h1 i hi', h2 i hi']

theorem Reads.routedCandidates {b N : ℚ} (h : Reads fl K s t) (hc : Compares fl K b N)
    (env : Env) (x y : String) (path : List ℕ) :
    t.routedCandidatesFl fl env x y path (fl b) (fl N) = s.routedCandidates env x y path b N := by
  have h1 := h.routedEdges hc path
  have h2 := funext (h.convertRouted hc path)
  obtain ⟨o, rfl⟩ := h.eq
  unfold State.routedCandidatesFl State.routedCandidates
  simp only [h1, h2]
  have hk : (s.gloss o).kind = s.kind := rfl
  have hg : (s.gloss o).graphOn = s.graphOn := rfl
  have hcv : (s.gloss o).convertPerf = s.convertPerf := rfl
  rw [hk, hg, hcv]
  unfold State.graphOn
  cases s.kind <;> rfl

theorem minQ_isNone {l : List ℚ} : (minQ l).isNone = l.isEmpty := by
  cases l with
  | nil => rfl
  | cons a l => unfold minQ; rw [List.min?_cons']; rfl

theorem FRel.findPath (hE : Exactly fl env s0 K₀ K) (h : FRel fl s0 P s t) (hs : Sane s)
    (hb : Within K₀ s) {l : ℕ} (hl : l ∈ P) {b N : ℚ} (hres : (s.lsp l).reserved = .val b)
    (hN : 0 ≤ N) (hc : Compares fl K b N) :
    rwp (findPathWithBw env l N) (findPathWithBwFl fl env l (fl N))
      (fun _ _ s' t' => FRel fl s0 P s' t' ∧ s'.ifc = s.ifc ∧ (s'.lsp l = s.lsp l ∨
        ∃ p c hd, p.Nodup ∧ (s'.lsp l).path = .routed p c hd ∧ (s'.lsp l).reserved = .val N)) s t := by
  have hreads := h.reads hE hb
  obtain ⟨hd, hlsp⟩ := h.lsp hl
  unfold findPathWithBw findPathWithBwFl
  refine rwp_bind (rwp_get ?_)
  have e1 : (t.lsp l).path.interfaces = (s.lsp l).path.interfaces := by
    rw [hlsp]; exact withHd_interfaces _ _
  refine rwp_bind (rwp_liftE e1 fun path hpath => ?_)
  rw [hres, hlsp]
  show rwp (liftE (Bw.val b).num >>= _) (liftE ((s.lsp l).reserved.fl fl).num >>= _) _ s t
  rw [hres]
  show rwp (liftE (.ok b) >>= _) (liftE (.ok (fl b)) >>= _) _ s t
  refine rwp_bind (rwp_liftE' ?_)
  simp only []
  have ecand : t.routedCandidatesFl fl env (t.lspSrc l) (t.lspDst l) path (fl b) (fl N) =
      s.routedCandidates env (s.lspSrc l) (s.lspDst l) path b N := by
    rw [hreads.routedCandidates hc]
    obtain ⟨o, rfl, -⟩ := h.eq
    rfl
  have ecost : ∀ p, t.pathCost p = s.pathCost p := by
    obtain ⟨o, rfl, -⟩ := h.eq
    exact fun p => rfl
  rw [ecand]
  have hcs : ∀ p ∈ s.routedCandidates env (s.lspSrc l) (s.lspDst l) path b N, p.Nodup :=
    fun p hp => (routedCandidates_spec hs hp).nodup
  generalize s.routedCandidates env (s.lspSrc l) (s.lspDst l) path b N = cands at hcs
  have eany : (cands.any fun p => (t.routedHeadroomFl fl path (fl b) p).isNone) =
      cands.any fun p => (s.routedHeadroom path b p).isNone := by
    congr 1
    funext p
    unfold State.routedHeadroomFl State.routedHeadroom
    rw [minQ_isNone, minQ_isNone, List.isEmpty_map, List.isEmpty_map]
  rw [eany]
  by_cases hany : (cands.any fun p => (s.routedHeadroom path b p).isNone) = true
  · rw [if_pos hany, if_pos hany]; exact rwp_raise
  · rw [if_neg hany, if_neg hany]
    cases cands with
    | nil => exact rwp_pure ⟨h, rfl, .inl rfl⟩
    | cons q cands =>
      refine rwp_bind (rwp_mono (h.pickCandidate env (q :: cands)) ?_)
      rintro p p' s' t' ⟨rfl, hp, ⟨k, rfl⟩, h2⟩
      refine rwp_bind (rwp_modify ?_)
      rw [ecost]
      have h3 := h2.update hl (f := fun y => { y with
          path := .routed p' (s.pathCost p') ((s.routedHeadroom path b p').getD 0)
          reserved := .val N })
        (f' := fun y => { y with
          path := .routed p' (s.pathCost p') ((t.routedHeadroomFl fl path (fl b) p').getD 0)
          reserved := .val (fl N) }) rfl fun hd => ⟨_, rfl⟩
      have hl3 : ((State.updLsp { s with rngPos := k } l fun y => { y with
          path := .routed p' (s.pathCost p') ((s.routedHeadroom path b p').getD 0)
          reserved := .val N }).lsp l) = { s.lsp l with
          path := .routed p' (s.pathCost p') ((s.routedHeadroom path b p').getD 0)
          reserved := .val N } := by
        unfold State.updLsp; simp
      have hi3 : ((State.updLsp { s with rngPos := k } l fun y => { y with
          path := .routed p' (s.pathCost p') ((s.routedHeadroom path b p').getD 0)
          reserved := .val N }).ifc) = s.ifc := rfl
      generalize (State.updLsp { s with rngPos := k } l fun y => { y with
          path := .routed p' (s.pathCost p') ((s.routedHeadroom path b p').getD 0)
          reserved := .val N }) = s3 at h3 hl3 hi3
      generalize (t'.updLsp l fun y => { y with
          path := .routed p' (s.pathCost p') ((t.routedHeadroomFl fl path (fl b) p').getD 0)
          reserved := .val (fl N) }) = t3 at h3
      refine rwp_bind (rwp_get ?_)
      obtain ⟨hd3, hlsp3⟩ := h3.lsp hl
      obtain ⟨x, hx, hx'⟩ := setSetupFl_of (fl := fl) (b := N) (hd := hd3)
        (x := s3.lsp l) (u := (t3.lsp l).setup) hN hE.mono hE.zero
      have hx'' : (t3.lsp l).setSetupFl fl (fl N) = .ok (x.glossed fl hd3) := by
        rw [← hx', hlsp3]; rfl
      refine rwp_bind ?_
      rw [hx, hx'']
      refine rwp_liftE' ?_
      have hye := setSetup_eq hx
      refine rwp_set ⟨?_, hi3, .inr ⟨p', s.pathCost p',
        (s.routedHeadroom path b p').getD 0, hcs p' hp, ?_, ?_⟩⟩
      · have h4 := h3.put (y := x) hd3 (by unfold OnlyRes; rw [hye]) rfl
        rwa [Set.insert_eq_of_mem hl] at h4
      · show (if l = l then x else _ : Lsp).path = _
        rw [if_pos rfl, hye, hl3]
      · show (if l = l then x else _ : Lsp).reserved = _
        rw [if_pos rfl, hye, hl3]

theorem FRel.reopt (hE : Exactly fl env s0 K₀ K) (h : FRel fl s0 P s t) (hs : Sane s)
    (hb : Within K₀ s) {l : ℕ} (hl : l ∈ P) (hls : l ∈ s0.lsps)
    (hnd : ∀ p c hd, (s.lsp l).path = .routed p c hd → p.Nodup)
    (hres : (s.lsp l).reserved = .val (askedBw s0 (shareOf env s0 l) l)) {r : ℕ} (hr : 1 ≤ r)
    (hr' : r < (s0.peers l).length) :
    rwp (reoptLsp env (totalFor env s0 l / r) l) (reoptLspFl fl env (fl (totalFor env s0 l / r)) l)
      (fun _ _ s' t' => FRel fl s0 P s' t') s t := by
  have hsN : Signals env s0 (totalFor env s0 l / r) := .inr ⟨l, hls, .inr ⟨r, hr, hr', rfl⟩⟩
  have hsb : Signals env s0 (askedBw s0 (shareOf env s0 l) l) := .inr ⟨l, hls, .inl rfl⟩
  have hc : Compares fl K (askedBw s0 (shareOf env s0 l) l) (totalFor env s0 l / r) :=
    ⟨hE.le _ hsN, hE.more l hls r hr hr'⟩
  have hsame := hE.same l hls r hr hr'
  have hN := hE.nonneg _ hsN
  generalize askedBw s0 (shareOf env s0 l) l = b at hres hsb hc hsame
  generalize totalFor env s0 l / r = N at hsN hc hsame hN
  obtain ⟨hd, hlsp⟩ := h.lsp hl
  have hrt : (t.lsp l).reserved = .val (fl b) := by rw [hlsp, ← show (Bw.val b).fl fl = .val (fl b) from rfl, ← hres]; rfl
  unfold reoptLsp reoptLspFl
  refine rwp_bind (rwp_get ?_)
  have e1 : (t.lsp l).path.interfaces = (s.lsp l).path.interfaces := by
    rw [hlsp]; exact withHd_interfaces _ _
  refine rwp_bind (rwp_liftE e1 fun path hpath => ?_)
  simp only []
  obtain ⟨c0, hd0, hp0⟩ := LspPath.interfaces_ok hpath
  have hpnd := hnd path c0 hd0 hp0
  refine rwp_bind (rwp_mono (h.findPath hE hs hb hl hres hN hc) ?_)
  rintro _ _ s' t' ⟨h2, hifc, hcase⟩
  refine rwp_bind (rwp_get ?_)
  obtain ⟨hd', hlsp'⟩ := h2.lsp hl
  have hifs : s'.ifs = s.ifs := by
    obtain ⟨g, hf⟩ := h2.frame
    obtain ⟨g', hf'⟩ := h.frame
    rw [hf.ifs, hf'.ifs]
  have hrb : ∀ i, s'.reservedBw i = s.reservedBw i := fun i => by
    unfold State.reservedBw; rw [hifc]
  rcases hcase with hsm | ⟨p, c, hd'', hp, hpath', hres'⟩
  · have e2 : (t'.lsp l).reserved = .val (fl b) := by
      rw [hlsp', hsm, ← show (Bw.val b).fl fl = .val (fl b) from rfl, ← hres]; rfl
    rw [if_neg (by rw [hsm]; simp), if_neg (by rw [hrt, e2]; simp)]
    exact rwp_pure h2
  · have e2 : (t'.lsp l).reserved = .val (fl N) := by
      rw [hlsp', ← show (Bw.val N).fl fl = .val (fl N) from rfl, ← hres']; rfl
    rw [hres, hrt, hres', e2]
    by_cases hbN : N = b
    · subst hbN
      rw [if_neg (by simp), if_neg (by simp)]
      exact rwp_pure h2
    · rw [if_pos (by simpa using Ne.symm hbN), if_pos (by
        simpa using fun e => hbN (hsame (Eq.symm e)))]
      refine rwp_bind (rwp_liftE' ?_)
      show rwp _ _ _ _ _
      refine rwp_bind (rwp_modify ?_)
      have h3 := h2.reserve hpnd (v := -b) (v' := -fl b) fun i _ hi => by
        rw [hrb]
        exact hE.sub b hsb _ (reservedBw_decimal s i) ((hb i (hifs ▸ hi)).trans hE.large)
      have hl3 : (s'.reserveOn path (-b)).lsp = s'.lsp := reserveOn_lsp _ _ _
      have hlt3 : (t'.reserveOnFl fl path (-fl b)).lsp = t'.lsp := by
        rw [reserveOnFl_eq hpnd]
      refine rwp_bind (rwp_get ?_)
      have e3 : (t'.lsp l).path.interfaces = (s'.lsp l).path.interfaces := by
        rw [hlsp']; exact withHd_interfaces _ _
      rw [hl3, hlt3]
      refine rwp_bind (rwp_liftE e3 fun after hafter => ?_)
      rw [hpath'] at hafter
      cases hafter
      rw [hres', e2]
      refine rwp_bind (rwp_liftE' ?_)
      show rwp _ _ _ _ _
      refine rwp_modify (h3.reserve hp fun i _ hi => ?_)
      refine hE.plus N hsN _ (reservedBw_decimal _ i) ?_
      rw [reserveOn_reservedBw hpnd]
      have hi' : i ∈ s.ifs := by rw [(LspFrame.reserveOn s' path (-b)).ifs, hifs] at hi; exact hi
      rw [hrb]
      split
      · exact hE.less b hsb _ (hb i hi')
      · exact (hb i hi').trans hE.large

/-! ### Groups and the whole phase -/

theorem rwp_and_left {α β : Type} {f : Py α} {g : Py β} {Q : α → β → State → State → Prop}
    {R : α → State → Prop} {E : Exn → State → Prop} {s t : State} (h : rwp f g Q s t)
    (hw : wp f R E s) : rwp f g (fun a b s' t' => Q a b s' t' ∧ R a s') s t := by
  unfold rwp at h ⊢
  unfold wp at hw
  cases hf : f s <;> cases hg : g t <;> simp only [hf, hg] at h hw ⊢
  · exact ⟨h, hw⟩
  · exact h

/-- the total of a demand group as it is computed -/
def groupTotalFl (fl : ℚ → ℚ) (env : Env) (s : State) (key : String) : ℚ :=
  match dictGet (s.demandGroups env) key with
  | some ds => sumFl fl (ds.map fun d => (s.dmd d).traffic)
  | none => 0

/-- the invariant both loops keep -/
structure Kept (fl : ℚ → ℚ) (env : Env) (s : State) (Inv : List ℕ → State → Prop) (done : List ℕ)
    (u v : State) : Prop where
  rel : FRel fl s {l | l ∈ done} u v
  inv : GroupInv env s Inv done u

theorem Kept.group {env : Env} {s : State} (hE : Exactly fl env s K₀ K) (hs : Sane s)
    {Inv : List ℕ → State → Prop} (R : LspRule env s Inv)
    (hInv : ∀ done t, LspFrame (startLsps env s) t → Inv done t → Within K₀ t ∧ Basic s done t)
    {a b : String} {grp : String × List ℕ} (hkey : grp.1 = pairKey a b)
    (hgrp : grp.2 = between s.lsps s.lspSrc s.lspDst a b) (hnd : s.lsps.Nodup) {done : List ℕ}
    (hdis : ∀ l ∈ grp.2, l ∉ done) {t t' : State} (ht : Kept fl env s Inv done t t') :
    rwp (routeGroup env (s.demandGroups env) grp) (routeGroupFl fl env (s.demandGroups env) grp)
      (fun _ _ u v => Kept fl env s Inv (done ++ grp.2) u v) t t' := by
  have hgnd : grp.2.Nodup := by rw [hgrp]; exact hnd.filter _
  have hmem : ∀ l ∈ grp.2, l ∈ s.lsps ∧ s.lspSrc l = a ∧ s.lspDst l = b := by
    intro l hl; rw [hgrp] at hl; exact mem_between.1 hl
  have hpeers : ∀ l ∈ grp.2, s.peers l = grp.2 := by
    intro l hl
    obtain ⟨-, h1, h2⟩ := hmem l hl
    unfold State.peers; rw [h1, h2, hgrp]
  have htot : ∀ l ∈ grp.2, totalFor env s l = groupTotal env s grp.1 := by
    intro l hl
    obtain ⟨-, h1, h2⟩ := hmem l hl
    unfold totalFor; rw [h1, h2, hkey]
  unfold routeGroup routeGroupFl
  refine rwp_bind (rwp_get ?_)
  have hdmd : t.dmd = s.dmd := ht.inv.frame.dmd
  have hdmd' : t'.dmd = s.dmd := by
    obtain ⟨o, e, -⟩ := ht.rel.eq
    rw [e, ← hdmd]; rfl
  have hsum : groupTotalFl fl env s grp.1 = groupTotal env s grp.1 := by
    unfold groupTotal groupTotalFl
    cases hd : dictGet (s.demandGroups env) grp.1 with
    | none => rfl
    | some ds => exact hE.total _ _ hd
  simp only []
  rw [hdmd, hdmd']
  change rwp (forEach grp.2 (signalLsp env (if 0 < groupTotal env s grp.1 then
      groupTotal env s grp.1 / grp.2.length else 0)) >>= fun _ => get >>= fun u =>
      (if (grp.2.filter fun l => (u.lsp l).path ≠ .unrouted).length ≠ grp.2.length ∧
          0 < (grp.2.filter fun l => (u.lsp l).path ≠ .unrouted).length then
        forEach (grp.2.filter fun l => (u.lsp l).path ≠ .unrouted) (reoptLsp env
          (groupTotal env s grp.1 /
            (grp.2.filter fun l => (u.lsp l).path ≠ .unrouted).length))
      else pure ()))
    (forEach grp.2 (signalLspFl fl env (if 0 < groupTotalFl fl env s grp.1 then
      fl (groupTotalFl fl env s grp.1 / grp.2.length) else 0)) >>= fun _ => get >>= fun u =>
      (if (grp.2.filter fun l => (u.lsp l).path ≠ .unrouted).length ≠ grp.2.length ∧
          0 < (grp.2.filter fun l => (u.lsp l).path ≠ .unrouted).length then
        forEach (grp.2.filter fun l => (u.lsp l).path ≠ .unrouted) (reoptLspFl fl env
          (fl (groupTotalFl fl env s grp.1 /
            (grp.2.filter fun l => (u.lsp l).path ≠ .unrouted).length)))
      else pure ())) _ t t'
  rw [hsum]
  have heach : (if 0 < groupTotal env s grp.1 then fl (groupTotal env s grp.1 / grp.2.length)
      else 0) = fl (if 0 < groupTotal env s grp.1 then
      groupTotal env s grp.1 / grp.2.length else 0) := by
    split
    · rfl
    · exact hE.zero.symm
  rw [heach]
  generalize hT : groupTotal env s grp.1 = T at *
  have hshare : ∀ l ∈ grp.2, shareOf env s l = if 0 < T then T / grp.2.length else 0 := by
    intro l hl; unfold shareOf; rw [htot l hl, hpeers l hl]
  have hloop := rwp_forEach (s := t) (t := t')
    (I := fun pre u v => Kept fl env s Inv (done ++ pre) u v ∧ ∀ l ∈ pre,
      (u.lsp l).path = .unrouted ∨
      (∃ p c m, (u.lsp l).path = .routed p c m) ∧
        (u.lsp l).reserved = .val (askedBw s (shareOf env s l) l))
    (f := signalLsp env (if 0 < T then T / grp.2.length else 0))
    (g := signalLspFl fl env (fl (if 0 < T then T / grp.2.length else 0))) grp.2 [] ?_ ?_
  · refine rwp_bind (rwp_mono hloop ?_)
    rintro _ _ u u' ⟨hu, hst⟩
    simp only [List.nil_append] at hu hst
    refine rwp_bind (rwp_get ?_)
    have hpu : (grp.2.filter fun l => (u'.lsp l).path ≠ .unrouted) =
        grp.2.filter fun l => (u.lsp l).path ≠ .unrouted := by
      refine List.filter_congr fun l _ => ?_
      simp only [ne_eq, decide_not, hu.rel.path l]
    simp only [hpu]
    generalize hR : grp.2.filter (fun l => (u.lsp l).path ≠ .unrouted) = routed
    by_cases hc : routed.length ≠ grp.2.length ∧ 0 < routed.length
    · rw [if_pos hc, if_pos hc]
      have hlt : routed.length < grp.2.length := by
        have : routed.length ≤ grp.2.length := by rw [← hR]; exact List.length_filter_le _ _
        omega
      obtain ⟨l', hl', hun⟩ : ∃ l' ∈ grp.2, (u.lsp l').path = .unrouted := by
        by_contra hcon
        push Not at hcon
        have : routed = grp.2 := by
          rw [← hR, List.filter_eq_self]
          intro l hl; simpa using hcon l hl
        rw [this] at hlt; omega
      have hrsub : ∀ l ∈ routed, l ∈ grp.2 ∧ (u.lsp l).path ≠ .unrouted := by
        intro l hl; rw [← hR, List.mem_filter] at hl; simpa using hl
      have hrnd : routed.Nodup := by rw [← hR]; exact hgnd.filter _
      have hl'r : l' ∉ routed := fun h => (hrsub l' h).2 hun
      have hloop2 := rwp_forEach (s := u) (t := u')
        (I := fun pre v v' => Kept fl env s Inv (done ++ grp.2) v v' ∧ (∀ l, l ∉ pre →
          v.lsp l = u.lsp l) ∧
          ∀ l, ((v.lsp l).path = .unrouted ↔ (u.lsp l).path = .unrouted))
        (f := reoptLsp env (T / routed.length)) (g := reoptLspFl fl env (fl (T / routed.length)))
        routed [] ?_ ⟨hu, fun _ _ => rfl, fun _ => Iff.rfl⟩
      · exact rwp_mono hloop2 fun _ _ v v' hv => hv.1
      · rintro pre l post heq v v' ⟨hv, hvo, hvu⟩
        simp only [List.nil_append] at hvo ⊢
        have hlr : l ∈ routed := by rw [heq]; simp
        have hlpre : l ∉ pre := by
          rw [heq, List.nodup_append] at hrnd
          intro h; exact hrnd.2.2 l h l (by simp) rfl
        have hl'pre : l' ∉ pre := fun h => hl'r (by rw [heq]; simp [h])
        have hlg := (hrsub l hlr).1
        have hlm := hmem l hlg
        have hlm' := hmem l' hl'
        have hsane : Sane v := hv.inv.frame.sane (startLsps_sane hs)
        have hresv : (v.lsp l).reserved = .val (askedBw s (shareOf env s l) l) := by
          rw [hvo l hlpre]
          rcases hst l hlg with h | h
          · exact absurd h (hrsub l hlr).2
          · exact h.2
        obtain ⟨hwithin, hbasic⟩ := hInv _ _ hv.inv.frame hv.inv.inv
        have hstep := hv.rel.reopt hE hsane hwithin (l := l) (List.mem_append_right _ hlg) hlm.1
          (fun p c hd e => by
            rcases hbasic.placed l (List.mem_append_right _ hlg) with ⟨h1, -⟩ | ⟨q, c', h', x, h1, -, -, h4, -⟩
            · rw [e] at h1; cases h1
            · rw [e] at h1; cases h1; exact h4) hresv hc.2 (by rw [hpeers l hlg]; exact hlt)
        rw [htot l hlg] at hstep
        refine rwp_mono (rwp_and_left hstep (reoptLsp_spec hsane)) ?_
        rintro _ _ w w' ⟨hrel, hw⟩
        refine ⟨⟨hrel, hv.inv.frame.trans hw.frame, ?_, ?_⟩, ?_, ?_⟩
        · refine R.reopt (done ++ grp.2) l l' routed.length v w hv.inv.frame hv.inv.inv hlm.1
            (by simp [hlg]) (by simp [hl']) hlm'.1 (hlm'.2.1.trans hlm.2.1.symm)
            (hlm'.2.2.trans hlm.2.2.symm) ?_ hresv hc.2 ?_ ?_ ?_
          · rw [hvo l' hl'pre]; exact hun
          · rw [hpeers l hlg]; exact hlt
          · rw [hpeers l hlg]
            refine ⟨fun m hm => List.mem_append_right _ hm, ?_⟩
            rw [← hR]
            congr 1
            refine List.filter_congr fun m _ => ?_
            simp only [ne_eq, decide_not, hvu m]
          · rw [htot l hlg]; exact hw
        · intro m hm
          have : m ≠ l := by rintro rfl; exact hm (by simp [hlg])
          rw [hw.other this]
          exact hv.inv.rest m hm
        · intro m hm
          have hml : m ≠ l := by rintro rfl; exact hm (by simp)
          rw [hw.other hml]
          exact hvo m (fun h => hm (by simp [h]))
        · intro m
          by_cases hml : m = l
          · subst hml
            rw [← hvu m]
            have h1 := hw.routed_before
            have h2 := hw.routed_after
            exact ⟨fun h => absurd h h2, fun h => absurd h h1⟩
          · rw [hw.other hml]; exact hvu m
    · rw [if_neg hc, if_neg hc]
      exact rwp_pure hu
  · rintro pre l post heq u u' ⟨hu, hst⟩
    simp only [List.nil_append] at hu hst ⊢
    have hlg : l ∈ grp.2 := by rw [heq]; simp
    have hlpre : l ∉ pre := by
      rw [heq, List.nodup_append] at hgnd
      intro h; exact hgnd.2.2 l h l (by simp) rfl
    have hld : l ∉ done ++ pre := by
      intro h
      rcases List.mem_append.1 h with h | h
      · exact hdis l hlg h
      · exact hlpre h
    have hsane : Sane u := hu.inv.frame.sane (startLsps_sane hs)
    have hlu := hu.inv.rest l hld
    have hask : askedBw u (if 0 < T then T / grp.2.length else 0) l =
        askedBw s (shareOf env s l) l := by
      unfold askedBw; rw [hlu, hshare l hlg]
    have hstep := hu.rel.signal hE hsane (hInv _ _ hu.inv.frame hu.inv.inv).1 (l := l)
      (traff := if 0 < T then T / grp.2.length else 0)
      (.inr ⟨l, (hmem l hlg).1, .inl hask⟩)
    refine rwp_mono (rwp_and_left hstep (signalLsp_spec hsane)) ?_
    rintro _ _ w w' ⟨hrel, hw⟩
    rw [hask] at hw
    have e : insert l {m | m ∈ done ++ pre} = {m | m ∈ done ++ (pre ++ [l])} := by
      ext m; simp; tauto
    rw [e] at hrel
    refine ⟨⟨hrel, hu.inv.frame.trans hw.frame, ?_, ?_⟩, ?_⟩
    · rw [← List.append_assoc]
      exact R.signal (done ++ pre) l u w hu.inv.frame hu.inv.inv (hmem l hlg).1 hld hlu hw
    · intro m hm
      have hml : m ≠ l := by rintro rfl; exact hm (by simp)
      rw [hw.other hml]
      exact hu.inv.rest m (fun h => hm (by rw [← List.append_assoc]; exact List.mem_append_left _ h))
    · intro m hm
      by_cases hml : m = l
      · subst hml; exact hw.self
      · rw [hw.other hml]
        refine hst m ?_
        rcases List.mem_append.1 hm with h | h
        · exact h
        · exact absurd (List.mem_singleton.1 h) hml
  · exact ⟨by simpa using ht, by simp⟩

/-- the LSP phase in floating point goes in step with the exact one -/
theorem routeLspsFl_rel {env : Env} {s : State} (hE : Exactly fl env s K₀ K) (hs : Sane s)
    (hnd : s.lsps.Nodup) (hg : s.groups = []) {Inv : List ℕ → State → Prop} (R : LspRule env s Inv)
    (hInv : ∀ done t, LspFrame (startLsps env s) t → Inv done t → Within K₀ t ∧ Basic s done t) :
    rwp (routeLsps env) (routeLspsFl fl env) (fun _ _ u v => ∃ done, Kept fl env s Inv done u v ∧
      ∀ l, l ∈ done ↔ ∃ g ∈ buildGroups env s.lsps s.lspSrc s.lspDst, l ∈ g.2) s s := by
  unfold routeLsps routeLspsFl
  refine rwp_bind (rwp_modify ?_)
  have h1 : lspGroups env s.clearReserved =
      .ok (buildGroups env s.lsps s.lspSrc s.lspDst) (startLsps env s) := by
    unfold lspGroups
    have : s.clearReserved.groups = [] := hg
    rw [this]
    simp only [ne_eq, not_true_eq_false, if_false]
    rfl
  refine rwp_bind ?_
  unfold rwp
  rw [h1]
  simp only []
  refine rwp_bind (rwp_get ?_)
  generalize hG : buildGroups env s.lsps s.lspSrc s.lspDst = G at *
  have hGnd : (G.map Prod.fst).Nodup := by rw [← hG]; exact nodup_buildGroups ..
  have hGspec : ∀ g ∈ G, ∃ a b, g.1 = pairKey a b ∧
      g.2 = between s.lsps s.lspSrc s.lspDst a b := by
    rintro ⟨k, l⟩ hg'
    have := dictGet_of_mem hGnd hg'
    rw [← hG] at this
    obtain ⟨a, b, h1, -, -, h2, -⟩ := dictGet_buildGroups_some this
    exact ⟨a, b, h1, h2⟩
  have hdg : State.demandGroups (startLsps env s) env = s.demandGroups env := rfl
  rw [hdg]
  have hloop := rwp_forEach (s := startLsps env s) (t := startLsps env s)
    (I := fun pre u v => ∃ done, Kept fl env s Inv done u v ∧
      ∀ l, l ∈ done ↔ ∃ g ∈ pre, l ∈ g.2)
    (f := routeGroup env (s.demandGroups env))
    (g := routeGroupFl fl env (s.demandGroups env)) G [] ?_ ?_
  · simpa using hloop
  · rintro pre g post heq u u' ⟨done, hu, hdone⟩
    simp only [List.nil_append] at hdone ⊢
    obtain ⟨a, b, hk, hgl⟩ := hGspec g (by rw [heq]; simp)
    refine rwp_mono (Kept.group hE hs R hInv hk hgl hnd ?_ hu) ?_
    · intro l hl hld
      obtain ⟨g', hg', hl'⟩ := (hdone l).1 hld
      obtain ⟨a', b', hk', hgl'⟩ := hGspec g' (by rw [heq]; simp [hg'])
      rw [hgl] at hl
      rw [hgl'] at hl'
      obtain ⟨-, e1, e2⟩ := mem_between.1 hl
      obtain ⟨-, e3, e4⟩ := mem_between.1 hl'
      have : g'.1 = g.1 := by rw [hk, hk', ← e1, ← e2, ← e3, ← e4]
      rw [heq, List.map_append, List.map_cons, List.nodup_append] at hGnd
      exact hGnd.2.2 g'.1 (List.mem_map.2 ⟨g', hg', rfl⟩) g.1 (by simp) this
    · intro _ _ v v' hv
      refine ⟨done ++ g.2, hv, fun l => ?_⟩
      rw [List.mem_append, hdone l]
      constructor
      · rintro (⟨g', h1, h2⟩ | h)
        · exact ⟨g', by simp [h1], h2⟩
        · exact ⟨g, by simp, h⟩
      · rintro ⟨g', h1, h2⟩
        rcases List.mem_append.1 h1 with h1 | h1
        · exact .inl ⟨g', h1, h2⟩
        · rw [List.mem_singleton.1 h1] at h2; exact .inr h2
  · refine ⟨[], ⟨⟨⟨_, startLsps_frame env s⟩, ⟨fun i => (startLsps env s |>.ifc i).reservedRaw,
      fun l => match (s.lsp l).path with | .routed _ _ h => h | _ => 0,
      fun l => (s.lsp l).reserved, fun l => (s.lsp l).setup⟩, ?_, fun i _ => rfl, by simp⟩,
      LspFrame.refl _, R.init, fun _ _ => rfl⟩, by simp⟩
    unfold State.gloss startLsps
    simp only [State.mk.injEq, true_and, and_true]
    funext l
    rw [show s.clearReserved.lsp = s.lsp from rfl]
    cases hx : s.lsp l with
    | mk a b c path e f g h i => cases path <;> rfl

end

end NTM
