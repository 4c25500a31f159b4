import Verif.Model.Float
import Verif.Spec.Float
import Verif.Proof.Outcome
import Verif.Proof.LoadSum
import Mathlib.Tactic.Linarith
import Mathlib.Tactic.Ring
import Mathlib.Algebra.Order.Ring.Abs

/-!
# The load phase in floating point
-/

namespace NTM

open Spec

variable {u : ℚ} {fl : ℚ → ℚ}

/-- `y` is within `n` roundings of `x` -/
def Near (u : ℚ) (n : ℕ) : Traffic → Traffic → Prop
  | .down, .down => True
  | .val x, .val y => 0 ≤ x ∧ |y - x| ≤ ((1 + u) ^ n - 1) * x
  | _, _ => False

theorem one_le_pow' (hu : 0 ≤ u) (n : ℕ) : 1 ≤ (1 + u) ^ n := one_le_pow₀ (by linarith)

theorem near_mono (hu : 0 ≤ u) {n m : ℕ} (h : n ≤ m) {a b : Traffic} (hn : Near u n a b) :
    Near u m a b := by
  cases a <;> cases b <;> try exact hn
  next x y =>
    obtain ⟨h1, h2⟩ := hn
    have : (1 + u) ^ n ≤ (1 + u) ^ m := pow_le_pow_right₀ (by linarith) h
    exact ⟨h1, h2.trans (mul_le_mul_of_nonneg_right (by linarith) h1)⟩

theorem near_add (hf : FloatRounding u fl) {n : ℕ} (hn : 1 ≤ n) {x y q q' : ℚ} (hx : 0 ≤ x)
    (hy : |y - x| ≤ ((1 + u) ^ n - 1) * x) (hq : 0 ≤ q) (hq' : |q' - q| ≤ u * q) :
    |fl (y + q') - (x + q)| ≤ ((1 + u) ^ (n + 1) - 1) * (x + q) := by
  have hu := hf.unit
  set A := (1 + u) ^ n with hA
  have hA1 : 1 + u ≤ A := by
    calc 1 + u = (1 + u) ^ 1 := (pow_one _).symm
      _ ≤ A := pow_le_pow_right₀ (by linarith) hn
  have h0 : 0 ≤ x + q := add_nonneg hx hq
  have h1 : |(y + q') - (x + q)| ≤ (A - 1) * (x + q) := by
    have e : (y + q') - (x + q) = (y - x) + (q' - q) := by ring
    rw [e]
    refine (abs_add_le _ _).trans ?_
    have : u * q ≤ (A - 1) * q := mul_le_mul_of_nonneg_right (by linarith) hq
    nlinarith
  have h2 : |y + q'| ≤ A * (x + q) := by
    have e : y + q' = ((y + q') - (x + q)) + (x + q) := by ring
    rw [e]
    refine (abs_add_le _ _).trans ?_
    rw [abs_of_nonneg h0]
    nlinarith
  have h3 := hf.close (y + q')
  have e : fl (y + q') - (x + q) = (fl (y + q') - (y + q')) + ((y + q') - (x + q)) := by ring
  rw [e]
  refine (abs_add_le _ _).trans ?_
  have h4 : u * |y + q'| ≤ u * (A * (x + q)) := mul_le_mul_of_nonneg_left h2 hu
  have e2 : (1 + u) ^ (n + 1) = A * (1 + u) := by rw [pow_succ]
  rw [e2]
  nlinarith

/-- `s` is `s0` with other traffic and details -/
structure IsLoad (s0 s : State) : Prop where
  dmd : ∀ d, s.dmd d = { s0.dmd d with detail := (s.dmd d).detail }
  eq : s = s0.withLoad s.dmd fun i => (s.ifc i).traffic

theorem IsLoad.refl (s : State) : IsLoad s s := ⟨fun _ => rfl, rfl⟩

theorem IsLoad.updIfc {s0 s : State} (h : IsLoad s0 s) (i : ℕ) (v : Traffic) :
    IsLoad s0 (s.updIfc i fun x => { x with traffic := v }) := by
  refine ⟨h.dmd, ?_⟩
  conv_lhs => rw [h.eq]
  unfold State.updIfc State.withLoad
  simp only []
  congr 1
  funext j
  have e : s.ifc j = { s0.ifc j with traffic := (s.ifc j).traffic } := by
    conv_lhs => rw [h.eq]
    rfl
  by_cases hj : j = i <;> simp [hj]

theorem IsLoad.updDmd {s0 s : State} (h : IsLoad s0 s) (d : ℕ) (f : Dmd → Dmd)
    (hf : ∀ x, f x = { x with detail := (f x).detail }) : IsLoad s0 (s.updDmd d f) := by
  constructor
  · intro e
    unfold State.updDmd
    simp only []
    by_cases he : e = d
    · simp only [he, if_true]
      rw [hf, h.dmd d]
    · simp only [he, if_false]
      exact h.dmd e
  · have := h.eq
    unfold State.updDmd
    conv_lhs => rw [this]
    rfl

/-- an exact and a floating point run at the same point; `c i` counts the roundings -/
structure Track (u : ℚ) (s0 : State) (c : ℕ → ℕ) (s t : State) : Prop where
  left : IsLoad s0 s
  right : IsLoad s0 t
  one : ∀ i, 1 ≤ c i
  near : ∀ i ∈ s0.ifs, Near u (c i) (s.ifc i).traffic (t.ifc i).traffic

theorem Track.mono (hu : 0 ≤ u) {s0 s t : State} {c c' : ℕ → ℕ} (h : Track u s0 c s t)
    (hc : ∀ i, c i ≤ c' i) : Track u s0 c' s t :=
  ⟨h.left, h.right, fun i => (h.one i).trans (hc i), fun i hi => near_mono hu (hc i) (h.near i hi)⟩

theorem Track.add (hf : FloatRounding u fl) {s0 s t s1 t1 : State} {c : ℕ → ℕ}
    (h : Track u s0 c s t) {i : ℕ} {q q' : ℚ} (hq : 0 ≤ q) (hq' : |q' - q| ≤ u * q)
    (h1 : addTraffic i q s = .ok () s1) (h2 : addTrafficFl fl i q' t = .ok () t1) :
    Track u s0 (fun j => c j + if j = i then 1 else 0) s1 t1 := by
  unfold addTraffic at h1
  unfold addTrafficFl at h2
  cases hs : (s.ifc i).traffic with
  | down => rw [hs] at h1; cases h1
  | val x =>
    cases ht : (t.ifc i).traffic with
    | down => rw [ht] at h2; cases h2
    | val y =>
      rw [hs] at h1
      rw [ht] at h2
      cases h1
      cases h2
      refine ⟨h.left.updIfc i _, h.right.updIfc i _, fun j => (h.one j).trans (by omega), ?_⟩
      intro j hj
      have hn := h.near j hj
      by_cases e : j = i
      · subst e
        rw [hs, ht] at hn
        simp only [State.updIfc, if_true]
        exact ⟨add_nonneg hn.1 hq, near_add hf (h.one j) hn.1 hn.2 hq hq'⟩
      · simp only [State.updIfc, e, if_false, add_zero]
        exact hn

theorem forEach_nil_inv {β : Type} {f : β → Py Unit} {s t : State}
    (h : forEach [] f s = .ok () t) : t = s := by
  cases h; rfl

theorem forEach_cons_inv {β : Type} {f : β → Py Unit} {b : β} {bs : List β} {s t : State}
    (h : forEach (b :: bs) f s = .ok () t) :
    ∃ m, f b s = .ok () m ∧ forEach bs f m = .ok () t := by
  have h' : (f b >>= fun _ => forEach bs f) s = .ok () t := h
  obtain ⟨_, m, h1, h2⟩ := py_bind_inv h'
  exact ⟨m, h1, h2⟩

theorem Track.forEach (hu : 0 ≤ u) {β γ : Type} {f : β → Py Unit} {g : γ → Py Unit}
    {R : β → γ → Prop} {N : β → ℕ → ℕ} {s0 : State}
    (step : ∀ b b', R b b' → ∀ c s t s1 t1, Track u s0 c s t → f b s = .ok () s1 →
      g b' t = .ok () t1 → Track u s0 (fun i => c i + N b i) s1 t1)
    {bs : List β} {bs' : List γ} (hR : List.Forall₂ R bs bs') {c : ℕ → ℕ} {s t s1 t1 : State}
    (h : Track u s0 c s t) (h1 : NTM.forEach bs f s = .ok () s1)
    (h2 : NTM.forEach bs' g t = .ok () t1) :
    Track u s0 (fun i => c i + (bs.map fun b => N b i).sum) s1 t1 := by
  induction hR generalizing c s t with
  | nil =>
    rw [forEach_nil_inv h1, forEach_nil_inv h2]
    simpa using h
  | cons hb _ ih =>
    obtain ⟨s2, e1, e2⟩ := forEach_cons_inv h1
    obtain ⟨t2, e3, e4⟩ := forEach_cons_inv h2
    refine (ih (step _ _ hb c s t s2 t2 h e1 e3) e2 e4).mono hu fun i => ?_
    simp only [List.map_cons, List.sum_cons]
    omega

theorem count_sum (l : List ℕ) (i : ℕ) : (l.map fun j => if i = j then 1 else 0).sum = l.count i := by
  induction l with
  | nil => rfl
  | cons j l ih =>
    rw [List.map_cons, List.sum_cons, ih, List.count_cons]
    by_cases h : i = j
    · subst h; simp; omega
    · have : ¬ (j = i) := fun e => h e.symm
      simp [h, this]

theorem forall₂_refl {α : Type} {R : α → α → Prop} (h : ∀ a, R a a) (l : List α) :
    List.Forall₂ R l l := by
  induction l with
  | nil => exact .nil
  | cons a l ih => exact .cons (h a) ih

theorem Track.addAll (hf : FloatRounding u fl) {s0 s t s1 t1 : State} {c : ℕ → ℕ}
    (h : Track u s0 c s t) {ifs : List ℕ} {q q' : ℚ} (hq : 0 ≤ q) (hq' : |q' - q| ≤ u * q)
    (h1 : NTM.forEach ifs (fun i => addTraffic i q) s = .ok () s1)
    (h2 : NTM.forEach ifs (fun i => addTrafficFl fl i q') t = .ok () t1) :
    Track u s0 (fun i => c i + ifs.count i) s1 t1 := by
  have := Track.forEach hf.unit (R := fun a b : ℕ => a = b)
    (N := fun j i => if i = j then 1 else 0)
    (fun b b' e c s t s1 t1 h h1 h2 => by
      subst e
      exact h.add hf hq hq' h1 h2) (forall₂_refl (fun _ => rfl) ifs) h h1 h2
  simpa only [count_sum] using this

theorem IsLoad.lsp {s0 s : State} (h : IsLoad s0 s) : s.lsp = s0.lsp := by rw [h.eq]; rfl
theorem IsLoad.kind {s0 s : State} (h : IsLoad s0 s) : s.kind = s0.kind := by rw [h.eq]; rfl
theorem IsLoad.lspIfs {s0 s : State} (h : IsLoad s0 s) (l : ℕ) : s.lspIfs l = s0.lspIfs l := by
  unfold State.lspIfs; rw [h.lsp]
theorem IsLoad.tail {s0 s : State} (h : IsLoad s0 s) : s.itemTail = s0.itemTail := by
  rw [h.eq]
  funext x
  cases x <;> rfl
theorem IsLoad.dmdSrc {s0 s : State} (h : IsLoad s0 s) (d : ℕ) : s.dmdSrc d = s0.dmdSrc d := by
  unfold State.dmdSrc; rw [h.dmd d]; rw [h.eq]; rfl
theorem IsLoad.dmdDst {s0 s : State} (h : IsLoad s0 s) (d : ℕ) : s.dmdDst d = s0.dmdDst d := by
  unfold State.dmdDst; rw [h.dmd d]; rw [h.eq]; rfl
theorem IsLoad.riding {s0 s : State} (h : IsLoad s0 s) {key : String} {ls : List ℕ} :
    RidingOf s key ls ↔ RidingOf s0 key ls := by rw [h.eq]; exact RidingOf.withLoad
theorem IsLoad.fresh {env : Env} {s0 s : State} (h : IsLoad s0 s) (hg : GroupsFresh env s0) :
    GroupsFresh env s := by rw [h.eq]; exact hg

/-- one rounding of every path traffic -/
theorem pathInfos_near (hf : FloatRounding u fl) {deg : String → ℕ} {tail : Item → String} {q : ℚ}
    (hq : 0 ≤ q) {paths : List (List Item)} {det det' : List PathInfo}
    (h : pathInfos id deg tail q paths = .ok det) (h' : pathInfos fl deg tail q paths = .ok det') :
    List.Forall₂ (fun a b => a.items = b.items ∧ 0 ≤ a.traffic ∧
      |b.traffic - a.traffic| ≤ u * a.traffic) det det' := by
  induction paths generalizing det det' with
  | nil => cases h; cases h'; exact .nil
  | cons p ps ih =>
    have g := pathInfos_forall h
    have g' := pathInfos_forall h'
    unfold pathInfos at h h'
    cases hp : pathInfo id deg tail q p with
    | error e => rw [hp] at h; cases h
    | ok a =>
    cases hp' : pathInfo fl deg tail q p with
    | error e => rw [hp'] at h'; cases h'
    | ok b =>
    rw [hp] at h
    rw [hp'] at h'
    simp only [] at h h'
    cases hps : pathInfos id deg tail q ps with
    | error e => rw [hps] at h; cases h
    | ok as =>
    cases hps' : pathInfos fl deg tail q ps with
    | error e => rw [hps'] at h'; cases h'
    | ok bs =>
    rw [hps] at h
    rw [hps'] at h'
    cases h
    cases h'
    refine .cons ?_ (ih hps hps')
    obtain ⟨e1, -, m, e2, e3⟩ := pathInfo_ok hp
    obtain ⟨f1, -, m', f2, f3⟩ := pathInfo_ok hp'
    rw [e2] at f2
    cases f2
    have hm : 0 ≤ q / m := div_nonneg hq (Nat.cast_nonneg m)
    refine ⟨e1.trans f1.symm, by rw [e3]; exact hm, ?_⟩
    rw [e3, f3]
    have := hf.close (q / m)
    rwa [abs_of_nonneg hm] at this

/-- hops of the paths, counted by item -/
theorem timesOver_items (s : State) (paths : List (List ℕ)) (i : ℕ) :
    ((itemSet (paths.map fun p => p.map Item.ifc)).map fun x => match x with
      | .ifc j => if i = j then (paths.filter fun p => Item.ifc j ∈ p.map Item.ifc).length else 0
      | .lsp _ => 0).sum ≤ ((paths.map fun p => p.map Item.ifc).map fun p => timesOver s p i).sum := by
  set I := itemSet (paths.map fun p => p.map Item.ifc) with hI
  have hnd : I.Nodup := List.nodup_dedup _
  have h1 : ((paths.filter fun p => Item.ifc i ∈ p.map Item.ifc).length : ℕ) ≤
      ((paths.map fun p => p.map Item.ifc).map fun p => timesOver s p i).sum := by
    clear hnd hI I
    induction paths with
    | nil => simp
    | cons p ps ih =>
      simp only [List.map_cons, List.sum_cons]
      rw [List.filter_cons]
      have hp : Item.ifc i ∈ p.map Item.ifc → 1 ≤ timesOver s (p.map Item.ifc) i := by
        intro hm
        have hm' : i ∈ p := by simpa using hm
        unfold timesOver
        rw [List.map_map]
        have hc := count_sum p i
        have : 0 < p.count i := List.count_pos_iff.2 hm'
        exact (hc ▸ this : 0 < (p.map fun j => if i = j then 1 else 0).sum)
      split
      · next hm =>
        have := hp (by simpa using hm)
        simp only [List.length_cons]
        omega
      · omega
  refine le_trans ?_ h1
  have : ∀ I : List Item, I.Nodup → (I.map fun x => match x with
      | .ifc j => if i = j then (paths.filter fun p => Item.ifc j ∈ p.map Item.ifc).length else 0
      | .lsp _ => 0).sum ≤ (paths.filter fun p => Item.ifc i ∈ p.map Item.ifc).length := by
    intro I
    induction I with
    | nil => intro _; simp
    | cons x I ih =>
      intro hn
      rw [List.nodup_cons] at hn
      rw [List.map_cons, List.sum_cons]
      cases x with
      | lsp l => simpa using ih hn.2
      | ifc j =>
        by_cases e : i = j
        · subst e
          simp only [if_true]
          have : (I.map fun x => match x with
            | .ifc j => if i = j then (paths.filter fun p => Item.ifc j ∈ p.map Item.ifc).length else 0
            | .lsp _ => 0).sum = 0 := by
            refine List.sum_eq_zero fun n hn' => ?_
            obtain ⟨y, hy, rfl⟩ := List.mem_map.1 hn'
            cases y with
            | lsp l => rfl
            | ifc k =>
              have : i ≠ k := by rintro rfl; exact hn.1 hy
              simp [this]
          omega
        · simp only [e, if_false, zero_add]
          exact ih hn.2
  exact this I hnd

/-- one item of an IGP path in a FlexModel -/
theorem Track.item (hf : FloatRounding u fl) {s0 s t s1 t1 : State} {c : ℕ → ℕ}
    (h : Track u s0 c s t) {det det' : List PathInfo} {j : ℕ}
    (hd : List.Forall₂ (fun a b : PathInfo => a.items = b.items ∧ 0 ≤ a.traffic ∧
      |b.traffic - a.traffic| ≤ u * a.traffic) det det')
    (h1 : applyItem .flex det (.ifc j) s = .ok () s1)
    (h2 : applyItemFl fl .flex det' (.ifc j) t = .ok () t1) :
    Track u s0 (fun i => c i + if i = j then (det.filter fun p => Item.ifc j ∈ p.items).length else 0)
      s1 t1 := by
  have := Track.forEach hf.unit (N := fun (p : PathInfo) i =>
      if i = j then (if Item.ifc j ∈ p.items then 1 else 0) else 0)
    (fun b b' e c s t s1 t1 h h1 h2 => by
      obtain ⟨e1, e2, e3⟩ := e
      rw [← e1] at h2
      by_cases hm : Item.ifc j ∈ b.items
      · rw [if_pos hm] at h1 h2
        refine (h.add hf e2 e3 h1 h2).mono hf.unit fun i => ?_
        simp [hm]
      · rw [if_neg hm] at h1 h2
        cases h1
        cases h2
        simpa [hm] using h) hd h h1 h2
  refine this.mono hf.unit fun i => ?_
  by_cases e : i = j
  · simp only [e, if_true]
    refine Nat.add_le_add_left ?_ _
    clear this hd h1 h2
    induction det with
    | nil => simp
    | cons p ps ih =>
      rw [List.map_cons, List.sum_cons, List.filter_cons]
      by_cases hm : Item.ifc j ∈ p.items
      · simp [hm]; omega
      · simpa [hm] using ih
  · simp [e]

/-- what the demand phase leaves for the load phase in a FlexModel without shortcuts -/
def PlainPaths (s : State) (d : ℕ) : Prop :=
  ∀ ps, (s.dmd d).path = some ps →
    (∃ ls, ls ≠ [] ∧ RidingOf s (pairKey (s.dmdSrc d) (s.dmdDst d)) ls ∧
      ps = ls.map fun l => [Item.lsp l]) ∨
    (RidingOf s (pairKey (s.dmdSrc d) (s.dmdDst d)) [] ∧ ∃ l : List (List ℕ), ps = l.map fun q => q.map Item.ifc)

/-- one demand -/
theorem Track.demand (hf : FloatRounding u fl) {env : Env} {s0 s t s1 t1 : State} {c : ℕ → ℕ}
    (h : Track u s0 c s t) (hk : s0.kind = .flex) (hg : GroupsFresh env s0) {d : ℕ}
    (hq : 0 ≤ (s0.dmd d).traffic) (hp : PlainPaths s0 d)
    (h1 : loadDemand env d s = .ok () s1) (h2 : loadDemandFl fl env d t = .ok () t1) :
    Track u s0 (fun i => c i + match (s0.dmd d).path with
      | none => 0
      | some ps => (ps.map fun p => timesOver s0 p i).sum) s1 t1 := by
  unfold loadDemand at h1
  unfold loadDemandFl at h2
  rw [py_bind_ok (show (get : Py State) _ = .ok _ _ from rfl)] at h1 h2
  have p1 : (s.dmd d).path = (s0.dmd d).path := by rw [h.left.dmd d]
  have p2 : (t.dmd d).path = (s0.dmd d).path := by rw [h.right.dmd d]
  have q1 : (s.dmd d).traffic = (s0.dmd d).traffic := by rw [h.left.dmd d]
  have q2 : (t.dmd d).traffic = (s0.dmd d).traffic := by rw [h.right.dmd d]
  rw [p1] at h1
  rw [p2] at h2
  cases hpath : (s0.dmd d).path with
  | none =>
    rw [hpath] at h1 h2
    cases h1
    cases h2
    exact h
  | some ps =>
    rw [hpath] at h1 h2
    simp only [] at h1 h2
    rw [h.left.dmdSrc, h.left.dmdDst] at h1
    rw [h.right.dmdSrc, h.right.dmdDst] at h2
    obtain ⟨ls, s2, b1, k1⟩ := py_bind_inv h1
    obtain ⟨ls', t2, b2, k2⟩ := py_bind_inv h2
    clear h1 h2
    obtain ⟨rfl, r1⟩ := of_wp_ok (bestLsps_spec (h.left.fresh hg) _) b1
    obtain ⟨rfl, r2⟩ := of_wp_ok (bestLsps_spec (h.right.fresh hg) _) b2
    rw [h.left.riding] at r1
    rw [h.right.riding] at r2
    have := r1.unique r2
    subst this
    rw [py_bind_ok (show (get : Py State) _ = .ok _ _ from rfl)] at k1 k2
    cases ls with
    | nil =>
      simp only [] at k1 k2
      rw [h.left.kind, h.left.tail, hk, q1] at k1
      rw [h.right.kind, h.right.tail, hk, q2] at k2
      simp only [] at k1 k2
      obtain ⟨det, s3, d1, h1⟩ := py_bind_inv k1
      obtain ⟨det', t3, d2, h2⟩ := py_bind_inv k2
      clear k1 k2
      cases e1 : pathInfos id (outDeg s0.itemTail ps) s0.itemTail (s0.dmd d).traffic ps with
      | error e => rw [e1] at d1; cases d1
      | ok a =>
      cases e2 : pathInfos fl (outDeg s0.itemTail ps) s0.itemTail (s0.dmd d).traffic ps with
      | error e => rw [e2] at d2; cases d2
      | ok b =>
      rw [e1] at d1
      rw [e2] at d2
      cases d1
      cases d2
      obtain ⟨_, s4, m1, k1⟩ := py_bind_inv h1
      obtain ⟨_, t4, m2, k2⟩ := py_bind_inv h2
      clear h1 h2
      cases m1
      cases m2
      obtain ⟨l, hl⟩ : ∃ l : List (List ℕ), ps = l.map fun q => q.map Item.ifc := by
        rcases hp ps hpath with ⟨ls, n, r, -⟩ | ⟨-, h⟩
        · exact absurd (r.unique r1) n
        · exact h
      have hnear := pathInfos_near hf hq e1 e2
      have hitems : ∀ x ∈ itemSet ps, ∃ j, x = Item.ifc j := by
        intro x hx
        unfold itemSet at hx
        rw [List.mem_dedup, List.mem_flatten] at hx
        obtain ⟨p, hp, hx⟩ := hx
        rw [hl] at hp
        obtain ⟨q, -, rfl⟩ := List.mem_map.1 hp
        obtain ⟨j, -, rfl⟩ := List.mem_map.1 hx
        exact ⟨j, rfl⟩
      have hT : Track u s0 c (s2.updDmd d fun x => { x with detail := some det })
          (t2.updDmd d fun x => { x with detail := some det' }) :=
        ⟨h.left.updDmd d _ fun _ => rfl, h.right.updDmd d _ fun _ => rfl, h.one, h.near⟩
      have hself : ∀ L : List Item, (∀ x ∈ L, ∃ j, x = Item.ifc j) →
          List.Forall₂ (fun x y : Item => x = y ∧ ∃ j, x = Item.ifc j) L L := by
        intro L
        induction L with
        | nil => intro _; exact .nil
        | cons x L ih =>
          intro hL
          exact .cons ⟨rfl, hL x (by simp)⟩ (ih fun y hy => hL y (by simp [hy]))
      have := Track.forEach hf.unit (N := fun x i => match x with
          | .ifc j => if i = j then (det.filter fun p => Item.ifc j ∈ p.items).length else 0
          | .lsp _ => 0)
        (fun x y e c s t s1 t1 h h1 h2 => by
          obtain ⟨rfl, j, rfl⟩ := e
          exact h.item hf hnear h1 h2) (hself _ hitems) hT k1 k2
      refine this.mono hf.unit fun i => ?_
      refine Nat.add_le_add_left ?_ _
      rw [hl]
      refine le_trans (le_of_eq ?_) (timesOver_items s0 l i)
      rw [← hl]
      congr 1
      refine List.map_congr_left fun x hx => ?_
      obtain ⟨j, rfl⟩ := hitems x hx
      simp only []
      congr 1
      have hmap := pathInfos_items e1
      have hlen : ∀ (A : List PathInfo) (L : List (List ℕ)), A.map (·.items) = L.map (fun q => q.map Item.ifc) →
          (A.filter fun p => Item.ifc j ∈ p.items).length =
            (L.filter fun p => Item.ifc j ∈ p.map Item.ifc).length := by
        intro A
        induction A with
        | nil =>
          intro L hL
          cases L with
          | nil => rfl
          | cons _ _ => cases hL
        | cons p A ih =>
          intro L hL
          cases L with
          | nil => cases hL
          | cons q L =>
            rw [List.map_cons, List.map_cons, List.cons.injEq] at hL
            rw [List.filter_cons, List.filter_cons, hL.1]
            split <;> simp [ih L hL.2]
      exact hlen det l (hmap.trans hl)
    | cons l0 ls =>
      simp only [] at k1 k2
      rw [q1] at k1
      rw [q2] at k2
      obtain ⟨_, s3, f1, h1⟩ := py_bind_inv k1
      obtain ⟨_, t3, f2, h2⟩ := py_bind_inv k2
      clear k1 k2
      have hps : ps = (l0 :: ls).map fun l => [Item.lsp l] := by
        rcases hp ps hpath with ⟨ls', n, r, e⟩ | ⟨r, -⟩
        · rw [e, r.unique r1]
        · exact absurd (r.unique r1) (by simp)
      have hq0 : 0 ≤ (s0.dmd d).traffic / ((l0 :: ls).length : ℕ) :=
        div_nonneg hq (Nat.cast_nonneg _)
      have hqc := hf.close ((s0.dmd d).traffic / ((l0 :: ls).length : ℕ))
      rw [abs_of_nonneg hq0] at hqc
      have := Track.forEach hf.unit (R := fun a b : ℕ => a = b)
        (N := fun l i => timesOver s0 [Item.lsp l] i)
        (fun x y e c s t s1 t1 h h1 h2 => by
          subst e
          rw [py_bind_ok (show (get : Py State) _ = .ok _ _ from rfl)] at h1 h2
          obtain ⟨ifs, s5, g1, k1⟩ := py_bind_inv h1
          obtain ⟨ifs', t5, g2, k2⟩ := py_bind_inv h2
          clear h1 h2
          rw [h.left.lsp] at g1
          rw [h.right.lsp] at g2
          cases hi : (s0.lsp x).path.interfaces with
          | error e => rw [hi] at g1; cases g1
          | ok is =>
            rw [hi] at g1 g2
            cases g1
            cases g2
            refine (h.addAll hf hq0 hqc k1 k2).mono hf.unit fun i => ?_
            have hifs := interfaces_ok hi
            unfold State.lspIfs at hifs
            unfold timesOver
            unfold LspPath.interfaces at hi
            split at hi <;> cases hi
            next heq => simp [heq]) (forall₂_refl (fun _ => rfl) (l0 :: ls)) h f1 f2
      cases h1
      cases h2
      have hT := this.mono hf.unit (c' := fun i => c i + (ps.map fun p => timesOver s0 p i).sum)
        fun i => by rw [hps, List.map_map]; exact le_refl _
      exact ⟨hT.left.updDmd d _ fun _ => rfl, hT.right.updDmd d _ fun _ => rfl, hT.one, hT.near⟩

end NTM
