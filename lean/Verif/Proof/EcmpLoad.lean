import Verif.Proof.Ecmp
import Verif.Proof.LoadSum
import Verif.Spec.Load

/-!
# The load of an IGP-routed demand in terms of shares
-/

namespace NTM

open Spec

theorem ifc_map_injective : Function.Injective (List.map Item.ifc) :=
  List.map_injective_iff.2 fun _ _ e => by cases e; rfl

theorem itemSet_map (l : List (List ℕ)) :
    itemSet (l.map fun q => q.map Item.ifc) = l.flatten.dedup.map Item.ifc := by
  unfold itemSet
  have : (l.map fun q => q.map Item.ifc).flatten = l.flatten.map Item.ifc := by
    rw [List.map_flatten]
  rw [this, List.dedup_map_of_injective fun _ _ e => by cases e; rfl]

theorem outDeg_eq (s : State) (l : List (List ℕ)) (u : String) :
    outDeg s.itemTail (l.map fun q => q.map Item.ifc) u =
      (fanHops s.tail l.toFinset u).card := by
  have h : fanHops s.tail l.toFinset u = (l.flatten.dedup.filter fun i => s.tail i = u).toFinset := by
    ext x
    rw [mem_fanHops]
    simp [and_comm]
  rw [h, List.toFinset_card_of_nodup ((List.nodup_dedup _).filter _)]
  unfold outDeg
  rw [itemSet_map, List.filter_map, List.length_map]
  rfl

/-- the last of the cumulative splits, which is the largest -/
theorem cumSplits_max (deg : String → ℕ) (tail : Item → String) (acc : ℕ) (p : List Item)
    (hp : p ≠ []) (hd : ∀ x ∈ p, 1 ≤ deg (tail x)) :
    ((cumSplits deg tail acc p).map Prod.snd).max? =
      some (acc * (p.map fun x => deg (tail x)).prod) := by
  induction p generalizing acc with
  | nil => exact absurd rfl hp
  | cons x p ih =>
    have h1 := hd x (by simp)
    unfold cumSplits
    rw [List.map_cons, List.max?_cons]
    cases p with
    | nil => simp [cumSplits]
    | cons y p =>
      rw [ih _ (by simp) fun z hz => hd z (by simp [hz])]
      simp only [Option.elim_some, List.map_cons, List.prod_cons]
      have h2 : 1 ≤ (List.map (fun x => deg (tail x)) p).prod := by
        refine Nat.one_le_iff_ne_zero.2 (List.prod_ne_zero ?_)
        intro h0
        obtain ⟨z, hz, e⟩ := List.mem_map.1 h0
        have := hd z (by simp [hz])
        omega
      have h3 := hd y (by simp)
      have h4 : acc * deg (tail x) ≤
          acc * deg (tail x) * (deg (tail y) * (List.map (fun x => deg (tail x)) p).prod) :=
        Nat.le_mul_of_pos_right _ (Nat.mul_pos h3 h2)
      rw [max_eq_right h4, mul_assoc]

/-- how the two model classes round a path's traffic -/
def pathRound : Kind → ℚ → ℚ
  | .perf => pyRound 4
  | .flex => id

/-- an IGP-routed demand: all its cheapest paths, the entries of its detail and its load -/
structure IgpLoad (s : State) (d : ℕ) (l : List (List ℕ)) (det : List PathInfo) (Δ : ℕ → ℚ) :
    Prop where
  ne : l ≠ []
  nodup : l.Nodup
  mem : ∀ q, q ∈ l ↔ CheapestOver s (Usable s 0) (s.dmdSrc d) q (s.dmdDst d)
  fan : Fan s.tail s.head (s.dmdSrc d) (s.dmdDst d) l.toFinset
  detail : List.Forall₂ (fun q x => x.items = q.map Item.ifc ∧ q ≠ [] ∧
    x.splits = some (cumSplits (fun u => (fanHops s.tail l.toFinset u).card) s.itemTail 1
      (q.map Item.ifc)) ∧
    x.traffic = pathRound s.kind ((s.dmd d).traffic * share s.tail l.toFinset q)) l det
  load : ∀ i, Δ i = match s.kind with
    | .perf => pyRound 1 (carried det i)
    | .flex => carried det i

theorem share_eq (tail : ℕ → String) (S : Finset (List ℕ)) (q : List ℕ) :
    share tail S q = ((((q.map fun x => (fanHops tail S (tail x)).card).prod : ℕ)) : ℚ)⁻¹ := by
  unfold share
  induction q with
  | nil => simp
  | cons x q ih => simp only [List.map_cons, List.prod_cons, Nat.cast_mul, mul_inv, ih]

theorem carried_eq_itemTraffic {det : List PathInfo} (hn : ∀ x ∈ det, x.items.Nodup) (i : ℕ) :
    itemTraffic det (.ifc i) = carried det i := by
  unfold itemTraffic carried
  congr 1
  refine List.map_congr_left fun x hx => ?_
  by_cases h : Item.ifc i ∈ x.items
  · rw [if_pos h, List.count_eq_one_of_mem (hn x hx) h]; simp
  · rw [if_neg h, List.count_eq_zero_of_not_mem h]; simp

theorem carried_zero {det : List PathInfo} {i : ℕ} (h : ∀ x ∈ det, Item.ifc i ∉ x.items) :
    carried det i = 0 := by
  unfold carried
  rw [List.map_congr_left (g := fun _ => (0 : ℚ)) fun x hx => if_neg (h x hx)]
  simp

theorem sum_ite_single {l : List ℕ} (hl : l.Nodup) (i : ℕ) (c : ℚ) :
    (l.map fun x => if i = x then c else 0).sum = if i ∈ l then c else 0 := by
  induction l with
  | nil => simp
  | cons a l ih =>
    rw [List.map_cons, List.sum_cons, ih (List.nodup_cons.1 hl).2]
    have ha := (List.nodup_cons.1 hl).1
    by_cases h : i = a
    · subst h; simp [ha]
    · simp [h]

theorem SimResult.igpLoad {env : Env} {s s1 s' : State} {Δ : ℕ → ℕ → ℚ} (ht : Tidy s)
    (hsc : s.kind = .flex → NoShortcuts s) (h : SimResult env s s1 s' Δ) {d : ℕ}
    (hd : d ∈ s.dmds) {paths : List (List Item)} (hp : (s'.dmd d).path = some paths)
    (hn : ∀ p ∈ paths, ∀ m, Item.lsp m ∉ p) :
    ∃ l det, paths = l.map (fun q => q.map Item.ifc) ∧ (s'.dmd d).detail = some det ∧
      IgpLoad s' d l det (Δ d) := by
  rcases h.placed ht hsc hd with ⟨ls, hne, -, hpl⟩ | ⟨hr, ⟨hpl, -⟩ | ⟨l, hpl, hlne, hnd, hl⟩⟩
  · rw [hp] at hpl
    cases hpl
    obtain ⟨m, hm⟩ := List.exists_mem_of_ne_nil ls hne
    exact absurd (List.mem_singleton.2 rfl) (hn [Item.lsp m] (List.mem_map.2 ⟨m, hm, rfl⟩) m)
  · rw [hp] at hpl; cases hpl
  · rw [hp] at hpl
    cases hpl
    rcases h.load d hd with ⟨h0, -⟩ | ⟨paths', ls, det, h1, h2, h3, h4⟩
    · rw [hp] at h0; cases h0
    · rw [hp] at h1
      cases h1
      have hls := h2.unique hr
      subst hls
      rcases h3 with ⟨h3, -⟩ | ⟨-, h5, h6⟩
      · exact absurd rfl h3
      · have hsd : s'.dmdSrc d = s.dmdSrc d := by rw [h.cfg.dmdSrc]
        have hdd : s'.dmdDst d = s.dmdDst d := by rw [h.cfg.dmdDst]
        have hpos : ∀ i, Usable s' 0 i → 1 ≤ (s'.ifc i).cost := fun i hi => (h.sane ht).costs i hi.1
        have hmem : ∀ q, q ∈ l ↔ CheapestOver s' (Usable s' 0) (s'.dmdSrc d) q (s'.dmdDst d) := by
          rw [hsd, hdd]; exact hl
        have hfan : Fan s'.tail s'.head (s'.dmdSrc d) (s'.dmdDst d) l.toFinset :=
          cheapest_fan hpos fun q => by rw [List.mem_toFinset]; exact hmem q
        have hdet : List.Forall₂ (fun q x => x.items = q.map Item.ifc ∧ q ≠ [] ∧
            x.splits = some (cumSplits (fun u => (fanHops s'.tail l.toFinset u).card) s'.itemTail 1
              (q.map Item.ifc)) ∧
            x.traffic = pathRound s'.kind ((s'.dmd d).traffic * share s'.tail l.toFinset q))
            l det := by
          have h7 := pathInfos_forall h5
          rw [List.forall₂_map_left_iff] at h7
          have hdeg : outDeg s'.itemTail (l.map fun q => q.map Item.ifc) =
              fun u => (fanHops s'.tail l.toFinset u).card := funext fun u => outDeg_eq s' l u
          rw [hdeg] at h7
          have h8 : ∀ q ∈ l, ∀ x ∈ q, 1 ≤ (fanHops s'.tail l.toFinset (s'.tail x)).card :=
            fun q hq x hx => Finset.card_pos.2
              ⟨x, mem_fanHops.2 ⟨⟨q, List.mem_toFinset.2 hq, hx⟩, rfl⟩⟩
          have h9 : ∀ q ∈ l, ∀ x, pathInfo (match s'.kind with
              | .perf => pyRound 4
              | .flex => id) (fun u => (fanHops s'.tail l.toFinset u).card) s'.itemTail
                (s'.dmd d).traffic (q.map Item.ifc) = .ok x →
              x.items = q.map Item.ifc ∧ q ≠ [] ∧
            x.splits = some (cumSplits (fun u => (fanHops s'.tail l.toFinset u).card) s'.itemTail 1
              (q.map Item.ifc)) ∧
            x.traffic = pathRound s'.kind ((s'.dmd d).traffic * share s'.tail l.toFinset q) := by
            intro q hq x hx
            obtain ⟨e1, e2, m, e3, e4⟩ := pathInfo_ok hx
            have hqne : q ≠ [] := by
              rintro rfl
              simp [cumSplits] at e3
            refine ⟨e1, hqne, e2, ?_⟩
            rw [cumSplits_max _ _ _ _ (by simpa using hqne) (by
              intro x hx
              obtain ⟨y, hy, rfl⟩ := List.mem_map.1 hx
              exact h8 q hq y hy)] at e3
            cases e3
            rw [e4, share_eq, div_eq_mul_inv, one_mul, List.map_map]
            have : ((fun x => (fanHops s'.tail l.toFinset (s'.itemTail x)).card) ∘ Item.ifc) =
                fun x => (fanHops s'.tail l.toFinset (s'.tail x)).card := rfl
            rw [this]
            unfold pathRound
            cases s'.kind <;> rfl
          clear hp h4 h5 h6 hlne hnd hl hmem hfan hn h8 hdeg
          revert h7 h9
          generalize l.toFinset = S
          intro h7 h9
          induction h7 with
          | nil => exact .nil
          | cons hx _ ih =>
            exact .cons (h9 _ (by simp) _ hx) (ih fun q hq => h9 q (by simp [hq]))
        refine ⟨l, det, rfl, h4, hlne, hnd, hmem, hfan, hdet, fun i => ?_⟩
        have hnod : ∀ x ∈ det, x.items.Nodup := by
          intro x hx
          obtain ⟨q, hq, e, -⟩ := forall₂_mem_right hdet hx
          rw [e]
          refine List.Nodup.map (fun _ _ e => by cases e; rfl) ?_
          have := hfan.tails (List.mem_toFinset.2 hq)
          exact (List.Nodup.of_append_left this).of_map _
        have hmemi : i ∉ l.flatten.dedup → carried det i = 0 := by
          intro hi
          refine carried_zero fun x hx hix => hi ?_
          obtain ⟨q, hq, e, -⟩ := forall₂_mem_right hdet hx
          rw [e] at hix
          obtain ⟨j, hj, e⟩ := List.mem_map.1 hix
          cases e
          rw [List.mem_dedup, List.mem_flatten]
          exact ⟨q, hq, hj⟩
        rw [h6]
        simp only []
        rw [itemSet_map, List.map_map]
        cases hk : s'.kind with
        | perf =>
          simp only []
          have : ((fun x => itemLoad s' det x i) ∘ Item.ifc) =
              fun x => if i = x then pyRound 1 (carried det i) else 0 := by
            funext x
            simp only [Function.comp_apply, itemLoad, hk]
            by_cases hix : i = x
            · subst hix; rw [carried_eq_itemTraffic hnod]
            · simp [hix]
          rw [this, sum_ite_single (List.nodup_dedup _)]
          split
          · rfl
          · next hi => rw [hmemi hi, pyRound_zero]
        | flex =>
          simp only []
          have : ((fun x => itemLoad s' det x i) ∘ Item.ifc) =
              fun x => if i = x then carried det i else 0 := by
            funext x
            simp only [Function.comp_apply, itemLoad, hk]
            by_cases hix : i = x
            · subst hix; rfl
            · simp [hix]
          rw [this, sum_ite_single (List.nodup_dedup _)]
          split
          · rfl
          · next hi => rw [hmemi hi]

/-! ### sums over the entries -/

section
variable {s : State} {d : ℕ} {l : List (List ℕ)} {det : List PathInfo} {Δ : ℕ → ℚ}

/-- the traffic of a path -/
def pathShare (s : State) (d : ℕ) (S : Finset (List ℕ)) (q : List ℕ) : ℚ :=
  pathRound s.kind ((s.dmd d).traffic * share s.tail S q)

theorem IgpLoad.sum (h : IgpLoad s d l det Δ) (f : List Item → ℚ → ℚ) :
    (det.map fun x => f x.items x.traffic).sum =
      ∑ q ∈ l.toFinset, f (q.map Item.ifc) (pathShare s d l.toFinset q) := by
  rw [List.sum_toFinset _ h.nodup]
  have hd := h.detail
  unfold pathShare
  revert hd
  generalize l.toFinset = S
  intro hd
  clear h
  induction hd with
  | nil => rfl
  | cons hx _ ih =>
    rw [List.map_cons, List.sum_cons, ih, hx.1, hx.2.2.2, List.map_cons, List.sum_cons]

theorem IgpLoad.total (h : IgpLoad s d l det Δ) :
    totalTraffic det = ∑ q ∈ l.toFinset, pathShare s d l.toFinset q :=
  h.sum fun _ t => t

theorem mem_map_ifc {i : ℕ} {q : List ℕ} : Item.ifc i ∈ q.map Item.ifc ↔ i ∈ q := by
  simp

theorem IgpLoad.carried (h : IgpLoad s d l det Δ) (i : ℕ) :
    carried det i = ∑ q ∈ l.toFinset, if i ∈ q then pathShare s d l.toFinset q else 0 := by
  have := h.sum fun p t => if Item.ifc i ∈ p then t else 0
  unfold Spec.carried
  rw [this]
  simp only [mem_map_ifc]

theorem IgpLoad.paths_sub (h : IgpLoad s d l det Δ) {q : List ℕ} (hq : q ∈ l) {i : ℕ}
    (hi : i ∈ q) : i ∈ s.ifs :=
  (Route.mem_ok ((h.mem q).1 hq).1 i hi).1

theorem IgpLoad.tails (h : IgpLoad s d l det Δ) {q : List ℕ} (hq : q ∈ l) :
    (q.map s.tail).Nodup :=
  List.Nodup.of_append_left (h.fan.tails (List.mem_toFinset.2 hq))

theorem IgpLoad.heads (h : IgpLoad s d l det Δ) {q : List ℕ} (hq : q ∈ l) :
    (q.map s.head).Nodup :=
  (List.nodup_cons.1 (h.fan.simple q (List.mem_toFinset.2 hq))).2

theorem card_at {e : ℕ → String} {q : List ℕ} (hq : (q.map e).Nodup) {I : List ℕ}
    (hsub : ∀ i ∈ q, i ∈ I) (u : String) :
    (((I.filter fun i => e i = u).toFinset.filter fun i => i ∈ q).card : ℚ) =
      if u ∈ q.map e then 1 else 0 := by
  split
  · next hu =>
    obtain ⟨i, hi, rfl⟩ := List.mem_map.1 hu
    have : ((I.filter fun j => e j = e i).toFinset.filter fun j => j ∈ q) = {i} := by
      ext j
      simp only [List.toFinset_filter, Finset.mem_filter, List.mem_toFinset, Finset.mem_singleton,
        decide_eq_true_eq]
      constructor
      · rintro ⟨⟨-, h1⟩, h2⟩
        exact List.inj_on_of_nodup_map hq h2 hi h1
      · rintro rfl; exact ⟨⟨hsub _ hi, rfl⟩, hi⟩
    rw [this]; simp
  · next hu =>
    have : ((I.filter fun j => e j = u).toFinset.filter fun j => j ∈ q) = ∅ := by
      ext j
      simp only [List.toFinset_filter, Finset.mem_filter, List.mem_toFinset,
        decide_eq_true_eq, Finset.notMem_empty, iff_false]
      rintro ⟨⟨-, h1⟩, h2⟩
      exact hu (h1 ▸ List.mem_map_of_mem h2)
    rw [this]; simp

theorem IgpLoad.node_sum (h : IgpLoad s d l det Δ) (hnd : s.ifs.Nodup) (e : ℕ → String)
    (he : ∀ q ∈ l, (q.map e).Nodup) (u : String) :
    ((s.ifs.filter fun i => e i = u).map (Spec.carried det)).sum =
      ∑ q ∈ l.toFinset, if u ∈ q.map e then pathShare s d l.toFinset q else 0 := by
  rw [← List.sum_toFinset _ (hnd.filter _), Finset.sum_congr rfl fun i _ => h.carried i,
    Finset.sum_comm]
  refine Finset.sum_congr rfl fun q hq => ?_
  rw [List.mem_toFinset] at hq
  rw [← Finset.sum_filter, Finset.sum_const, nsmul_eq_mul,
    card_at (he q hq) (fun i hi => h.paths_sub hq hi)]
  split <;> simp

theorem IgpLoad.leaving (h : IgpLoad s d l det Δ) (hnd : s.ifs.Nodup) (u : String) :
    leaving s det u =
      ∑ q ∈ l.toFinset, if u ∈ q.map s.tail then pathShare s d l.toFinset q else 0 :=
  h.node_sum hnd s.tail (fun _ hq => h.tails hq) u

theorem IgpLoad.entering (h : IgpLoad s d l det Δ) (hnd : s.ifs.Nodup) (u : String) :
    entering s det u =
      ∑ q ∈ l.toFinset, if u ∈ q.map s.head then pathShare s d l.toFinset q else 0 :=
  h.node_sum hnd s.head (fun _ hq => h.heads hq) u

theorem IgpLoad.uses (h : IgpLoad s d l det Δ) (i : ℕ) :
    (∃ x ∈ det, Item.ifc i ∈ x.items) ↔ ∃ q ∈ l, i ∈ q := by
  constructor
  · rintro ⟨x, hx, hi⟩
    obtain ⟨q, hq, e, -⟩ := forall₂_mem_right h.detail hx
    exact ⟨q, hq, by rw [e] at hi; exact mem_map_ifc.1 hi⟩
  · rintro ⟨q, hq, hi⟩
    obtain ⟨x, hx, e, -⟩ := forall₂_mem_left h.detail hq
    exact ⟨x, hx, by rw [e]; exact mem_map_ifc.2 hi⟩

theorem IgpLoad.mem_nextHops (h : IgpLoad s d l det Δ) {i : ℕ} {u : String} :
    i ∈ nextHops s det u ↔ i ∈ fanHops s.tail l.toFinset u := by
  unfold nextHops
  rw [mem_fanHops, List.mem_filter, decide_eq_true_eq, h.uses]
  simp only [List.mem_toFinset]
  constructor
  · rintro ⟨-, h2, h3⟩; exact ⟨h3, h2⟩
  · rintro ⟨⟨q, hq, hi⟩, h2⟩; exact ⟨h.paths_sub hq hi, h2, q, hq, hi⟩

theorem IgpLoad.nextHops_length (h : IgpLoad s d l det Δ) (hnd : s.ifs.Nodup) (u : String) :
    (nextHops s det u).length = (fanHops s.tail l.toFinset u).card := by
  have hn : (nextHops s det u).Nodup := hnd.filter _
  rw [← List.toFinset_card_of_nodup hn]
  congr 1
  ext i
  rw [List.mem_toFinset, h.mem_nextHops]

/-- exact shares, FlexModel -/
theorem IgpLoad.flex_share (_ : IgpLoad s d l det Δ) (hk : s.kind = .flex) (q : List ℕ) :
    pathShare s d l.toFinset q = (s.dmd d).traffic * share s.tail l.toFinset q := by
  unfold pathShare
  rw [hk]
  rfl

theorem IgpLoad.flex_total (h : IgpLoad s d l det Δ) (hk : s.kind = .flex) :
    totalTraffic det = (s.dmd d).traffic := by
  rw [h.total, Finset.sum_congr rfl fun q _ => h.flex_share hk q, ← Finset.mul_sum,
    h.fan.total ?_, mul_one]
  rw [List.toFinset_nonempty_iff]
  exact h.ne

theorem IgpLoad.flex_carried (h : IgpLoad s d l det Δ) (hk : s.kind = .flex) (i : ℕ) :
    Spec.carried det i = (s.dmd d).traffic * linkShare s.tail l.toFinset i := by
  rw [h.carried, ← Finset.sum_filter, Finset.sum_congr rfl fun q _ => h.flex_share hk q,
    ← Finset.mul_sum]
  rfl

theorem IgpLoad.flex_leaving (h : IgpLoad s d l det Δ) (hnd : s.ifs.Nodup) (hk : s.kind = .flex)
    (u : String) :
    Spec.leaving s det u = (s.dmd d).traffic * nodeShare s.tail l.toFinset u := by
  rw [h.leaving hnd, ← Finset.sum_filter, Finset.sum_congr rfl fun q _ => h.flex_share hk q,
    ← Finset.mul_sum]
  rfl

theorem IgpLoad.flex_split (h : IgpLoad s d l det Δ) (hnd : s.ifs.Nodup) (hk : s.kind = .flex)
    {i : ℕ} {u : String} (hi : i ∈ nextHops s det u) :
    Spec.carried det i = Spec.leaving s det u / (nextHops s det u).length := by
  rw [h.flex_carried hk, h.flex_leaving hnd hk, h.nextHops_length hnd,
    h.fan.equal_split (h.mem_nextHops.1 hi), mul_div_assoc]

/-- rounded shares, PerformanceModel -/
theorem IgpLoad.perf_share (_ : IgpLoad s d l det Δ) (hk : s.kind = .perf) (q : List ℕ) :
    |pathShare s d l.toFinset q - (s.dmd d).traffic * share s.tail l.toFinset q| ≤ 1 / 20000 := by
  unfold pathShare
  rw [hk]
  refine le_trans (pyRound_close 4 _) ?_
  norm_num

theorem abs_sum_sub_le {ι : Type} (S : Finset ι) (f g : ι → ℚ) (c : ℚ)
    (h : ∀ x ∈ S, |f x - g x| ≤ c) : |∑ x ∈ S, f x - ∑ x ∈ S, g x| ≤ S.card * c := by
  classical
  induction S using Finset.induction_on with
  | empty => simp
  | insert a S ha ih =>
    rw [Finset.sum_insert ha, Finset.sum_insert ha, Finset.card_insert_of_notMem ha]
    have h1 := abs_le.1 (h a (by simp))
    have h2 := abs_le.1 (ih fun x hx => h x (by simp [hx]))
    rw [abs_le]
    push_cast
    constructor <;> linarith

theorem IgpLoad.det_length (h : IgpLoad s d l det Δ) : det.length = l.toFinset.card := by
  rw [List.toFinset_card_of_nodup h.nodup, h.detail.length_eq]

theorem IgpLoad.perf_total (h : IgpLoad s d l det Δ) (hk : s.kind = .perf) :
    |totalTraffic det - (s.dmd d).traffic| ≤ det.length * (1 / 20000) := by
  have h1 := abs_sum_sub_le l.toFinset (pathShare s d l.toFinset)
    (fun q => (s.dmd d).traffic * share s.tail l.toFinset q) _ fun q _ => h.perf_share hk q
  rw [← Finset.mul_sum, h.fan.total (by rw [List.toFinset_nonempty_iff]; exact h.ne), mul_one,
    ← h.total, ← h.det_length] at h1
  exact h1

theorem IgpLoad.through (h : IgpLoad s d l det Δ) (i : ℕ) :
    pathsThrough det i = (l.toFinset.filter fun q => i ∈ q).card := by
  have e : (l.toFinset.filter fun q => i ∈ q) = (l.filter fun q => i ∈ q).toFinset := by
    ext q; simp
  rw [e, List.toFinset_card_of_nodup (h.nodup.filter _)]
  clear e
  unfold pathsThrough
  have hd := h.detail
  clear h
  revert hd
  generalize l.toFinset = S
  intro hd
  induction hd with
  | nil => rfl
  | @cons q x l det hx _ ih =>
    rw [List.filter_cons, List.filter_cons]
    by_cases hi : i ∈ q
    · have h1 : Item.ifc i ∈ x.items := by rw [hx.1]; exact mem_map_ifc.2 hi
      simp only [hi, h1, decide_true, if_true, List.length_cons, ih]
    · have h1 : Item.ifc i ∉ x.items := by rw [hx.1]; exact fun h => hi (mem_map_ifc.1 h)
      simp only [hi, h1, decide_false, Bool.false_eq_true, if_false, ih]

theorem IgpLoad.perf_carried (h : IgpLoad s d l det Δ) (hk : s.kind = .perf) (i : ℕ) :
    |Spec.carried det i - (s.dmd d).traffic * linkShare s.tail l.toFinset i| ≤
      pathsThrough det i * (1 / 20000) := by
  have h1 := abs_sum_sub_le (l.toFinset.filter fun q => i ∈ q) (pathShare s d l.toFinset)
    (fun q => (s.dmd d).traffic * share s.tail l.toFinset q) _ fun q _ => h.perf_share hk q
  rw [← Finset.mul_sum, ← h.through i, Finset.sum_filter, ← h.carried i] at h1
  exact h1

/-! ### flow balance -/

theorem IgpLoad.balance (h : IgpLoad s d l det Δ) (hnd : s.ifs.Nodup) {u : String}
    (ha : u ≠ s.dmdSrc d) (hb : u ≠ s.dmdDst d) : Spec.entering s det u = Spec.leaving s det u := by
  rw [h.entering hnd, h.leaving hnd]
  refine Finset.sum_congr rfl fun q hq => ?_
  have hr := route_nodes (h.fan.route q hq)
  have : u ∈ q.map s.head ↔ u ∈ q.map s.tail := by
    constructor
    · intro hu
      have : u ∈ s.dmdSrc d :: q.map s.head := List.mem_cons_of_mem _ hu
      rw [hr, List.mem_append, List.mem_singleton] at this
      exact this.resolve_right hb
    · intro hu
      have : u ∈ q.map s.tail ++ [s.dmdDst d] := List.mem_append_left _ hu
      rw [← hr, List.mem_cons] at this
      exact this.resolve_left ha
  simp only [this]

theorem IgpLoad.path_ne (h : IgpLoad s d l det Δ) {q : List ℕ} (hq : q ∈ l) : q ≠ [] := by
  obtain ⟨x, -, -, hx, -⟩ := forall₂_mem_left h.detail hq
  exact hx

theorem IgpLoad.ends_ne (h : IgpLoad s d l det Δ) : s.dmdSrc d ≠ s.dmdDst d := by
  obtain ⟨q, hq⟩ := List.exists_mem_of_ne_nil l h.ne
  have hne := h.path_ne hq
  have hr := h.fan.route q (List.mem_toFinset.2 hq)
  have ht := h.fan.tails (List.mem_toFinset.2 hq)
  intro e
  cases q with
  | nil => exact hne rfl
  | cons x q =>
    have := (route_cons_inv hr).1
    rw [List.map_cons, List.cons_append, List.nodup_cons] at ht
    exact ht.1 (by rw [← this, e]; simp)

theorem IgpLoad.at_ends (h : IgpLoad s d l det Δ) (hnd : s.ifs.Nodup) :
    Spec.leaving s det (s.dmdSrc d) = totalTraffic det ∧
    Spec.entering s det (s.dmdDst d) = totalTraffic det ∧
    Spec.entering s det (s.dmdSrc d) = 0 ∧ Spec.leaving s det (s.dmdDst d) = 0 := by
  have hne := h.ends_ne
  rw [h.entering hnd, h.leaving hnd, h.entering hnd, h.leaving hnd, h.total]
  refine ⟨?_, ?_, ?_, ?_⟩
  · refine Finset.sum_congr rfl fun q hq => if_pos ?_
    have hr := route_nodes (h.fan.route q hq)
    have : s.dmdSrc d ∈ q.map s.tail ++ [s.dmdDst d] := by rw [← hr]; simp
    rw [List.mem_append, List.mem_singleton] at this
    exact this.resolve_right hne
  · refine Finset.sum_congr rfl fun q hq => if_pos ?_
    have hr := route_nodes (h.fan.route q hq)
    have : s.dmdDst d ∈ s.dmdSrc d :: q.map s.head := by rw [hr]; simp
    rw [List.mem_cons] at this
    exact this.resolve_left hne.symm
  · refine Finset.sum_eq_zero fun q hq => if_neg ?_
    exact (List.nodup_cons.1 (h.fan.simple q hq)).1
  · refine Finset.sum_eq_zero fun q hq => if_neg fun hu => ?_
    have := h.fan.tails hq
    rw [List.nodup_append] at this
    exact this.2.2 _ hu _ (by simp) rfl

/-! ### splits -/

theorem cumSplits_length (deg : String → ℕ) (tail : Item → String) (acc : ℕ) (p : List Item) :
    (cumSplits deg tail acc p).length = p.length := by
  induction p generalizing acc with
  | nil => rfl
  | cons x p ih => simp [cumSplits, ih]

theorem cumSplits_get (deg : String → ℕ) (tail : Item → String) (acc : ℕ) (p : List Item) (k : ℕ)
    (y : Item) (c : ℕ) (h : (cumSplits deg tail acc p)[k]? = some (y, c)) :
    p[k]? = some y ∧ c = acc * ((p.take (k + 1)).map fun x => deg (tail x)).prod := by
  induction p generalizing acc k with
  | nil => simp [cumSplits] at h
  | cons x p ih =>
    cases k with
    | zero =>
      simp only [cumSplits, List.getElem?_cons_zero, Option.some.injEq, Prod.mk.injEq] at h
      obtain ⟨rfl, rfl⟩ := h
      simp
    | succ k =>
      simp only [cumSplits, List.getElem?_cons_succ] at h
      obtain ⟨h1, h2⟩ := ih _ _ h
      refine ⟨by simpa using h1, ?_⟩
      rw [h2]
      simp [mul_assoc]

theorem cumSplits_sorted (deg : String → ℕ) (tail : Item → String) (acc : ℕ) (p : List Item)
    (hd : ∀ x ∈ p, 1 ≤ deg (tail x)) :
    ((cumSplits deg tail acc p).map Prod.snd).Pairwise (· ≤ ·) ∧
      ∀ c ∈ (cumSplits deg tail acc p).map Prod.snd, acc ≤ c := by
  induction p generalizing acc with
  | nil => simp [cumSplits]
  | cons x p ih =>
    obtain ⟨h1, h2⟩ := ih (acc * deg (tail x)) fun y hy => hd y (by simp [hy])
    have h3 : acc ≤ acc * deg (tail x) := Nat.le_mul_of_pos_right _ (hd x (by simp))
    simp only [cumSplits, List.map_cons, List.pairwise_cons]
    refine ⟨⟨h2, h1⟩, ?_⟩
    intro c hc
    rcases List.mem_cons.1 hc with rfl | hc
    · exact h3
    · exact h3.trans (h2 c hc)

theorem cumSplits_last (deg : String → ℕ) (tail : Item → String) (acc : ℕ) (p : List Item)
    (c : ℕ) (h : ((cumSplits deg tail acc p).map Prod.snd).getLast? = some c) :
    c = acc * (p.map fun x => deg (tail x)).prod := by
  induction p generalizing acc with
  | nil => simp [cumSplits] at h
  | cons x p ih =>
    simp only [cumSplits, List.map_cons] at h
    cases p with
    | nil =>
      simp [cumSplits] at h
      simp [h]
    | cons y p =>
      rw [List.getLast?_cons_of_ne_nil (by simp [cumSplits])] at h
      rw [ih _ h]
      simp [mul_assoc]

theorem IgpLoad.exactShare (h : IgpLoad s d l det Δ) (hnd : s.ifs.Nodup) (q : List ℕ) :
    Spec.exactShare s det (q.map Item.ifc) = share s.tail l.toFinset q := by
  unfold Spec.exactShare share
  rw [List.map_map]
  congr 1
  refine List.map_congr_left fun x _ => ?_
  simp only [Function.comp_apply, one_div]
  rw [h.nextHops_length hnd]
  rfl

theorem IgpLoad.exactLoad (h : IgpLoad s d l det Δ) (hnd : s.ifs.Nodup) (q : ℚ) (i : ℕ) :
    Spec.exactLoad s det q i = q * linkShare s.tail l.toFinset i := by
  have := h.sum fun p _ => if Item.ifc i ∈ p then q * Spec.exactShare s det p else 0
  unfold Spec.exactLoad
  rw [this]
  unfold linkShare
  rw [Finset.mul_sum, Finset.sum_filter]
  refine Finset.sum_congr rfl fun p _ => ?_
  simp only [mem_map_ifc, h.exactShare hnd]

end

end NTM
