import Verif.Spec.Change
import Verif.Proof.Impact
import Mathlib.Algebra.Order.BigOperators.Group.Finset

/-!
# Raised costs and raised traffic
-/

namespace NTM

open Spec

section
variable {tail head : ℕ → String} {cost cost' : ℕ → ℕ} {ok : ℕ → Prop} {a b : String}

theorem totalCost_le (h : ∀ i, cost i ≤ cost' i) (p : List ℕ) :
    totalCost cost p ≤ totalCost cost' p := by
  unfold totalCost
  induction p with
  | nil => simp
  | cons x p ih => simp only [List.map_cons, List.sum_cons]; exact Nat.add_le_add (h x) ih

theorem totalCost_eq (h : ∀ i, cost i ≤ cost' i) (p : List ℕ) :
    totalCost cost' p = totalCost cost p ↔ ∀ i ∈ p, cost' i = cost i := by
  induction p with
  | nil => simp [totalCost]
  | cons x p ih =>
    have h1 := h x
    have h2 := totalCost_le h p
    unfold totalCost at h2 ih ⊢
    simp only [List.map_cons, List.sum_cons, List.forall_mem_cons]
    rw [← ih]
    omega

/-- when some cheapest path keeps its cost, the new cheapest paths are those that do -/
theorem cheapest_raised (h : ∀ i, cost i ≤ cost' i) {p q : List ℕ}
    (hp : Cheapest tail head cost ok a p b) (hp' : ∀ i ∈ p, cost' i = cost i) :
    Cheapest tail head cost' ok a q b ↔
      Cheapest tail head cost ok a q b ∧ ∀ i ∈ q, cost' i = cost i := by
  have ep := (totalCost_eq h p).2 hp'
  constructor
  · rintro ⟨h1, h2⟩
    have k1 := h2 p hp.1
    have k2 := hp.2 q h1
    have k3 := totalCost_le h q
    have e : totalCost cost' q = totalCost cost q := by omega
    exact ⟨⟨h1, fun r hr => by have := hp.2 r hr; omega⟩, (totalCost_eq h q).1 e⟩
  · rintro ⟨⟨h1, h2⟩, h3⟩
    have e := (totalCost_eq h q).2 h3
    refine ⟨h1, fun r hr => ?_⟩
    have := h2 r hr
    have := totalCost_le h r
    omega

/-- when no cheapest path keeps its cost, the new cheapest paths are dearer -/
theorem cheapest_raised_dearer (h : ∀ i, cost i ≤ cost' i) {p q : List ℕ}
    (hp : Cheapest tail head cost ok a p b) (hq : Cheapest tail head cost' ok a q b)
    (hno : ∀ r, Cheapest tail head cost ok a r b → ¬ ∀ i ∈ r, cost' i = cost i) :
    totalCost cost p < totalCost cost' q := by
  have k2 := hp.2 q hq.1
  have k3 := totalCost_le h q
  refine lt_of_le_of_ne (k2.trans k3) fun e => ?_
  exact hno q ⟨hq.1, fun r hr => by have := hp.2 r hr; omega⟩ ((totalCost_eq h q).1 (by omega))

end

section
variable {env env' : Env} {s s1 s' t t1 t' : State} {Δ Δ' : ℕ → ℕ → ℚ}

theorem _root_.NTM.Spec.Costlier.tail (h : Costlier s t) : t.tail = s.tail := by
  funext i; unfold State.tail; rw [h.ifc i, h.node]

theorem _root_.NTM.Spec.Costlier.head (h : Costlier s t) : t.head = s.head := by
  funext i; unfold State.head; rw [h.ifc i, h.node]

theorem _root_.NTM.Spec.Costlier.noShortcuts (h : Costlier s t) (hs : NoShortcuts s) :
    NoShortcuts t := fun n hn => by
  rw [h.node]; exact hs n (h.nodes.mem_iff.1 hn)

theorem _root_.NTM.Spec.Costlier.run (h : Costlier s t) (hs : Cfg s s') (ht : Cfg t t') :
    Costlier s' t' where
  kind := by rw [hs.kind, ht.kind, h.kind]
  nodes := by rw [hs.nodes, ht.nodes]; exact h.nodes
  node := by rw [hs.node, ht.node]; exact h.node
  ifs := by rw [hs.ifs, ht.ifs]; exact h.ifs
  ifc i := by rw [ht.ifc i, h.ifc i, hs.ifc i]
  cost i := by rw [ht.ifc i, hs.ifc i]; exact h.cost i

theorem _root_.NTM.Spec.Costlier.usable (h : Costlier s t)
    (hs : ∀ i ∈ s.ifs, s.reservedBw i = 0) (ht : ∀ i ∈ t.ifs, t.reservedBw i = 0) (i : ℕ) :
    Usable t 0 i ↔ Usable s 0 i := by
  unfold Usable
  rw [h.ifs.mem_iff]
  refine and_congr_right fun hi => ?_
  have hr : t.reservable i = s.reservable i := by
    unfold State.reservable
    rw [hs i hi, ht i (h.ifs.mem_iff.2 hi), h.ifc i]
  rw [hr, h.ifc i]

theorem costKept_ifcs {q : List ℕ} :
    costKept s t (q.map Item.ifc) = true ↔ ∀ i ∈ q, (t.ifc i).cost = (s.ifc i).cost := by
  unfold costKept
  rw [List.all_map, List.all_eq_true]
  simp

theorem share_nonneg (tail : ℕ → String) (S : Finset (List ℕ)) (q : List ℕ) :
    0 ≤ share tail S q := by
  rw [share_eq]; positivity

theorem pathRound_mono (k : Kind) {x y : ℚ} (h : x ≤ y) : pathRound k x ≤ pathRound k y := by
  cases k
  · exact pyRound_mono 4 h
  · exact h

/-- the same cheapest paths carry no less of a demand with no less traffic -/
theorem IgpLoad.heavier {d : ℕ} {l l' : List (List ℕ)} {det det' : List PathInfo} {f f' : ℕ → ℚ}
    (h : IgpLoad s' d l det f) (h' : IgpLoad t' d l' det' f') (hk : t'.kind = s'.kind)
    (htl : t'.tail = s'.tail) (htr : (s'.dmd d).traffic ≤ (t'.dmd d).traffic)
    (hl : ∀ q, q ∈ l' ↔ q ∈ l) (i : ℕ) : f i ≤ f' i := by
  have e : l'.toFinset = l.toFinset := by
    ext q; rw [List.mem_toFinset, List.mem_toFinset]; exact hl q
  have : Spec.carried det i ≤ Spec.carried det' i := by
    rw [h.carried, h'.carried, e]
    refine Finset.sum_le_sum fun q _ => ?_
    split
    · unfold pathShare
      rw [hk, htl]
      exact pathRound_mono _ (mul_le_mul_of_nonneg_right htr (share_nonneg _ _ _))
    · exact le_rfl
  rw [h.load, h'.load, hk]
  cases s'.kind
  · exact pyRound_mono 1 this
  · exact this

theorem IgpLoad.nonneg' {d : ℕ} {l : List (List ℕ)} {det : List PathInfo} {f : ℕ → ℚ}
    (h : IgpLoad s' d l det f) (htr : 0 ≤ (s'.dmd d).traffic) (i : ℕ) : 0 ≤ f i := by
  have : 0 ≤ Spec.carried det i := by
    rw [h.carried]
    refine Finset.sum_nonneg fun q _ => ?_
    split
    · unfold pathShare
      have := mul_nonneg htr (share_nonneg s'.tail l.toFinset q)
      cases s'.kind
      · exact pyRound_nonneg 4 this
      · exact this
    · exact le_rfl
  rw [h.load]
  cases s'.kind
  · exact pyRound_nonneg 1 this
  · exact this

/-- as `compare_demand`, for a demand that may have more traffic in the second model -/
theorem compare_heavier (hs : SimResult env s s1 s' Δ) (ht : SimResult env' t t1 t' Δ')
    (hts : Tidy s) (htt : Tidy t) (hks : s.kind = .flex → NoShortcuts s)
    (hkt : t.kind = .flex → NoShortcuts t) (hls : s.lsps = []) (hlt : t.lsps = [])
    (hk : t'.kind = s'.kind) (hn : SameNetwork s t) {d : ℕ} (hb : NoLighter s t d) :
    SamePaths (s'.dmd d).path (t'.dmd d).path ∧ ∀ i, Δ d i ≤ Δ' d i := by
  have nt : SameNetwork s' t' := hn.run hs.cfg ht.cfg
  have hu := usable_same nt fun i hi => by
    rw [(hs.noLsps hls).1 i hi, (ht.noLsps hlt).1 i (nt.ifs.mem_iff.2 hi)]
  obtain ⟨hd, hd', h1, h2, h3⟩ := hb
  have e1 : t.dmdSrc d = s.dmdSrc d := by unfold State.dmdSrc; rw [h1, hn.node]
  have e2 : t.dmdDst d = s.dmdDst d := by unfold State.dmdDst; rw [h2, hn.node]
  have hr : ∀ a b, Reachable t'.tail t'.head (Usable t' 0) a b ↔
      Reachable s'.tail s'.head (Usable s' 0) a b := fun a b => by
    rw [nt.tail, nt.head]; exact exists_congr fun _ => Route.congr hu
  rcases hs.igp hts hks hd ((hs.noLsps hls).2 _) with ⟨p1, z1, n1⟩ | ⟨l, det, p1, L1⟩ <;>
    rcases ht.igp htt hkt hd' ((ht.noLsps hlt).2 _) with ⟨p2, z2, n2⟩ | ⟨l', det', p2, L2⟩ <;>
    rw [p1, p2]
  · exact ⟨trivial, fun i => by rw [z1, z2]⟩
  · exfalso
    obtain ⟨q, hq⟩ := List.exists_mem_of_ne_nil _ L2.ne
    rw [L2.mem, cheapest_same nt hu, ht.cfg.dmdSrc, ht.cfg.dmdDst, e1, e2] at hq
    exact n1 ⟨q, hq.1⟩
  · exfalso
    obtain ⟨q, hq⟩ := List.exists_mem_of_ne_nil _ L1.ne
    rw [L1.mem, hs.cfg.dmdSrc, hs.cfg.dmdDst] at hq
    rw [hr, e1, e2] at n2
    exact n2 ⟨q, hq.1⟩
  · have hm : ∀ q, q ∈ l' ↔ q ∈ l := fun q => by
      rw [L1.mem, L2.mem, cheapest_same nt hu, ht.cfg.dmdSrc, ht.cfg.dmdDst, hs.cfg.dmdSrc,
        hs.cfg.dmdDst, e1, e2]
    exact ⟨((L1.perm L2 hm).map _).symm,
      L1.heavier L2 hk nt.tail (by rw [ht.cfg.dmd, hs.cfg.dmd]; exact h3) hm⟩

end

end NTM
