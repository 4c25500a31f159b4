import Verif.Spec.Impact
import Verif.Proof.Compare
import Verif.Props.Load

/-!
# Comparing the placement of one demand in two simulations
-/

namespace NTM

open Spec

section
variable {env env' : Env} {s s1 s' t t1 t' : State} {Δ Δ' : ℕ → ℕ → ℚ}

/-- a demand that rides no LSP is either unrouted or spread over its cheapest paths -/
theorem SimResult.igp (h : SimResult env s s1 s' Δ) (hts : Tidy s)
    (hks : s.kind = .flex → NoShortcuts s) {d : ℕ} (hd : d ∈ s.dmds)
    (r : RidingOf s' (pairKey (s.dmdSrc d) (s.dmdDst d)) []) :
    ((s'.dmd d).path = none ∧ (∀ i, Δ d i = 0) ∧
      ¬ Reachable s'.tail s'.head (Usable s' 0) (s.dmdSrc d) (s.dmdDst d)) ∨
    ∃ l det, (s'.dmd d).path = some (l.map fun q => q.map Item.ifc) ∧ IgpLoad s' d l det (Δ d) := by
  rcases h.placed hts hks hd with ⟨ls, h1, h2, -⟩ | ⟨-, h3⟩
  · exact absurd (r.unique h2).symm h1
  rcases h3 with ⟨p1, r1⟩ | ⟨l, p1, ne1, nd1, m1⟩
  · refine .inl ⟨p1, fun i => ?_, r1⟩
    rcases h.load d hd with ⟨-, -, h⟩ | ⟨paths, ls, det, h, -⟩
    · rw [h]
    · rw [p1] at h; cases h
  · have hno : ∀ p ∈ l.map (fun q => q.map Item.ifc), ∀ m, Item.lsp m ∉ p := by
      intro p hp m hm
      obtain ⟨q, -, rfl⟩ := List.mem_map.1 hp
      simp at hm
    obtain ⟨k1, det, a1, -, g1⟩ := h.igpLoad hts hks hd p1 hno
    have b1 := List.map_injective_iff.2 ifc_map_injective a1
    subst b1
    exact .inr ⟨l, det, p1, g1⟩

/-- the same cheapest paths carry the same load -/
theorem IgpLoad.same {d : ℕ} {l l' : List (List ℕ)} {det det' : List PathInfo} {f f' : ℕ → ℚ}
    (h : IgpLoad s' d l det f) (h' : IgpLoad t' d l' det' f') (hk : t'.kind = s'.kind)
    (htl : t'.tail = s'.tail) (htr : (t'.dmd d).traffic = (s'.dmd d).traffic)
    (hl : ∀ q, q ∈ l' ↔ q ∈ l) (i : ℕ) : f' i = f i := by
  have e : l'.toFinset = l.toFinset := by
    ext q; rw [List.mem_toFinset, List.mem_toFinset]; exact hl q
  have : Spec.carried det' i = Spec.carried det i := by
    rw [h.carried, h'.carried, e]
    unfold pathShare
    rw [hk, htr, htl]
  rw [h.load, h'.load, hk, this]

theorem IgpLoad.perm {d : ℕ} {l l' : List (List ℕ)} {det det' : List PathInfo} {f f' : ℕ → ℚ}
    (h : IgpLoad s' d l det f) (h' : IgpLoad t' d l' det' f') (hl : ∀ q, q ∈ l' ↔ q ∈ l) :
    l'.Perm l :=
  (List.perm_ext_iff_of_nodup h'.nodup h.nodup).2 hl

/-! ### fewer usable links -/

section
variable {tail head : ℕ → String} {cost : ℕ → ℕ} {ok ok' : ℕ → Prop} {a b : String}

theorem cheapest_sub (hsub : ∀ i, ok' i → ok i) {p q : List ℕ} (hp : Cheapest tail head cost ok a p b)
    (hp' : ∀ i ∈ p, ok' i) :
    Cheapest tail head cost ok' a q b ↔ Cheapest tail head cost ok a q b ∧ ∀ i ∈ q, ok' i := by
  have hpr : Route tail head ok' a p b := hp.1.mono fun i hi _ => hp' i hi
  constructor
  · rintro ⟨h1, h2⟩
    exact ⟨⟨h1.mono fun i _ => hsub i, fun r hr => (h2 p hpr).trans (hp.2 r hr)⟩,
      Route.mem_ok h1⟩
  · rintro ⟨⟨h1, h2⟩, h3⟩
    exact ⟨h1.mono fun i hi _ => h3 i hi, fun r hr => h2 r (hr.mono fun i _ => hsub i)⟩

theorem cheapest_dearer (hsub : ∀ i, ok' i → ok i) {p q : List ℕ}
    (hp : Cheapest tail head cost ok a p b) (hq : Cheapest tail head cost ok' a q b)
    (hno : ∀ r, Cheapest tail head cost ok a r b → ¬ ∀ i ∈ r, ok' i) :
    totalCost cost p < totalCost cost q := by
  have hqr : Route tail head ok a q b := hq.1.mono fun i _ => hsub i
  refine lt_of_le_of_ne (hp.2 q hqr) fun e => ?_
  exact hno q ⟨hqr, fun r hr => e ▸ hp.2 r hr⟩ (Route.mem_ok hq.1)

theorem cheapest_scale {k : ℕ} (hk : 1 ≤ k) {q : List ℕ} :
    Cheapest tail head (fun i => k * cost i) ok a q b ↔ Cheapest tail head cost ok a q b := by
  have e : ∀ p, totalCost (fun i => k * cost i) p = k * totalCost cost p := fun p => by
    unfold totalCost
    induction p with
    | nil => simp
    | cons x p ih => simp only [List.map_cons, List.sum_cons, ih]; ring
  unfold Cheapest
  refine and_congr_right fun _ => forall_congr' fun r => forall_congr' fun _ => ?_
  rw [e, e]
  exact ⟨fun h => Nat.le_of_mul_le_mul_left h hk, fun h => Nat.mul_le_mul_left k h⟩

end

theorem survives_ifcs {q : List ℕ} :
    survives s (q.map Item.ifc) = true ↔ ∀ i ∈ q, (s.ifc i).failed = false := by
  unfold survives
  rw [List.all_map, List.all_eq_true]
  simp

theorem pathCost_ifcs {q : List ℕ} :
    pathCost s (q.map Item.ifc) = totalCost (fun i => (s.ifc i).cost) q := by
  unfold pathCost totalCost
  rw [List.map_map]
  rfl

/-! ### more failures -/

theorem _root_.NTM.Spec.MoreFailures.tail (h : MoreFailures s t) : t.tail = s.tail := by
  funext i; unfold State.tail; rw [h.ifc i, h.node]

theorem _root_.NTM.Spec.MoreFailures.head (h : MoreFailures s t) : t.head = s.head := by
  funext i; unfold State.head; rw [h.ifc i, h.node]

theorem _root_.NTM.Spec.MoreFailures.noShortcuts (h : MoreFailures s t) (hs : NoShortcuts s) :
    NoShortcuts t := fun n hn => by
  rw [h.node n]; exact hs n (h.nodes.mem_iff.1 hn)

theorem _root_.NTM.Spec.MoreFailures.run (h : MoreFailures s t) (hs : Cfg s s') (ht : Cfg t t') :
    MoreFailures s' t' where
  kind := by rw [hs.kind, ht.kind, h.kind]
  nodes := by rw [hs.nodes, ht.nodes]; exact h.nodes
  node n := by rw [hs.node, ht.node]; exact h.node n
  ifs := by rw [hs.ifs, ht.ifs]; exact h.ifs
  ifc i := by rw [ht.ifc i, h.ifc i, hs.ifc i]
  failed i := by rw [ht.ifc i, hs.ifc i]; exact h.failed i

theorem _root_.NTM.Spec.MoreFailures.usable (h : MoreFailures s t)
    (hs : ∀ i ∈ s.ifs, s.reservedBw i = 0) (ht : ∀ i ∈ t.ifs, t.reservedBw i = 0) (i : ℕ) :
    Usable t 0 i ↔ Usable s 0 i ∧ (t.ifc i).failed = false := by
  unfold Usable
  rw [h.ifs.mem_iff]
  have hf := h.failed i
  have hr : i ∈ s.ifs → t.reservable i = s.reservable i := fun hi => by
    unfold State.reservable
    rw [hs i hi, ht i (h.ifs.mem_iff.2 hi), h.ifc i]
  constructor
  · rintro ⟨h1, h2, h3⟩
    refine ⟨⟨h1, ?_, hr h1 ▸ h3⟩, h2⟩
    cases h4 : (s.ifc i).failed
    · rfl
    · rw [hf h4] at h2; cases h2
  · rintro ⟨⟨h1, -, h3⟩, h2⟩
    exact ⟨h1, h2, by rw [hr h1]; exact h3⟩

/-- demand `d` in the two final states -/
theorem inBoth_ends {d : ℕ} (hb : InBoth s t d) (hnode : ∀ n, (t.node n).name = (s.node n).name) :
    t.dmdSrc d = s.dmdSrc d ∧ t.dmdDst d = s.dmdDst d ∧
    (t.dmd d).traffic = (s.dmd d).traffic := by
  unfold State.dmdSrc State.dmdDst
  rw [hb.2.2]
  exact ⟨hnode _, hnode _, rfl⟩

/-- a demand of both models that sees the same cheapest paths takes the same paths and loads
the interfaces in the same way -/
theorem compare_demand (hs : SimResult env s s1 s' Δ) (ht : SimResult env' t t1 t' Δ')
    (hts : Tidy s) (htt : Tidy t) (hks : s.kind = .flex → NoShortcuts s)
    (hkt : t.kind = .flex → NoShortcuts t) (hls : s.lsps = []) (hlt : t.lsps = [])
    (hk : t'.kind = s'.kind) (htl : t'.tail = s'.tail) (hhd : t'.head = s'.head)
    (hnm : ∀ n, (t.node n).name = (s.node n).name)
    (hu : ∀ i, Usable t' 0 i ↔ Usable s' 0 i)
    (hc : ∀ a q b, CheapestOver t' (Usable t' 0) a q b ↔ CheapestOver s' (Usable s' 0) a q b)
    {d : ℕ} (hb : InBoth s t d) :
    SamePaths (s'.dmd d).path (t'.dmd d).path ∧ ∀ i, Δ' d i = Δ d i := by
  obtain ⟨e1, e2, e3⟩ := inBoth_ends hb hnm
  have hr : ∀ a b, Reachable t'.tail t'.head (Usable t' 0) a b ↔
      Reachable s'.tail s'.head (Usable s' 0) a b := fun a b => by
    rw [htl, hhd]; exact exists_congr fun _ => Route.congr hu
  rcases hs.igp hts hks hb.1 ((hs.noLsps hls).2 _) with ⟨p1, z1, n1⟩ | ⟨l, det, p1, L1⟩ <;>
    rcases ht.igp htt hkt hb.2.1 ((ht.noLsps hlt).2 _) with ⟨p2, z2, n2⟩ | ⟨l', det', p2, L2⟩ <;>
    rw [p1, p2]
  · exact ⟨trivial, fun i => by rw [z1, z2]⟩
  · exfalso
    obtain ⟨q, hq⟩ := List.exists_mem_of_ne_nil _ L2.ne
    rw [L2.mem, hc, ht.cfg.dmdSrc, ht.cfg.dmdDst, e1, e2] at hq
    exact n1 ⟨q, hq.1⟩
  · exfalso
    obtain ⟨q, hq⟩ := List.exists_mem_of_ne_nil _ L1.ne
    rw [L1.mem, hs.cfg.dmdSrc, hs.cfg.dmdDst] at hq
    rw [hr, e1, e2] at n2
    exact n2 ⟨q, hq.1⟩
  · have hm : ∀ q, q ∈ l' ↔ q ∈ l := fun q => by
      rw [L1.mem, L2.mem, hc, ht.cfg.dmdSrc, ht.cfg.dmdDst, hs.cfg.dmdSrc, hs.cfg.dmdDst, e1, e2]
    exact ⟨((L1.perm L2 hm).map _).symm,
      L1.same L2 hk htl (by rw [ht.cfg.dmd, hs.cfg.dmd]; exact e3) hm⟩

end

end NTM
