import Verif.Proof.Change
import Verif.Proof.Ranked

/-!
# Mirrored routes, shared suffixes, added links
-/

namespace NTM

open Spec

section
variable {tail head : ℕ → String} {cost : ℕ → ℕ} {ok ok' : ℕ → Prop} {a b : String}
  {R : ℕ → ℕ → Prop}

/-- a route has a mirror image of the same cost -/
theorem route_mirror (hR : ∀ i, ok i → ∃ j, ok j ∧ R i j ∧ tail i = head j ∧ head i = tail j ∧
    cost j = cost i) {p : List ℕ} (h : Route tail head ok a p b) :
    ∃ q, List.Forall₂ R p q.reverse ∧ Route tail head ok b q a ∧
      totalCost cost q = totalCost cost p := by
  induction h with
  | nil u => exact ⟨[], .nil, .nil u, rfl⟩
  | @cons i p v hi _ ih =>
    obtain ⟨q, h1, h2, h3⟩ := ih
    obtain ⟨j, hj, hr, e1, e2, e3⟩ := hR i hi
    refine ⟨q ++ [j], ?_, ?_, ?_⟩
    · rw [List.reverse_append]; exact .cons hr h1
    · refine route_append h2 ?_
      rw [e1, e2]
      exact .cons hj (.nil _)
    · rw [totalCost_append, h3]
      unfold totalCost
      simp [e3]
      omega

/-- so the mirror images of the cheapest routes are the cheapest routes back -/
theorem cheapest_mirror (hR : ∀ i, ok i → ∃ j, ok j ∧ R i j ∧ tail i = head j ∧ head i = tail j ∧
    cost j = cost i) {p : List ℕ} (h : Cheapest tail head cost ok a p b) :
    ∃ q, List.Forall₂ R p q.reverse ∧ Cheapest tail head cost ok b q a := by
  obtain ⟨q, h1, h2, h3⟩ := route_mirror hR h.1
  refine ⟨q, h1, h2, fun r hr => ?_⟩
  obtain ⟨r', -, h4, h5⟩ := route_mirror hR hr
  rw [h3, ← h5]
  exact h.2 r' h4

/-- the rest of a cheapest route is a cheapest route -/
theorem cheapest_rest {x y : List ℕ} {u : String} (h : Cheapest tail head cost ok a (x ++ y) b)
    (hx : Route tail head ok a x u) (hy : Route tail head ok u y b) :
    Cheapest tail head cost ok u y b ∧
      ∀ z, Cheapest tail head cost ok u z b → Cheapest tail head cost ok a (x ++ z) b := by
  have key : ∀ r, Route tail head ok u r b → totalCost cost y ≤ totalCost cost r := fun r hr => by
    have := h.2 _ (route_append hx hr)
    rw [totalCost_append, totalCost_append] at this
    omega
  refine ⟨⟨hy, key⟩, fun z hz => ⟨route_append hx hz.1, fun r hr => ?_⟩⟩
  have h1 := h.2 r hr
  have h2 := hz.2 y hy
  rw [totalCost_append] at h1 ⊢
  omega

/-- the node at which a route is cut is the tail of the next link -/
theorem route_cut {x y : List ℕ} {i : ℕ} (h : Route tail head ok a (x ++ i :: y) b) :
    Route tail head ok a x (tail i) ∧ Route tail head ok (tail i) (i :: y) b := by
  obtain ⟨v, h1, h2⟩ := route_split h
  cases h2 with
  | cons h3 h4 => exact ⟨h1, .cons h3 h4⟩

end

section
variable {s s' t t' : State}

theorem _root_.NTM.Spec.MoreLinks.noShortcuts (h : MoreLinks s t) (hs : NoShortcuts s) :
    NoShortcuts t := fun n hn => by
  rw [h.node]; exact hs n (h.nodes.mem_iff.1 hn)

theorem _root_.NTM.Spec.MoreLinks.run (h : MoreLinks s t) (hs : Cfg s s') (ht : Cfg t t') :
    MoreLinks s' t' where
  kind := by rw [hs.kind, ht.kind, h.kind]
  nodes := by rw [hs.nodes, ht.nodes]; exact h.nodes
  node := by rw [hs.node, ht.node]; exact h.node
  ifs := by rw [hs.ifs, ht.ifs]; exact h.ifs
  ifc i hi := by rw [ht.ifc i, h.ifc i (hs.ifs ▸ hi), hs.ifc i]

theorem _root_.NTM.Spec.MoreLinks.usable (h : MoreLinks s t)
    (hs : ∀ i ∈ s.ifs, s.reservedBw i = 0) (ht : ∀ i ∈ t.ifs, t.reservedBw i = 0) (i : ℕ) :
    Usable s 0 i ↔ Usable t 0 i ∧ i ∈ s.ifs := by
  unfold Usable
  by_cases hi : i ∈ s.ifs
  · have hr : t.reservable i = s.reservable i := by
      unfold State.reservable
      rw [hs i hi, ht i (h.ifs i hi), h.ifc i hi]
    have hf : (t.ifc i).failed = (s.ifc i).failed := by rw [h.ifc i hi]
    rw [hr, hf]
    simp [hi, h.ifs i hi]
  · simp [hi]

theorem known_ifcs {q : List ℕ} : known s (q.map Item.ifc) = true ↔ ∀ i ∈ q, i ∈ s.ifs := by
  unfold known
  rw [List.all_map, List.all_eq_true]
  simp

/-- the links a route uses are all that matters for it -/
theorem route_congr_on {tail head tail' head' : ℕ → String} {ok : ℕ → Prop} {a b : String}
    {p : List ℕ} (he : ∀ i, ok i → tail' i = tail i ∧ head' i = head i) :
    Route tail' head' ok a p b ↔ Route tail head ok a p b := by
  constructor
  · intro h
    induction h with
    | nil u => exact .nil u
    | cons hi _ ih =>
      rw [(he _ hi).1]
      exact .cons hi ((he _ hi).2 ▸ ih)
  · intro h
    induction h with
    | nil u => exact .nil u
    | cons hi _ ih =>
      rw [← (he _ hi).1]
      exact .cons hi ((he _ hi).2 ▸ ih)

theorem cheapest_congr_on {tail head tail' head' : ℕ → String} {cost cost' : ℕ → ℕ}
    {ok : ℕ → Prop} {a b : String} {p : List ℕ}
    (he : ∀ i, ok i → tail' i = tail i ∧ head' i = head i) (hc : ∀ i, ok i → cost' i = cost i) :
    Cheapest tail' head' cost' ok a p b ↔ Cheapest tail head cost ok a p b := by
  have ec : ∀ q, (∀ i ∈ q, ok i) → totalCost cost' q = totalCost cost q := fun q hq => by
    unfold totalCost
    rw [List.map_congr_left fun i hi => hc i (hq i hi)]
  unfold Cheapest
  constructor
  · rintro ⟨h1, h2⟩
    refine ⟨(route_congr_on he).1 h1, fun q hq => ?_⟩
    have := h2 q ((route_congr_on he).2 hq)
    rwa [ec p (Route.mem_ok h1), ec q (Route.mem_ok hq)] at this
  · rintro ⟨h1, h2⟩
    refine ⟨(route_congr_on he).2 h1, fun q hq => ?_⟩
    have := h2 q ((route_congr_on he).1 hq)
    rwa [ec p (Route.mem_ok h1), ec q (Route.mem_ok hq)]

end

end NTM
