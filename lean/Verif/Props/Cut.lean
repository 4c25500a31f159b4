import Verif.Spec.Cut
import Verif.Props.Balance

/-!
# C99, C100: traffic across the border of a set of nodes
-/

namespace NTM

open Spec

theorem sum_fibers {α : Type} (g : α → String) (f : α → ℚ) (N : Finset String) (l : List α) :
    ∑ u ∈ N, ((l.filter fun i => g i = u).map f).sum =
      (l.map fun i => if g i ∈ N then f i else 0).sum := by
  induction l with
  | nil => simp
  | cons a l ih =>
    rw [List.map_cons, List.sum_cons, ← ih, ← Finset.sum_ite_eq N (g a) fun _ => f a,
      ← Finset.sum_add_distrib]
    refine Finset.sum_congr rfl fun u _ => ?_
    rw [List.filter_cons]
    by_cases h : g a = u <;> simp [h]

theorem sum_map_sub {α : Type} (f g : α → ℚ) (l : List α) :
    (l.map fun i => f i - g i).sum = (l.map f).sum - (l.map g).sum := by
  induction l with
  | nil => simp
  | cons a l ih => simp only [List.map_cons, List.sum_cons, ih]; ring

theorem sum_filter_ite {α : Type} (P : α → Bool) (f : α → ℚ) (l : List α) :
    ((l.filter P).map f).sum = (l.map fun i => if P i then f i else 0).sum := by
  induction l with
  | nil => rfl
  | cons a l ih =>
    rw [List.filter_cons, List.map_cons, List.sum_cons, ← ih]
    cases P a <;> simp

/-- a flow in balance everywhere but at two end points crosses the border of a set according to
the sides of its end points -/
theorem cut_of_netFlow {s : State} {f : ℕ → ℚ} {a b : String} {q : ℚ}
    (h : ∀ u, netFlow s f u = atEnds a b u q) (W : String → Bool) :
    ((outOf s W).map f).sum - ((into s W).map f).sum =
      (if W a && !W b then q else 0) - (if !W a && W b then q else 0) := by
  let M : Finset String := (s.ifs.map s.tail ++ s.ifs.map s.head ++ [a, b]).toFinset
  let N := M.filter fun u => W u = true
  have hN : ∀ u, u ∈ M → (u ∈ N ↔ W u = true) := fun u hu => by simp [N, hu]
  have hsum : ∑ u ∈ N, netFlow s f u = ∑ u ∈ N, atEnds a b u q :=
    Finset.sum_congr rfl fun u _ => h u
  unfold netFlow atEnds at hsum
  rw [Finset.sum_sub_distrib, Finset.sum_sub_distrib, sum_fibers, sum_fibers] at hsum
  have ha : (∑ u ∈ N, if a = u then q else 0) = if W a then q else 0 := by
    rw [Finset.sum_ite_eq]
    simp only [hN a (by simp [M])]
  have hb : (∑ u ∈ N, if b = u then q else 0) = if W b then q else 0 := by
    rw [Finset.sum_ite_eq]
    simp only [hN b (by simp [M])]
  rw [ha, hb] at hsum
  have e1 : (s.ifs.map fun i => if s.tail i ∈ N then f i else 0) =
      s.ifs.map fun i => if W (s.tail i) then f i else 0 :=
    List.map_congr_left fun i hi => by
      simp only [hN (s.tail i) (by simp only [M, List.mem_toFinset, List.mem_append, List.mem_map]
                                   exact .inl (.inl ⟨i, hi, rfl⟩))]
  have e2 : (s.ifs.map fun i => if s.head i ∈ N then f i else 0) =
      s.ifs.map fun i => if W (s.head i) then f i else 0 :=
    List.map_congr_left fun i hi => by
      simp only [hN (s.head i) (by simp only [M, List.mem_toFinset, List.mem_append, List.mem_map]
                                   exact .inl (.inr ⟨i, hi, rfl⟩))]
  rw [e1, e2] at hsum
  have key : ((outOf s W).map f).sum - ((into s W).map f).sum =
      (s.ifs.map fun i => if W (s.tail i) then f i else 0).sum -
        (s.ifs.map fun i => if W (s.head i) then f i else 0).sum := by
    unfold outOf into
    rw [sum_filter_ite, sum_filter_ite]
    generalize s.ifs = l
    induction l with
    | nil => rfl
    | cons i l ih =>
      simp only [List.map_cons, List.sum_cons]
      cases W (s.tail i) <;> cases W (s.head i) <;>
        simp only [Bool.not_true, Bool.not_false, Bool.and_true, Bool.and_false, if_true, if_false,
          Bool.false_eq_true] <;> linarith
  rw [key, hsum]
  cases W a <;> cases W b <;> simp

theorem SimResult.trafficOn_eq {env : Env} {s s1 s' : State} {Δ : ℕ → ℕ → ℚ}
    (h : SimResult env s s1 s' Δ) {is : List ℕ} (his : ∀ i ∈ is, i ∈ s'.ifs) :
    trafficOn s' is = (s.dmds.map fun d => (is.map (Δ d)).sum).sum := by
  unfold trafficOn
  rw [List.map_congr_left fun i hi => h.trafficValue_eq i (his i hi)]
  generalize s.dmds = ds
  induction ds with
  | nil => simp
  | cons d ds ih =>
    simp only [List.map_cons, List.sum_cons, ← ih]
    rw [List.sum_map_add]

/-- **C99** In a FlexModel without IGP shortcuts, after `update_simulation()`, for every set of
nodes: the traffic on the interfaces leading out of the set, less the traffic on the interfaces
leading into it, is the traffic of the routed demands from inside to outside less that of those
from outside to inside.  (The side conditions of C81.) -/
theorem C99_cut_balance_partial {env : Env} {s s' : State} (hk : s.kind = .flex) (ht : Tidy s)
    (hsc : NoShortcuts s) (hkeys : KeysDistinct s) (hrun : updateSimulation env s = .ok () s')
    (hx : SingleLinks s ∨ AllOrNone s') (W : String → Bool) :
    trafficOn s' (outOf s' W) - trafficOn s' (into s' W) = demandOut s' W - demandIn s' W := by
  obtain ⟨s1, Δ, h⟩ := sim_spec ht.dmds ht.ends ht.ckts hrun
  have hcut : ∀ d ∈ s.dmds, ((outOf s' W).map (Δ d)).sum - ((into s' W).map (Δ d)).sum =
      (if (s'.dmd d).path = none then 0 else
        (if W (s'.dmdSrc d) && !W (s'.dmdDst d) then (s'.dmd d).traffic else 0) -
        (if !W (s'.dmdSrc d) && W (s'.dmdDst d) then (s'.dmd d).traffic else 0)) := by
    intro d hd
    have hn := fun u => h.netFlow_demand hk ht hsc hkeys hrun hx u d hd
    split
    · next hp =>
      have := cut_of_netFlow (a := s'.dmdSrc d) (b := s'.dmdDst d) (q := 0) (f := Δ d) (s := s')
        (fun u => by rw [hn, if_pos hp]; simp [atEnds]) W
      simpa using this
    · next hp => exact cut_of_netFlow (fun u => by rw [hn, if_neg hp]) W
  rw [h.trafficOn_eq (is := outOf s' W) fun i hi => (List.mem_filter.1 hi).1,
    h.trafficOn_eq (is := into s' W) fun i hi => (List.mem_filter.1 hi).1]
  unfold demandOut demandIn
  rw [h.cfg.dmds, sum_filter_ite, sum_filter_ite, ← sum_map_sub, ← sum_map_sub]
  refine congrArg List.sum (List.map_congr_left fun d hd => ?_)
  rw [hcut d hd]
  by_cases hp : (s'.dmd d).path = none <;> cases W (s'.dmdSrc d) <;> cases W (s'.dmdDst d) <;>
    simp [hp]

/-- **C99** is false without the side conditions: in the model of C81 the border of {A} is crossed
by twelve units of traffic, but only six are demanded. -/
theorem C99_cut_balance_false : ∃ (s s' : State) (W : String → Bool), s.kind = .flex ∧ Tidy s ∧
    NoShortcuts s ∧ KeysDistinct s ∧ updateSimulation Env.default s = .ok () s' ∧
    trafficOn s' (outOf s' W) = 12 ∧ trafficOn s' (into s' W) = 0 ∧ demandOut s' W = 6 ∧
    demandIn s' W = 0 := by
  refine ⟨Ex.doubled, finalState (updateSimulation Env.default) Ex.doubled, fun u => u = "A",
    rfl, ?_, ?_, ?_, ok_of_raised ?_, ?_, ?_, ?_, ?_⟩ <;> decide +kernel

/-- a path from inside to outside has a hop that leads out -/
theorem route_leaves {tail head : ℕ → String} {ok : ℕ → Prop} {a b : String} {p : List ℕ}
    (h : Route tail head ok a p b) {W : String → Bool} (ha : W a = true) (hb : W b = false) :
    ∃ i ∈ p, W (tail i) = true ∧ W (head i) = false := by
  induction h with
  | nil => rw [ha] at hb; cases hb
  | @cons i b p hok _ ih =>
    cases hh : W (head i) with
    | false => exact ⟨i, by simp, ha, hh⟩
    | true =>
      obtain ⟨j, hj, h1⟩ := ih hh hb
      exact ⟨j, by simp [hj], h1⟩

theorem sum_swap {α β : Type} (f : α → β → ℚ) (l : List α) (m : List β) :
    (l.map fun a => (m.map fun b => f a b).sum).sum = (m.map fun b => (l.map fun a => f a b).sum).sum := by
  induction l with
  | nil => simp
  | cons a l ih => simp only [List.map_cons, List.sum_cons, ih, List.sum_map_add]

theorem sum_ge_of_mem {l : List ℕ} {f : ℕ → ℚ} (h0 : ∀ i ∈ l, 0 ≤ f i) {i : ℕ} (hi : i ∈ l) {c : ℚ}
    (hc : c ≤ f i) : c ≤ (l.map f).sum :=
  hc.trans (List.single_le_sum (fun x hx => by
    obtain ⟨j, hj, rfl⟩ := List.mem_map.1 hx
    exact h0 j hj) _ (List.mem_map_of_mem hi))

/-- every routed demand from inside to outside crosses the border in full -/
theorem SimResult.leaves {env : Env} {s s1 s' : State} {Δ : ℕ → ℕ → ℚ}
    (h : SimResult env s s1 s' Δ) (hk : s.kind = .flex) (ht : Tidy s) (hsc : NoShortcuts s)
    (hkeys : KeysDistinct s) (hnn : NonnegTraffic s) (hrun : updateSimulation env s = .ok () s')
    {W : String → Bool} {d : ℕ} (hd : d ∈ s.dmds) (hp : (s'.dmd d).path ≠ none)
    (hΔ : ∀ i, 0 ≤ Δ d i) (h1 : W (s'.dmdSrc d) = true) (h2 : W (s'.dmdDst d) = false) :
    (s'.dmd d).traffic ≤ ((outOf s' W).map (Δ d)).sum := by
  have hnd : s'.ifs.Nodup := by rw [h.cfg.ifs]; exact ht.ifs
  rcases h.placed ht (fun _ => hsc) hd with ⟨ls, g1, g2, g3⟩ | ⟨hr, -⟩
  · obtain ⟨-, hl⟩ := h.lspLoad ht hd g1 g2 g3
    have hlen : (0 : ℚ) < ls.length := by exact_mod_cast List.length_pos_iff.2 g1
    have htr : 0 ≤ (s'.dmd d).traffic := by rw [h.cfg.dmd d]; exact hnn d hd
    have hshare : 0 ≤ (s'.dmd d).traffic / ls.length := div_nonneg htr hlen.le
    rw [show Δ d = _ from funext hl, sum_swap]
    have hone : ∀ l ∈ ls, (s'.dmd d).traffic / ls.length ≤ ((outOf s' W).map fun i =>
        if crosses s' l i then (s'.dmd d).traffic / ls.length else 0).sum := by
      intro l hlm
      obtain ⟨⟨a1, a2, a3⟩, p, c, m, hlp⟩ := (h.mem_group ht hkeys hd).1 ((g2.mem_iff l).1 hlm).1
      obtain ⟨q, hq, hsub, -⟩ := C15_runs_along ht hrun a1 hlp
      obtain ⟨i, hi, w1, w2⟩ := route_leaves hq (W := W) (by rw [a2]; exact h1) (by rw [a3]; exact h2)
      have him := (Route.mem_ok hq i hi).1
      refine sum_ge_of_mem (fun j _ => ?_) (i := i)
        (List.mem_filter.2 ⟨him, by simp [w1, w2]⟩) ?_
      · split
        · exact hshare
        · exact le_refl _
      · have : crosses s' l i = true := by unfold crosses; rw [hlp]; simpa using hsub i hi
        simp only [this, if_true]
        exact le_refl _
    calc (s'.dmd d).traffic = (ls.map fun _ => (s'.dmd d).traffic / ls.length).sum := by
          rw [List.map_const', List.sum_replicate, nsmul_eq_mul]
          field_simp
      _ ≤ _ := List.sum_le_sum hone
  · rcases h.igp ht (fun _ => hsc) hd hr with ⟨p1, -⟩ | ⟨l, det, p1, L⟩
    · exact absurd p1 hp
    · have := cut_of_netFlow (L.netFlow (h.cfg.kind.trans hk) hnd) W
      rw [h1, h2] at this
      have h0 : 0 ≤ ((into s' W).map (Δ d)).sum := List.sum_nonneg fun x hx => by
        obtain ⟨i, -, rfl⟩ := List.mem_map.1 hx
        exact hΔ i
      simp at this
      linarith

/-- **C100** In a FlexModel without IGP shortcuts and with demands of non-negative traffic, for
every set of nodes, the interfaces leading out of it carry at least the traffic of the routed
demands from inside to outside. -/
theorem C100_cut_lower_bound {env : Env} {s s' : State} (hk : s.kind = .flex) (ht : Tidy s)
    (hsc : NoShortcuts s) (hkeys : KeysDistinct s) (hnn : NonnegTraffic s)
    (hrun : updateSimulation env s = .ok () s') (W : String → Bool) :
    demandOut s' W ≤ trafficOn s' (outOf s' W) := by
  obtain ⟨s1, Δ, h⟩ := sim_spec ht.dmds ht.ends ht.ckts hrun
  have hΔ : ∀ d ∈ s.dmds, ∀ i, 0 ≤ Δ d i := fun d hd i => by
    rw [h.delta_eq ht (fun _ => hsc) hd]
    exact (C80_contribution_bounds_flex hk ht hsc hnn hrun (by rw [h.cfg.dmds]; exact hd) i).1
  rw [h.trafficOn_eq (is := outOf s' W) fun i hi => (List.mem_filter.1 hi).1]
  unfold demandOut
  rw [h.cfg.dmds, sum_filter_ite]
  refine List.sum_le_sum fun d hd => ?_
  split
  · next hb =>
    simp only [Bool.and_eq_true, decide_eq_true_eq, Bool.not_eq_true'] at hb
    exact h.leaves hk ht hsc hkeys hnn hrun hd hb.1 (hΔ d hd) hb.2.1 hb.2.2
  · exact List.sum_nonneg fun x hx => by
      obtain ⟨i, -, rfl⟩ := List.mem_map.1 hx
      exact hΔ d hd i

/-- **C100** A set of nodes with more routed demand to the outside than capacity to the outside has
an overloaded interface on its border. -/
theorem C100_overload {env : Env} {s s' : State} (hk : s.kind = .flex) (ht : Tidy s)
    (hsc : NoShortcuts s) (hkeys : KeysDistinct s) (hnn : NonnegTraffic s)
    (hrun : updateSimulation env s = .ok () s') (W : String → Bool)
    (hover : ((outOf s' W).map fun i => (s'.ifc i).capacity).sum < demandOut s' W) :
    ∃ i ∈ s'.ifs, W (s'.tail i) = true ∧ W (s'.head i) = false ∧
      (s'.ifc i).capacity < trafficValue (s'.ifc i).traffic := by
  have hb := C100_cut_lower_bound hk ht hsc hkeys hnn hrun W
  by_contra hno
  push Not at hno
  refine absurd (lt_of_lt_of_le hover hb) (not_lt.2 ?_)
  unfold trafficOn
  refine List.sum_le_sum fun i hi => ?_
  obtain ⟨h1, h2⟩ := List.mem_filter.1 hi
  simp only [Bool.and_eq_true, Bool.not_eq_true'] at h2
  exact hno i h1 h2.1 h2.2

/-- the diamond, cut around A and B: one demand rides LSPs, the other does not -/
example : Tidy (Ex.diamond .flex) ∧ NoShortcuts (Ex.diamond .flex) ∧ KeysDistinct (Ex.diamond .flex) ∧
    NonnegTraffic (Ex.diamond .flex) ∧ SingleLinks (Ex.diamond .flex) ∧
    raised (updateSimulation Env.default) (Ex.diamond .flex) = none ∧
    let s' := finalState (updateSimulation Env.default) (Ex.diamond .flex)
    let W : String → Bool := fun u => u = "A" || u = "B"
    outOf s' W = [2, 4, 8] ∧ demandOut s' W = 27 ∧ trafficOn s' (outOf s' W) = 27 ∧
    demandIn s' W = 0 := by
  refine ⟨?_, ?_, ?_, ?_, ?_, ?_, ?_, ?_, ?_, ?_⟩ <;> decide +kernel

/-- the diamond with a demand larger than what leaves A -/
def Ex.jammed : State := (Ex.diamond .flex).updDmd 0 fun x => { x with traffic := 300 }

example : Tidy Ex.jammed ∧ NoShortcuts Ex.jammed ∧ KeysDistinct Ex.jammed ∧
    NonnegTraffic Ex.jammed ∧
    raised (updateSimulation Env.default) Ex.jammed = none ∧
    let s' := finalState (updateSimulation Env.default) Ex.jammed
    let W : String → Bool := fun u => u = "A"
    ((outOf s' W).map fun i => (s'.ifc i).capacity).sum = 210 ∧ demandOut s' W = 303 := by
  refine ⟨?_, ?_, ?_, ?_, ?_, ?_, ?_⟩ <;> decide +kernel

end NTM
