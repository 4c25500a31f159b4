import Verif.Props.Haul
import Verif.Props.Symmetry
import Verif.Props.Matrix

/-!
# C114: costs of paths compose; C95: loads are not symmetric
-/

namespace NTM

open Spec

/-- what the simulation makes of a demand when there are no LSPs -/
theorem SimResult.fan {env : Env} {s s1 s' : State} {Δ : ℕ → ℕ → ℚ}
    (h : SimResult env s s1 s' Δ) (ht : Tidy s) (hsc : s.kind = .flex → NoShortcuts s)
    (hl : s.lsps = []) {d : ℕ} (hd : d ∈ s'.dmds) :
    ((s'.dmd d).path = none ∧
      ¬ Reachable s'.tail s'.head (Usable s' 0) (s'.dmdSrc d) (s'.dmdDst d)) ∨
    ∃ l, (s'.dmd d).path = some (l.map fun q => q.map Item.ifc) ∧ l ≠ [] ∧
      (∀ q, q ∈ l ↔ CheapestOver s' (Usable s' 0) (s'.dmdSrc d) q (s'.dmdDst d)) ∧
      ∀ q ∈ l, firstPathCost s' d = (totalCost (fun i => (s'.ifc i).cost) q : ℚ) := by
  have hd0 : d ∈ s.dmds := h.cfg.dmds ▸ hd
  obtain ⟨-, hr⟩ := h.noLsps hl
  rw [h.cfg.dmdSrc, h.cfg.dmdDst]
  rcases h.placed ht hsc hd0 with ⟨ls, g1, g2, -⟩ | ⟨-, h1 | ⟨l, p1, hne, -, hm⟩⟩
  · exact absurd ((hr _).unique g2).symm g1
  · exact .inl h1
  · refine .inr ⟨l, p1, hne, hm, fun q hq => ?_⟩
    unfold firstPathCost
    rw [p1]
    cases l with
    | nil => exact absurd rfl hne
    | cons q0 l =>
      simp only [List.map_cons]
      rw [pathLength_cost]
      have c1 := (hm q).1 hq
      have c2 := (hm q0).1 (by simp)
      exact_mod_cast le_antisymm (c2.2 _ c1.1) (c1.2 _ c2.1)

/-- **C114** Without LSPs and IGP shortcuts (both classes), for demands `d` from A to B, `e` from B
to C and `f` from A to C: if `d` and `e` are routed so is `f`, and its paths cost at most as much
as those of `d` and `e` together; if they cost just as much, every path of `d` followed by every
path of `e` is a path of `f`. -/
theorem C114_triangle {env : Env} {s s' : State} (ht : Tidy s)
    (hsc : s.kind = .flex → NoShortcuts s) (hl : s.lsps = [])
    (hrun : updateSimulation env s = .ok () s') {d e f : ℕ} (hd : d ∈ s'.dmds) (he : e ∈ s'.dmds)
    (hf : f ∈ s'.dmds) (h1 : s'.dmdSrc f = s'.dmdSrc d) (h2 : s'.dmdSrc e = s'.dmdDst d)
    (h3 : s'.dmdDst f = s'.dmdDst e) {ps qs : List (List Item)} (hps : (s'.dmd d).path = some ps)
    (hqs : (s'.dmd e).path = some qs) :
    ∃ rs, (s'.dmd f).path = some rs ∧
      firstPathCost s' f ≤ firstPathCost s' d + firstPathCost s' e ∧
      (firstPathCost s' f = firstPathCost s' d + firstPathCost s' e →
        ∀ p ∈ ps, ∀ q ∈ qs, p ++ q ∈ rs) := by
  obtain ⟨s1, Δ, h⟩ := sim_spec ht.dmds ht.ends ht.ckts hrun
  rcases h.fan ht hsc hl hd with ⟨p1, -⟩ | ⟨ld, p1, nd, md, cd⟩
  · rw [hps] at p1; cases p1
  rcases h.fan ht hsc hl he with ⟨p2, -⟩ | ⟨le, p2, ne, me, ce⟩
  · rw [hqs] at p2; cases p2
  rw [hps] at p1
  rw [hqs] at p2
  cases p1
  cases p2
  rw [h2] at me
  have join : ∀ p ∈ ld, ∀ q ∈ le,
      Route s'.tail s'.head (Usable s' 0) (s'.dmdSrc d) (p ++ q) (s'.dmdDst e) :=
    fun p hp q hq => route_append ((md p).1 hp).1 ((me q).1 hq).1
  obtain ⟨p0, hp0⟩ := List.exists_mem_of_ne_nil ld nd
  obtain ⟨q0, hq0⟩ := List.exists_mem_of_ne_nil le ne
  rcases h.fan ht hsc hl hf with ⟨-, n3⟩ | ⟨lf, p3, nf, mf, cf⟩
  · rw [h1, h3] at n3
    exact absurd ⟨_, join p0 hp0 q0 hq0⟩ n3
  rw [h1, h3] at mf
  obtain ⟨r0, hr0⟩ := List.exists_mem_of_ne_nil lf nf
  refine ⟨_, p3, ?_, ?_⟩
  · rw [cd p0 hp0, ce q0 hq0, cf r0 hr0]
    have := ((mf r0).1 hr0).2 _ (join p0 hp0 q0 hq0)
    rw [totalCost_append] at this
    exact_mod_cast this
  · intro heq p' hp' q' hq'
    obtain ⟨p, hp, rfl⟩ := List.mem_map.1 hp'
    obtain ⟨q, hq, rfl⟩ := List.mem_map.1 hq'
    rw [cd p hp, ce q hq, cf r0 hr0] at heq
    refine List.mem_map.2 ⟨p ++ q, (mf _).2 ⟨join p hp q hq, fun r hr => ?_⟩, by simp⟩
    have h4 := ((mf r0).1 hr0).2 r hr
    rw [totalCost_append]
    have heq : totalCost (fun i => (s'.ifc i).cost) r0 =
        totalCost (fun i => (s'.ifc i).cost) p + totalCost (fun i => (s'.ifc i).cost) q := by
      exact_mod_cast heq
    omega

/-- **C114** Conversely, where a path of `f` passes B, its two parts are a path of `d` and a path of
`e`, and the costs add up. -/
theorem C114_parts {env : Env} {s s' : State} (ht : Tidy s)
    (hsc : s.kind = .flex → NoShortcuts s) (hl : s.lsps = [])
    (hrun : updateSimulation env s = .ok () s') {d e f : ℕ} (hd : d ∈ s'.dmds) (he : e ∈ s'.dmds)
    (hf : f ∈ s'.dmds) (h1 : s'.dmdSrc f = s'.dmdSrc d) (h2 : s'.dmdSrc e = s'.dmdDst d)
    (h3 : s'.dmdDst f = s'.dmdDst e) {rs : List (List Item)} (hrs : (s'.dmd f).path = some rs)
    {x y : List Item} {i : ℕ} (hr : x ++ Item.ifc i :: y ∈ rs) (hi : s'.tail i = s'.dmdDst d) :
    (∃ ps, (s'.dmd d).path = some ps ∧ x ∈ ps) ∧
    (∃ qs, (s'.dmd e).path = some qs ∧ Item.ifc i :: y ∈ qs) ∧
    firstPathCost s' f = firstPathCost s' d + firstPathCost s' e := by
  obtain ⟨s1, Δ, h⟩ := sim_spec ht.dmds ht.ends ht.ckts hrun
  rcases h.fan ht hsc hl hf with ⟨p3, -⟩ | ⟨lf, p3, nf, mf, cf⟩
  · rw [hrs] at p3; cases p3
  rw [hrs] at p3
  cases p3
  obtain ⟨r, hrm, hre⟩ := List.mem_map.1 hr
  obtain ⟨x, y', rfl, rfl, hy'⟩ := List.map_eq_append_iff.1 hre
  obtain ⟨j, y, rfl, hj, rfl⟩ := List.map_eq_cons_iff.1 hy'
  cases hj
  have hc := (mf _).1 hrm
  rw [h1, h3] at hc
  obtain ⟨c1, c2⟩ := route_cut hc.1
  rw [hi] at c1 c2
  rcases h.fan ht hsc hl hd with ⟨-, n1⟩ | ⟨ld, p1, nd, md, cd⟩
  · exact absurd ⟨_, c1⟩ n1
  rcases h.fan ht hsc hl he with ⟨-, n2⟩ | ⟨le, p2, ne, me, ce⟩
  · rw [h2] at n2; exact absurd ⟨_, c2⟩ n2
  rw [h2] at me
  have k1 : x ∈ ld := (md x).2 ⟨c1, fun q hq => by
    have := hc.2 _ (route_append hq c2)
    rw [totalCost_append, totalCost_append] at this
    omega⟩
  have k2 : i :: y ∈ le := (me _).2 (cheapest_rest hc c1 c2).1
  refine ⟨⟨_, p1, List.mem_map.2 ⟨x, k1, rfl⟩⟩, ⟨_, p2, List.mem_map.2 ⟨i :: y, k2, rfl⟩⟩, ?_⟩
  rw [cf _ hrm, cd _ k1, ce _ k2, totalCost_append]
  push_cast
  ring

/-- the square with demands A→D, A→B and B→D -/
def Ex.relay (k : Kind) : State := Ex.mk k
  [{ name := "A" }, { name := "B" }, { name := "C" }, { name := "D" }]
  (Ex.link "ab" 0 1 10 100 1 ++ Ex.link "bd" 1 3 10 100 2 ++ Ex.link "ac" 0 2 10 100 3 ++
    Ex.link "cd" 2 3 10 100 4)
  [{ src := 0, dst := 3, traffic := 10, name := "f" },
   { src := 0, dst := 1, traffic := 3, name := "d" },
   { src := 1, dst := 3, traffic := 3, name := "e" }] [] []

example (k : Kind) : let s := Ex.relay k
    let s' := finalState (updateSimulation Env.default) s
    Tidy s ∧ NoShortcuts s ∧ s.lsps = [] ∧ raised (updateSimulation Env.default) s = none ∧
    s'.dmds = [0, 1, 2] ∧ s'.dmdSrc 0 = s'.dmdSrc 1 ∧ s'.dmdSrc 2 = s'.dmdDst 1 ∧
    s'.dmdDst 0 = s'.dmdDst 2 ∧ (s'.dmd 1).path = some [[Item.ifc 0]] ∧
    (s'.dmd 2).path = some [[Item.ifc 2]] ∧
    (s'.dmd 0).path = some [[Item.ifc 0, Item.ifc 2], [Item.ifc 4, Item.ifc 6]] ∧
    firstPathCost s' 0 = 20 ∧ s'.tail 2 = s'.dmdDst 1 := by
  cases k <;> (refine ⟨?_, ?_, ?_, ?_, ?_, ?_, ?_, ?_, ?_, ?_, ?_, ?_, ?_⟩ <;> decide +kernel)

/-- A fans out to B and C, B to E, F and G, and all of them meet again in D; demands of 12 in both
directions between A and D. -/
def Ex.echo (k : Kind) : State :=
  let s := Ex.fanOut k 12
  { s with dmds := [0, 1], dmd := fun d => if d = 1 then
      { src := 3, dst := 0, traffic := 12, name := "y" } else s.dmd d }

/-- **C95** The symmetry does not extend to loads: with symmetric costs and the same traffic in
both directions, A→B carries 6 and B→A 9, since traffic is split node by node. -/
theorem C95_load_false (k : Kind) : ∃ s s' : State, s.kind = k ∧ Tidy s ∧ NoShortcuts s ∧
    s.lsps = [] ∧ Spec.Symmetric s ∧ (∀ a b, offered s a b = offered s b a) ∧
    updateSimulation Env.default s = .ok () s' ∧
    ∃ i ∈ s.ifs, ∃ j ∈ s.ifs, Opposite s i j ∧ (s'.ifc i).traffic = .val 6 ∧
      (s'.ifc j).traffic = .val 9 := by
  refine ⟨Ex.echo k, finalState (updateSimulation Env.default) (Ex.echo k), rfl, ?_, ?_, rfl, ?_, ?_,
    ok_of_raised ?_, 0, ?_, 1, ?_, ?_, ?_, ?_⟩
  · cases k <;> decide +kernel
  · cases k <;> decide +kernel
  · unfold Spec.Symmetric Opposite; cases k <;> decide +kernel
  · intro a b
    have h : ∀ a b, offered (Ex.echo k) a b =
        (if "A" = a ∧ "D" = b then 12 else 0) + (if "D" = a ∧ "A" = b then 12 else 0) := by
      intro a b
      have e : (Ex.echo k).dmds = [0, 1] ∧ (Ex.echo k).dmdSrc 0 = "A" ∧ (Ex.echo k).dmdDst 0 = "D" ∧
          (Ex.echo k).dmdSrc 1 = "D" ∧ (Ex.echo k).dmdDst 1 = "A" ∧
          ((Ex.echo k).dmd 0).traffic = 12 ∧ ((Ex.echo k).dmd 1).traffic = 12 := by
        cases k <;> decide +kernel
      obtain ⟨e1, e2, e3, e4, e5, e6, e7⟩ := e
      unfold offered
      rw [e1, sum_filter_ite]
      simp only [List.map_cons, List.map_nil, List.sum_cons, List.sum_nil, e2, e3, e4, e5, e6, e7,
        decide_eq_true_eq, add_zero]
    rw [h, h, add_comm]
    congr 1 <;> exact if_congr and_comm rfl rfl
  · cases k <;> decide +kernel
  · cases k <;> decide +kernel
  · cases k <;> decide +kernel
  · unfold Opposite; cases k <;> decide +kernel
  · cases k <;> decide +kernel
  · cases k <;> decide +kernel

end NTM
