import Verif.Proof.Seed
import Verif.Props.Rerun

/-!
# C115: without ties the random seed does not matter
-/

namespace NTM

open Spec

/-- **C115** When no two loop-free paths between the ends of an LSP cost the same, the outcome of
`update_simulation()`, its results or its exception, is the same whatever the random number
generator returns. -/
theorem C115_seed_irrelevant (env : Env) (r : ℕ → ℕ) {s : State} (ht : Tidy s)
    (hs : s.kind = .perf → SingleLinks s) (hd : DistinctCosts s) :
    updateSimulation { env with rand := r } s = updateSimulation env s :=
  (calm_updateSimulation env r ⟨ht.ifs, ht.costs, hs⟩ hd).1

/-- **C115** Such a simulation draws no random number. -/
theorem C115_no_draw {env : Env} {s s' : State} (ht : Tidy s)
    (hs : s.kind = .perf → SingleLinks s) (hd : DistinctCosts s)
    (hrun : updateSimulation env s = .ok () s') : s'.rngPos = s.rngPos :=
  (calm_updateSimulation env env.rand ⟨ht.ifs, ht.costs, hs⟩ hd).2 () s' hrun

/-- **C115** So it can be repeated any number of times, without resetting the generator, and gives
the same results each time. -/
theorem C115_repeatable {env : Env} {s s' : State} (ht : Tidy s) (hu : UniqueIfcKeys s)
    (hs : s.kind = .perf → SingleLinks s) (hd : DistinctCosts s)
    (hrun : updateSimulation env s = .ok () s') (n : ℕ) :
    ∃ t, forEach (List.range n) (fun _ => updateSimulation env) s' = .ok () t ∧
      SameResults s' t :=
  C76_rerun_deterministic ht hu hrun (C115_no_draw ht hs hd hrun) n

/-! ### The hypothesis on a concrete network -/

/-- the routes with `n` links that leave `u` over the interfaces of `s` -/
def Ex.routes (s : State) : ℕ → String → List (List ℕ)
  | 0, _ => [[]]
  | n + 1, u => (s.ifs.filter fun i => decide (s.tail i = u)).flatMap fun i =>
      (Ex.routes s n (s.head i)).map (i :: ·)

/-- every loop-free route is in this list -/
def Ex.shortRoutes (s : State) (u v : String) : List (List ℕ) :=
  (List.range (s.nodeNames.length + 1)).flatMap fun n => (Ex.routes s n u).filter fun p =>
    decide ((visited s.head u p).Nodup) && decide ((visited s.head u p).getLast? = some v)

theorem Ex.mem_routes {s : State} {u v : String} {p : List ℕ}
    (h : Route s.tail s.head (RsvpUp s) u p v) :
    p ∈ Ex.routes s p.length u ∧ (visited s.head u p).getLast? = some v := by
  induction h with
  | nil u => exact ⟨by simp [Ex.routes], rfl⟩
  | @cons i p v hi _ ih =>
    refine ⟨?_, ?_⟩
    · simp only [List.length_cons, Ex.routes, List.mem_flatMap, List.mem_filter, List.mem_map]
      exact ⟨i, ⟨hi.1, by simp⟩, p, ih.1, rfl⟩
    · have := ih.2
      unfold visited at this ⊢
      rw [List.map_cons, List.getLast?_cons_cons]
      exact this

theorem Ex.distinctCosts {s : State} (hh : ∀ i ∈ s.ifs, s.head i ∈ s.nodeNames)
    (h : ∀ l ∈ s.lsps, ∀ p ∈ Ex.shortRoutes s (s.lspSrc l) (s.lspDst l),
      ∀ q ∈ Ex.shortRoutes s (s.lspSrc l) (s.lspDst l),
        totalCost (fun i => (s.ifc i).cost) p = totalCost (fun i => (s.ifc i).cost) q → p = q) :
    DistinctCosts s := by
  have key : ∀ u v p, SimpleRoute s.tail s.head (RsvpUp s) u p v → p ∈ Ex.shortRoutes s u v := by
    intro u v p hp
    have hm := Ex.mem_routes hp.1
    have hin : ∀ u v p, Route s.tail s.head (RsvpUp s) u p v → ∀ i ∈ p, i ∈ s.ifs := by
      intro u v p hr
      induction hr with
      | nil => simp
      | cons hi _ ih =>
        intro j hj
        rcases List.mem_cons.1 hj with rfl | hj
        · exact hi.1
        · exact ih j hj
    have hlen : p.length ≤ s.nodeNames.length := by
      have hnd : (p.map s.head).Nodup := (List.nodup_cons.1 hp.2).2
      have hsub : p.map s.head ⊆ s.nodeNames := by
        intro x hx
        obtain ⟨i, hi, rfl⟩ := List.mem_map.1 hx
        exact hh i (hin _ _ _ hp.1 i hi)
      have := (hnd.subperm hsub).length_le
      rwa [List.length_map] at this
    unfold Ex.shortRoutes
    simp only [List.mem_flatMap, List.mem_range, List.mem_filter, Bool.and_eq_true,
      decide_eq_true_eq]
    exact ⟨p.length, by omega, hm.1, hp.2, hm.2⟩
  intro l hl p q hp hq hc
  exact h l hl p (key _ _ _ hp) q (key _ _ _ hq) hc

/-- the hypotheses hold for the triangle, whose LSP has two paths, of costs 20 and 30; the LSP is
routed and carries a demand -/
example (k : Kind) : Tidy (Ex.triangle k) ∧ UniqueIfcKeys (Ex.triangle k) ∧
    ((Ex.triangle k).kind = .perf → SingleLinks (Ex.triangle k)) ∧ DistinctCosts (Ex.triangle k) ∧
    raised (updateSimulation Env.default) (Ex.triangle k) = none ∧
    ((finalState (updateSimulation Env.default) (Ex.triangle k)).dmd 0).path = some [[.lsp 0]] := by
  refine ⟨?_, ?_, ?_, Ex.distinctCosts ?_ ?_, ?_, ?_⟩ <;> cases k <;> decide +kernel

/-- a square in which the LSP has two paths of the same cost and length -/
def Ex.tied (k : Kind) : State := Ex.mk k
  [{ name := "A" }, { name := "B" }, { name := "C" }, { name := "D" }]
  (Ex.link "ab" 0 1 10 100 1 ++ Ex.link "bd" 1 3 10 100 2 ++ Ex.link "ac" 0 2 10 100 3 ++
    Ex.link "cd" 2 3 10 100 4)
  [{ src := 0, dst := 3, traffic := 7, name := "x" }] [{ src := 0, dst := 3, name := "l" }] []

/-- **C115** With a tie the seed does matter: in the square, where every other hypothesis of
`C115_seed_irrelevant` holds, two seeds load different links. -/
theorem C115_tie_matters (k : Kind) : Tidy (Ex.tied k) ∧ SingleLinks (Ex.square k) ∧
    ((finalState (updateSimulation { Env.default with rand := fun _ => 0 })
      (Ex.tied k)).ifc 0).traffic ≠
    ((finalState (updateSimulation { Env.default with rand := fun _ => 1 })
      (Ex.tied k)).ifc 0).traffic := by
  refine ⟨?_, ?_, ?_⟩ <;> cases k <;> decide +kernel

end NTM
