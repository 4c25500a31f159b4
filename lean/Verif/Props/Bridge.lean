import Verif.Props.Loop

/-!
# C117: a bridge carries exactly the traffic between its two sides
-/

namespace NTM

open Spec

section
variable {tail head : ℕ → String} {ok : ℕ → Prop} {a b x y : String} {q : List ℕ}
  {W : String → Bool}

/-- a loop-free route that crosses a bridge outwards starts inside -/
theorem bridge_start (h : Route tail head ok a q b)
    (hw : ∀ i, ok i → W (tail i) = true → W (head i) = false → tail i = x ∧ head i = y)
    (hw' : ∀ i, ok i → W (tail i) = false → W (head i) = true → tail i = y ∧ head i = x)
    (hs : (visited head a q).Nodup) {i : ℕ} (hi : i ∈ q) (h1 : W (tail i) = true)
    (h2 : W (head i) = false) : W a = true := by
  induction h with
  | nil => cases hi
  | @cons j p b hj hr ih =>
    rcases List.mem_cons.1 hi with rfl | hi
    · exact h1
    · have hs' : (visited head (head j) p).Nodup := (List.nodup_cons.1 hs).2
      have e0 := ih hs' hi
      by_contra hc
      have e1 := hw' j hj (by simpa using hc) e0
      have e2 := hw i (Route.mem_ok hr i hi) h1 h2
      refine absurd ?_ (List.nodup_cons.1 hs).1
      rw [e1.1, ← e2.2]
      exact List.mem_map_of_mem (List.mem_cons_of_mem _ hi)

/-- and ends outside -/
theorem bridge_end (h : Route tail head ok a q b)
    (hw : ∀ i, ok i → W (tail i) = true → W (head i) = false → tail i = x ∧ head i = y)
    (hw' : ∀ i, ok i → W (tail i) = false → W (head i) = true → tail i = y ∧ head i = x)
    (hs : (visited head a q).Nodup) {i : ℕ} (hi : i ∈ q) (h1 : W (tail i) = true)
    (h2 : W (head i) = false) : W b = false := by
  induction h with
  | nil => cases hi
  | @cons j p b hj hr ih =>
    have hs' : (visited head (head j) p).Nodup := (List.nodup_cons.1 hs).2
    rcases List.mem_cons.1 hi with rfl | hi
    · by_contra hc
      obtain ⟨k, hk, e3, e4⟩ := route_leaves hr (W := fun u => !W u) (by simp [h2]) (by simpa using hc)
      simp only [Bool.not_eq_true', Bool.not_eq_false'] at e3 e4
      have e1 := hw i hj h1 h2
      have e2 := hw' k (Route.mem_ok hr k hk) e3 e4
      refine absurd ?_ (List.nodup_cons.1 hs).1
      rw [e1.1, ← e2.2]
      exact List.mem_map_of_mem (List.mem_cons_of_mem _ hk)
    · exact ih hs' hi

end

theorem Bridge.symm {s : State} {W : String → Bool} (h : Bridge s W) : Bridge s fun u => !W u := by
  obtain ⟨x, y, h⟩ := h
  refine ⟨y, x, fun i hi => ⟨fun h1 h2 => ?_, fun h1 h2 => ?_⟩⟩ <;>
    simp only [Bool.not_eq_true', Bool.not_eq_false'] at h1 h2
  · exact (h i hi).2 h1 h2
  · exact (h i hi).1 h1 h2

theorem LoopFree.bridge {s : State} {a b : String} {p : List ℕ} {W : String → Bool}
    (h : LoopFree s a p b) (hw : Bridge s W) {i : ℕ} (hi : i ∈ p) (h1 : W (s.tail i) = true)
    (h2 : W (s.head i) = false) : W a = true ∧ W b = false := by
  obtain ⟨q, ⟨g1, g2⟩, -, g3⟩ := h
  obtain ⟨x, y, hw⟩ := hw
  obtain ⟨j, hj, e1, e2⟩ := g3 i hi
  rw [e1] at h1
  rw [e2] at h2
  exact ⟨bridge_start g1 (fun k hk => (hw k hk.1).1) (fun k hk => (hw k hk.1).2) g2 hj h1 h2,
    bridge_end g1 (fun k hk => (hw k hk.1).1) (fun k hk => (hw k hk.1).2) g2 hj h1 h2⟩

/-- **C117** Without IGP shortcuts (both classes), where all circuits between a set of nodes and
the rest of the network connect the same two nodes, a path of a demand crosses from the set to the
rest only if the demand does. -/
theorem C117_bridge_paths {env : Env} {s s' : State} (ht : Tidy s)
    (hsc : s.kind = .flex → NoShortcuts s) (hkeys : KeysDistinct s)
    (hrun : updateSimulation env s = .ok () s') {W : String → Bool} (hw : Bridge s' W) {d : ℕ}
    (hd : d ∈ s'.dmds) {paths : List (List Item)} (hp : (s'.dmd d).path = some paths)
    {r : List Item} (hr : r ∈ paths) {i : ℕ} (hi : i ∈ unfolded s' r)
    (h1 : W (s'.tail i) = true) (h2 : W (s'.head i) = false) :
    W (s'.dmdSrc d) = true ∧ W (s'.dmdDst d) = false :=
  LoopFree.bridge (C116_demand_loop_free ht hsc hkeys hrun hd hp hr) hw hi h1 h2

/-- **C117** In a FlexModel the circuits of the bridge carry, in each direction, exactly the traffic
of the routed demands in that direction.  LSP paths must be contiguous, as for C81. -/
theorem C117_bridge_traffic {env : Env} {s s' : State} (hk : s.kind = .flex) (ht : Tidy s)
    (hsc : NoShortcuts s) (hkeys : KeysDistinct s) (hrun : updateSimulation env s = .ok () s')
    (hx : SingleLinks s ∨ AllOrNone s') {W : String → Bool} (hw : Bridge s' W) :
    trafficOn s' (outOf s' W) = demandOut s' W ∧ trafficOn s' (into s' W) = demandIn s' W := by
  have hbal := C99_cut_balance_partial hk ht hsc hkeys hrun hx W
  have hout : trafficOn s' (outOf s' W) = demandOut s' W := by
    obtain ⟨s1, Δ, h⟩ := sim_spec ht.dmds ht.ends ht.ckts hrun
    rw [h.trafficOn_eq (is := outOf s' W) fun i hi => (List.mem_filter.1 hi).1]
    unfold demandOut
    rw [h.cfg.dmds, sum_filter_ite]
    refine congrArg _ (List.map_congr_left fun d hd => ?_)
    have hd' : d ∈ s'.dmds := by rw [h.cfg.dmds]; exact hd
    have hz : ∀ is : List ℕ, (∀ i ∈ is, ∀ paths, (s'.dmd d).path = some paths → ∀ r ∈ paths,
        i ∉ unfolded s' r) → (is.map (Δ d)).sum = 0 := by
      intro is his
      refine List.sum_eq_zero fun x hx => ?_
      obtain ⟨i, hi, rfl⟩ := List.mem_map.1 hx
      exact h.off_path hk ht hsc hd (his i hi)
    by_cases hp : (s'.dmd d).path = none
    · rw [hz _ fun i _ paths hq => by rw [hp] at hq; cases hq]
      simp [hp]
    by_cases he : W (s'.dmdSrc d) = true ∧ W (s'.dmdDst d) = false
    · have hcut := cut_of_netFlow (s := s') (f := Δ d) (a := s'.dmdSrc d) (b := s'.dmdDst d)
          (q := (s'.dmd d).traffic) (fun u => by
            rw [h.netFlow_demand hk ht hsc hkeys hrun hx u d hd, if_neg hp]) W
      rw [hz (into s' W) fun i hi paths hq r hr hir => ?_] at hcut
      · simpa [hp, he.1, he.2] using hcut
      · have hb := (List.mem_filter.1 hi).2
        simp only [Bool.and_eq_true, Bool.not_eq_true'] at hb
        have := (C117_bridge_paths ht (fun _ => hsc) hkeys hrun (Bridge.symm hw) hd' hq hr hir
          (by simp [hb.1]) (by simp [hb.2])).1
        simp [he.1] at this
    · rw [hz _ fun i hi paths hq r hr hir => ?_]
      · rw [if_neg]
        simpa [hp] using he
      · have hb := (List.mem_filter.1 hi).2
        simp only [Bool.and_eq_true, Bool.not_eq_true'] at hb
        exact he (C117_bridge_paths ht (fun _ => hsc) hkeys hrun hw hd' hq hr hir hb.1 hb.2)
  exact ⟨hout, by linarith⟩

/-- **C117** Where every interface that leads from a set of nodes to the rest of the network is
down, no demand from the set to the rest and no such LSP is routed. -/
theorem C117_partition {env : Env} {s s' : State} (ht : Tidy s)
    (hsc : s.kind = .flex → NoShortcuts s) (hkeys : KeysDistinct s)
    (hrun : updateSimulation env s = .ok () s') {W : String → Bool}
    (hdown : ∀ i ∈ outOf s' W, (s'.ifc i).failed = true) :
    (∀ d ∈ s'.dmds, W (s'.dmdSrc d) = true → W (s'.dmdDst d) = false → (s'.dmd d).path = none) ∧
    ∀ l ∈ s'.lsps, W (s'.lspSrc l) = true → W (s'.lspDst l) = false → ¬ IsRouted s' l := by
  have key : ∀ a b p, LoopFree s' a p b → W a = true → W b = false → False := by
    rintro a b p ⟨q, ⟨g1, -⟩, -⟩ ha hb
    obtain ⟨i, hi, e1, e2⟩ := route_leaves g1 ha hb
    obtain ⟨f1, f2⟩ := Route.mem_ok g1 i hi
    have := hdown i (List.mem_filter.2 ⟨f1, by simp [e1, e2]⟩)
    rw [f2] at this
    cases this
  refine ⟨fun d hd h1 h2 => ?_, ?_⟩
  · by_contra hp
    obtain ⟨paths, hp⟩ := Option.ne_none_iff_exists'.1 hp
    obtain ⟨r, hr⟩ : ∃ r, r ∈ paths := by
      obtain ⟨s1, Δ, h⟩ := sim_spec ht.dmds ht.ends ht.ckts hrun
      rcases h.placed ht hsc (h.cfg.dmds ▸ hd) with ⟨ls, g1, -, g3⟩ | ⟨-, ⟨g, -⟩ | ⟨l, g, g1, -⟩⟩
      · rw [hp] at g3; cases g3
        exact List.exists_mem_of_ne_nil _ (by simpa using g1)
      · rw [hp] at g; cases g
      · rw [hp] at g; cases g
        exact List.exists_mem_of_ne_nil _ (by simpa using g1)
    exact key _ _ _ (C116_demand_loop_free ht hsc hkeys hrun hd hp hr) h1 h2
  · rintro l hl h1 h2 ⟨p, c, m, hp⟩
    exact key _ _ _ (C116_lsp_loop_free ht hrun hl hp) h1 h2

/-- two triangles joined by the circuit C-D, with demands across it both ways and within both
triangles; an LSP from A to F crosses it too -/
def Ex.joined (k : Kind) : State := Ex.mk k
  [{ name := "A" }, { name := "B" }, { name := "C" }, { name := "D" }, { name := "E" }, { name := "F" }]
  (Ex.link "ab" 0 1 10 100 1 ++ Ex.link "bc" 1 2 10 100 2 ++ Ex.link "ac" 0 2 20 100 3 ++
    Ex.link "cd" 2 3 10 100 4 ++ Ex.link "de" 3 4 10 100 5 ++ Ex.link "ef" 4 5 10 100 6 ++
    Ex.link "df" 3 5 20 100 7)
  [{ src := 0, dst := 5, traffic := 24, name := "x" }, { src := 0, dst := 4, traffic := 10, name := "y" },
   { src := 4, dst := 1, traffic := 6, name := "z" }, { src := 0, dst := 2, traffic := 7, name := "u" }]
  [{ src := 0, dst := 5, name := "l", configured := some 4 }] []

/-- the first triangle -/
def Ex.firstHalf (u : String) : Bool := u = "A" || u = "B" || u = "C"

theorem Ex.joined_bridge (k : Kind) :
    Bridge (finalState (updateSimulation Env.default) (Ex.joined k)) Ex.firstHalf :=
  ⟨"C", "D", by cases k <;> decide +kernel⟩

example (k : Kind) : Tidy (Ex.joined k) ∧ NoShortcuts (Ex.joined k) ∧ KeysDistinct (Ex.joined k) ∧
    SingleLinks (Ex.joined k) ∧
    updateSimulation Env.default (Ex.joined k) =
      .ok () (finalState (updateSimulation Env.default) (Ex.joined k)) ∧
    ((finalState (updateSimulation Env.default) (Ex.joined k)).dmd 0).path = some [[.lsp 0]] ∧
    demandOut (finalState (updateSimulation Env.default) (Ex.joined k)) Ex.firstHalf = 34 ∧
    demandIn (finalState (updateSimulation Env.default) (Ex.joined k)) Ex.firstHalf = 6 := by
  refine ⟨?_, ?_, ?_, ?_, ok_of_raised ?_, ?_, ?_, ?_⟩ <;> cases k <;> decide +kernel

/-- the same with the circuit C-D down -/
def Ex.parted (k : Kind) : State := finalState (failInterface "cd1" "C") (Ex.joined k)

example (k : Kind) : raised (failInterface "cd1" "C") (Ex.joined k) = none ∧ Tidy (Ex.parted k) ∧
    NoShortcuts (Ex.parted k) ∧ KeysDistinct (Ex.parted k) ∧
    raised (updateSimulation Env.default) (Ex.parted k) = none ∧
    (∀ i ∈ outOf (finalState (updateSimulation Env.default) (Ex.parted k)) Ex.firstHalf,
      ((finalState (updateSimulation Env.default) (Ex.parted k)).ifc i).failed = true) ∧
    ((finalState (updateSimulation Env.default) (Ex.parted k)).dmd 3).path ≠ none := by
  refine ⟨?_, ?_, ?_, ?_, ?_, ?_, ?_⟩ <;> cases k <;> decide +kernel

end NTM
