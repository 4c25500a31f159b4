import Verif.Proof.Shortcut
import Verif.Proof.Enumerate

/-!
# IGP shortcuts: where the substituted LSPs come from
-/

namespace NTM

open Spec

/-- `ls` are the LSPs that start at a node `u` of the node path `np` with shortcuts switched on
and end at a later node `v` of it: the ones a demand from `u` to `v` would ride -/
def FoundOn (s : State) (np : List String) (ls : List ℕ) : Prop :=
  ls ≠ [] ∧ ∃ u ∈ np, ∃ v ∈ np.drop (np.idxOf u + 1), ∃ n,
    s.getNode u = .ok n ∧ (s.node n).shortcuts = true ∧ RidingOf s (pairKey u v) ls

theorem findShortcut_spec {env : Env} {s : State} (hs : GroupsFresh env s) (s0 : State)
    (u : String) (vs : List String) :
    wp (findShortcut env s0 u vs) (fun r t => t = s ∧ ∀ ls e, r = some (ls, e) →
      ls ≠ [] ∧ ∃ v ∈ vs, RidingOf s (pairKey u v) ls) (fun _ _ => True) s := by
  induction vs with
  | nil => exact ⟨rfl, fun ls e h => by cases h⟩
  | cons v vs ih =>
    unfold findShortcut
    rw [wp_bind]
    refine wp_mono (bestLsps_spec hs _) ?_ (fun _ _ _ => trivial)
    rintro ls t ⟨rfl, hr⟩
    cases ls with
    | nil =>
      refine wp_mono ih ?_ (fun _ _ h => h)
      rintro r t' ⟨rfl, h⟩
      refine ⟨rfl, fun ls e he => ?_⟩
      obtain ⟨h1, v', h2, h3⟩ := h ls e he
      exact ⟨h1, v', by simp [h2], h3⟩
    | cons l ls =>
      refine ⟨rfl, fun ls' e he => ?_⟩
      cases he
      exact ⟨by simp, v, by simp, hr⟩

theorem wp_ite {α : Type} {c : Prop} [Decidable c] {x y : Py α} {Q : α → State → Prop}
    {E : Exn → State → Prop} {s : State} (h1 : c → wp x Q E s) (h2 : ¬ c → wp y Q E s) :
    wp (if c then x else y) Q E s := by
  split
  · next h => exact h1 h
  · next h => exact h2 h

theorem shortcutLsps_spec {env : Env} {s : State} (hs : GroupsFresh env s) (np : List String)
    (l : List String) (hl : ∀ u ∈ l, u ∈ np) (skip : Option String) :
    wp (shortcutLsps env np l skip) (fun r t => t = s ∧ ∀ ls ∈ r, FoundOn s np ls)
      (fun _ _ => True) s := by
  induction l generalizing skip with
  | nil => exact ⟨rfl, by simp⟩
  | cons u l ih =>
    have ih' := fun skip => ih (fun v hv => hl v (by simp [hv])) skip
    unfold shortcutLsps
    simp only [wp_bind, wp_get]
    refine wp_ite (fun _ => ih' skip) fun _ => ?_
    · simp only [wp_bind, wp_liftE]
      cases hn : s.getNode u with
      | error e => trivial
      | ok n =>
        simp only []
        split
        · next hsc =>
          simp only [wp_bind]
          refine wp_mono (findShortcut_spec hs s u _) ?_ (fun _ _ h => h)
          rintro r t ⟨rfl, hr⟩
          cases r with
          | none => exact ih' skip
          | some x =>
            obtain ⟨ls, e⟩ := x
            simp only [wp_bind, wp_pure]
            refine wp_mono (ih' (some e)) ?_ (fun _ _ h => h)
            rintro more t ⟨rfl, hm⟩
            refine ⟨rfl, fun ls' h' => ?_⟩
            rcases List.mem_cons.1 h' with rfl | h'
            · obtain ⟨h1, v, hv, h2⟩ := hr ls' e rfl
              exact ⟨h1, u, hl u (by simp), v, List.mem_reverse.1 hv, n, hn, hsc, h2⟩
            · exact hm ls' h'
        · exact ih' skip

theorem foundLoop_spec {env : Env} {s : State} (hs : GroupsFresh env s)
    (nodePaths : List (List String)) (init : Option (List (List ℕ)))
    (hi : ∀ gs, init = some gs → ∀ ls ∈ gs, ∃ np ∈ nodePaths, FoundOn s np ls)
    (rest : List (List String)) (hrest : ∀ np ∈ rest, np ∈ nodePaths) :
    wp (rest.foldlM (init := init) fun _ np => do
        let x ← shortcutLsps env np np none
        pure (some x))
      (fun r t => t = s ∧ ∀ gs, r = some gs → ∀ ls ∈ gs, ∃ np ∈ nodePaths, FoundOn s np ls)
      (fun _ _ => True) s := by
  induction rest generalizing init with
  | nil => exact ⟨rfl, hi⟩
  | cons np rest ih =>
    rw [List.foldlM_cons]
    simp only [wp_bind]
    refine wp_mono (shortcutLsps_spec hs np np (fun _ h => h) none) ?_ (fun _ _ h => h)
    rintro r t ⟨rfl, hr⟩
    simp only [wp_pure]
    refine ih (some r) ?_ (fun q hq => hrest q (by simp [hq]))
    rintro gs e ls hls
    cases e
    exact ⟨np, hrest np (by simp), hr ls hls⟩

theorem lsp_mem_sliceSet {q : List Item} {a b l l' : ℕ}
    (h : Item.lsp l' ∈ sliceSet q a b (Item.lsp l)) : l' = l ∨ Item.lsp l' ∈ q := by
  unfold sliceSet at h
  simp only [List.mem_append, List.mem_singleton, Item.lsp.injEq] at h
  rcases h with (h | h) | h
  · exact .inr (List.mem_of_mem_take h)
  · exact .inl h
  · exact .inr (List.mem_of_mem_drop h)

/-- substituted LSPs come from the groups -/
theorem insertLsps_lsp {s : State} {groups : List (List ℕ)} {p : List ℕ}
    {ps : List (List Item)} (h : s.insertLsps groups p = some ps) {q : List Item} (hq : q ∈ ps)
    {l : ℕ} (hl : Item.lsp l ∈ q) : ∃ g ∈ groups, l ∈ g := by
  unfold State.insertLsps at h
  split at h
  · cases h
  · next slices hsl =>
    cases h
    obtain ⟨combo, hc, rfl⟩ := List.mem_map.1 hq
    have aux : ∀ (combo : List (ℕ × ℕ × ℕ)) (q : List Item),
        Item.lsp l ∈ combo.foldl (fun q (x : ℕ × ℕ × ℕ) =>
          sliceSet q x.1 x.2.1 (Item.lsp x.2.2)) q →
        Item.lsp l ∈ q ∨ ∃ x ∈ combo, x.2.2 = l := by
      intro combo
      induction combo with
      | nil => intro q h; exact .inl h
      | cons x combo ih =>
        intro q h
        rw [List.foldl_cons] at h
        rcases ih _ h with h | ⟨y, h1, h2⟩
        · rcases lsp_mem_sliceSet h with h | h
          · exact .inr ⟨x, by simp, h.symm⟩
          · exact .inl h
        · exact .inr ⟨y, by simp [h1], h2⟩
    rcases aux combo _ hl with h | ⟨x, hx, hxl⟩
    · simp at h
    · rw [mem_pyProduct] at hc
      have hmem : ∀ {c : List (ℕ × ℕ × ℕ)} {L : List (List (ℕ × ℕ × ℕ))},
          List.Forall₂ (fun x l => x ∈ l) c L → ∀ x ∈ c, ∃ L' ∈ L, x ∈ L' := by
        intro c L hf
        induction hf with
        | nil => simp
        | cons h _ ih =>
          intro x hx
          rcases List.mem_cons.1 hx with rfl | hx
          · exact ⟨_, by simp, h⟩
          · obtain ⟨L', h1, h2⟩ := ih x hx
            exact ⟨L', by simp [h1], h2⟩
      obtain ⟨sl, h1, h2⟩ := hmem hc x hx
      rw [List.mem_reverse] at h1
      rw [allSome_eq_some] at hsl
      have : some sl ∈ slices.map some := List.mem_map.2 ⟨sl, h1, rfl⟩
      rw [← hsl] at this
      obtain ⟨g, hg, he⟩ := List.mem_map.1 this
      cases hab : s.lspSlice p g with
      | none => rw [hab] at he; cases he
      | some ab =>
        rw [hab] at he
        simp only [Option.map_some, Option.some.injEq] at he
        rw [← he] at h2
        obtain ⟨l', h3, h4⟩ := List.mem_map.1 h2
        rw [← h4] at hxl
        exact ⟨g, hg, hxl ▸ h3⟩

/-- every LSP in a path with shortcuts starts at a node of one of the node paths that has
shortcuts switched on, and would be ridden by a demand with its end points -/
theorem findIgpShortcuts_lsp {env : Env} {s t : State} (hs : GroupsFresh env s)
    {paths : List (List ℕ)} {np : List (List String)} {ps : List (List Item)}
    (h : findIgpShortcuts env paths np s = .ok ps t) :
    ∀ q ∈ ps, ∀ l, Item.lsp l ∈ q → ∃ p ∈ np, ∃ ls, FoundOn s p ls ∧ l ∈ ls := by
  have hnil : ∀ q ∈ paths.map (fun p => p.map Item.ifc), ∀ l, Item.lsp l ∈ q →
      ∃ p ∈ np, ∃ ls, FoundOn s p ls ∧ l ∈ ls := by
    intro q hq l hl
    obtain ⟨p, -, rfl⟩ := List.mem_map.1 hq
    simp at hl
  unfold findIgpShortcuts at h
  obtain ⟨s0, s0', hg, h⟩ := py_bind_inv h
  cases hg
  obtain ⟨ns, s1, hns, h⟩ := py_bind_inv h
  have hs1 : s1 = s := by
    unfold liftE at hns
    split at hns <;> cases hns
    rfl
  subst hs1
  split at h
  · cases h; exact hnil
  · obtain ⟨qs, s2, hqs, h⟩ := py_bind_inv h
    have hall : ∀ q ∈ qs, ∀ l, Item.lsp l ∈ q → ∃ p ∈ np, ∃ ls, FoundOn s1 p ls ∧ l ∈ ls := by
      unfold insertShortcuts at hqs
      obtain ⟨found, s3, hf, hqs⟩ := py_bind_inv hqs
      obtain ⟨rfl, hfound⟩ := of_wp_ok
        (foundLoop_spec hs np none (by intro gs e; cases e) np (fun _ h => h)) hf
      cases found with
      | none => cases hqs
      | some groups =>
        simp only [] at hqs
        obtain ⟨s4, s4', hg4, hqs⟩ := py_bind_inv hqs
        cases hg4
        split at hqs
        · cases hqs; exact hnil
        · cases hqs
          intro q hq l hl
          obtain ⟨p, hp, hq⟩ := substitute_sub hq
          rcases hq with rfl | ⟨ps', h1, h2⟩
          · simp at hl
          · obtain ⟨g, hg, hlg⟩ := insertLsps_lsp h1 h2 hl
            obtain ⟨n, hn, hfo⟩ := hfound groups rfl g hg
            exact ⟨n, hn, g, hfo, hlg⟩
    split at h
    · cases h; exact hall
    · split at h
      · cases h
      · obtain ⟨s5, s5', hg5, h⟩ := py_bind_inv h
        cases hg5
        unfold liftE at h
        split at h
        · next hi =>
          cases h
          intro q hq
          exact hall q (inspectMetrics_sub hi q hq)
        · cases h

/-- LSPs in the IGP path of a demand are members of routed groups -/
theorem igpPaths_lsp {env : Env} {s : State} (hs : GroupsFresh env s) {g : NxG} {es : List ℕ}
    {a b : String} {ps : List (List Item)} {t : State}
    (hp : igpPaths env g es a b s = .ok (some ps) t) :
    ∀ q ∈ ps, ∀ l, Item.lsp l ∈ q → ∃ key, l ∈ s.routedGroup key := by
  unfold igpPaths at hp
  obtain ⟨s0, s0', hg, hp⟩ := py_bind_inv hp
  cases hg
  cases hsp : g.allShortestPaths a b with
  | error e => rw [hsp] at hp; cases e <;> cases hp
  | ok nxSp =>
    rw [hsp] at hp
    simp only [] at hp
    cases hk : s.kind with
    | perf =>
      rw [hk] at hp
      simp only [] at hp
      cases hc : allSome (nxSp.map fun p => (s.convertPerf p).toOption) with
      | none => rw [hc] at hp; cases hp
      | some ps' =>
        rw [hc] at hp
        cases hp
        intro q hq l hl
        obtain ⟨p, -, rfl⟩ := List.mem_map.1 hq
        simp at hl
    | flex =>
      rw [hk] at hp
      simp only [] at hp
      obtain ⟨qs, u, hf, hp⟩ := py_bind_inv hp
      cases hp
      intro q hq l hl
      obtain ⟨p, -, ls, ⟨-, u, -, v, -, n, -, -, hr⟩, hls⟩ := findIgpShortcuts_lsp hs hf q hq l hl
      exact ⟨_, hr.sub hls⟩

theorem mem_routedGroup {env : Env} {s : State} (hs : GroupsFresh env s) {key : String} {l : ℕ}
    (h : l ∈ s.routedGroup key) : l ∈ s.lsps ∧ (s.lsp l).path.saysUnrouted = false := by
  unfold State.routedGroup at h
  rw [List.mem_filter] at h
  obtain ⟨h1, h2⟩ := h
  refine ⟨?_, by simpa using h2⟩
  cases hd : dictGet s.groups key with
  | none => rw [hd] at h1; cases h1
  | some ls =>
    rw [hd] at h1
    unfold GroupsFresh at hs
    rw [hs] at hd
    exact mem_of_buildGroups (mem_of_dictGet hd) h1

/-- the LSPs on the paths of a demand are LSPs of the model, and routed -/
theorem SimResult.lsp_mem {env : Env} {s s1 s' : State} {Δ : ℕ → ℕ → ℚ}
    (h : SimResult env s s1 s' Δ) {d : ℕ} (hd : d ∈ s.dmds) {paths : List (List Item)}
    (hp : (s'.dmd d).path = some paths) {p : List Item} (hpm : p ∈ paths) {l : ℕ}
    (hl : Item.lsp l ∈ p) : l ∈ s.lsps ∧ (s'.lsp l).path.saysUnrouted = false := by
  have key : ∃ key, l ∈ s1.routedGroup key := by
    rcases h.place d hd with ⟨ls, h1, h2, h3⟩ | ⟨h1, D', h2⟩
    · rw [hp] at h3
      cases h3
      obtain ⟨l', hl', rfl⟩ := List.mem_map.1 hpm
      simp only [List.mem_singleton, Item.lsp.injEq] at hl
      subst hl
      exact ⟨_, h2.sub hl'⟩
    · rw [hp] at h2
      exact igpPaths_lsp (s := { s1 with dmd := D' }) h.fresh h2 p hpm l hl
  obtain ⟨k, hk⟩ := key
  have := mem_routedGroup h.fresh hk
  rw [h.net.2.2.1, ← h.cfg1.lsps]
  exact this

end NTM
