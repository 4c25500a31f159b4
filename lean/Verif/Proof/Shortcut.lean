import Verif.Proof.Outcome

/-!
# IGP shortcuts: what a substituted path is made of
-/

namespace NTM

open Spec

/-- every interface of the path `q` is on `p` -/
def FromPath (p : List ℕ) (q : List Item) : Prop := ∀ i, Item.ifc i ∈ q → i ∈ p

theorem fromPath_map (p : List ℕ) : FromPath p (p.map Item.ifc) := by
  intro i hi
  simpa using hi

theorem FromPath.sliceSet {p : List ℕ} {q : List Item} (h : FromPath p q) (a b l : ℕ) :
    FromPath p (sliceSet q a b (Item.lsp l)) := by
  intro i hi
  unfold NTM.sliceSet at hi
  simp only [List.mem_append, List.mem_singleton, reduceCtorEq, or_false] at hi
  rcases hi with hi | hi
  · exact h i (List.mem_of_mem_take hi)
  · exact h i (List.mem_of_mem_drop hi)

theorem fromPath_insertLsps {s : State} {groups : List (List ℕ)} {p : List ℕ}
    {ps : List (List Item)} (h : s.insertLsps groups p = some ps) : ∀ q ∈ ps, FromPath p q := by
  unfold State.insertLsps at h
  split at h
  · cases h
  · cases h
    intro q hq
    obtain ⟨combo, -, rfl⟩ := List.mem_map.1 hq
    have : ∀ (combo : List (ℕ × ℕ × ℕ)) (q : List Item), FromPath p q →
        FromPath p (combo.foldl (fun q (x : ℕ × ℕ × ℕ) =>
          sliceSet q x.1 x.2.1 (Item.lsp x.2.2)) q) := by
      intro combo
      induction combo with
      | nil => intro q hq; exact hq
      | cons x combo ih => intro q hq; exact ih _ (hq.sliceSet _ _ _)
    exact this combo _ (fromPath_map p)

theorem mem_addNew (ps acc : List (List Item)) (x : List Item) :
    x ∈ ps.foldl (fun acc q => if q ∈ acc then acc else acc ++ [q]) acc ↔ x ∈ acc ∨ x ∈ ps := by
  induction ps generalizing acc with
  | nil => simp
  | cons q ps ih =>
    rw [List.foldl_cons, ih]
    split
    · next h => simp only [List.mem_cons]; constructor
                · rintro (h1 | h1) <;> simp [h1]
                · rintro (h1 | rfl | h1)
                  · exact .inl h1
                  · exact .inl h
                  · exact .inr h1
    · simp only [List.mem_append, List.mem_cons, List.not_mem_nil, or_false]
      tauto

theorem inspectMetrics_sub {s : State} {ps qs : List (List Item)}
    (h : s.inspectMetrics ps = .ok qs) : ∀ q ∈ qs, q ∈ ps := by
  unfold State.inspectMetrics at h
  split at h
  · cases h
  · cases h
    intro q hq
    exact List.mem_of_mem_filter hq

/-- substitution of the found LSPs into all paths -/
theorem substitute_sub {s : State} {groups : List (List ℕ)} {paths : List (List ℕ)}
    {q : List Item}
    (hq : q ∈ paths.foldl (init := []) fun acc p =>
      match s.insertLsps groups p with
      | some ps => ps.foldl (fun acc q => if q ∈ acc then acc else acc ++ [q]) acc
      | none => acc ++ [p.map Item.ifc]) :
    ∃ p ∈ paths, q = p.map Item.ifc ∨ ∃ ps, s.insertLsps groups p = some ps ∧ q ∈ ps := by
  have : ∀ (paths : List (List ℕ)) (acc : List (List Item)),
      q ∈ paths.foldl (init := acc) (fun acc p =>
        match s.insertLsps groups p with
        | some ps => ps.foldl (fun acc q => if q ∈ acc then acc else acc ++ [q]) acc
        | none => acc ++ [p.map Item.ifc]) → q ∈ acc ∨
      ∃ p ∈ paths, q = p.map Item.ifc ∨ ∃ ps, s.insertLsps groups p = some ps ∧ q ∈ ps := by
    intro paths
    induction paths with
    | nil => intro acc h; exact .inl h
    | cons p paths ih =>
      intro acc h
      rw [List.foldl_cons] at h
      rcases ih _ h with h | ⟨p', h1, h2⟩
      · cases hi : s.insertLsps groups p with
        | none =>
          rw [hi] at h
          simp only [List.mem_append, List.mem_singleton] at h
          rcases h with h | h
          · exact .inl h
          · exact .inr ⟨p, by simp, .inl h⟩
        | some ps =>
          rw [hi] at h
          simp only [] at h
          rw [mem_addNew] at h
          rcases h with h | h
          · exact .inl h
          · exact .inr ⟨p, by simp, .inr ⟨ps, hi, h⟩⟩
      · exact .inr ⟨p', by simp [h1], h2⟩
  rcases this paths [] hq with h | h
  · cases h
  · exact h

theorem findIgpShortcuts_sub {env : Env} {s t : State} {paths : List (List ℕ)}
    {np : List (List String)} {ps : List (List Item)}
    (h : findIgpShortcuts env paths np s = .ok ps t) :
    ∀ q ∈ ps, ∃ p ∈ paths, FromPath p q := by
  unfold findIgpShortcuts at h
  obtain ⟨s0, s0', hg, h⟩ := py_bind_inv h
  cases hg
  obtain ⟨ns, s1, hns, h⟩ := py_bind_inv h
  split at h
  · cases h
    intro q hq
    obtain ⟨p, hp, rfl⟩ := List.mem_map.1 hq
    exact ⟨p, hp, fromPath_map p⟩
  · obtain ⟨qs, s2, hqs, h⟩ := py_bind_inv h
    have hall : ∀ q ∈ qs, ∃ p ∈ paths, FromPath p q := by
      unfold insertShortcuts at hqs
      obtain ⟨found, s3, -, hqs⟩ := py_bind_inv hqs
      cases found with
      | none => cases hqs
      | some groups =>
        simp only [] at hqs
        obtain ⟨s4, s4', hg4, hqs⟩ := py_bind_inv hqs
        cases hg4
        split at hqs
        · cases hqs
          intro q hq
          obtain ⟨p, hp, rfl⟩ := List.mem_map.1 hq
          exact ⟨p, hp, fromPath_map p⟩
        · cases hqs
          intro q hq
          obtain ⟨p, hp, hq⟩ := substitute_sub hq
          refine ⟨p, hp, ?_⟩
          rcases hq with rfl | ⟨ps', h1, h2⟩
          · exact fromPath_map p
          · exact fromPath_insertLsps h1 q h2
    split at h
    · cases h; exact hall
    · split at h
      · cases h
      · obtain ⟨s5, s5', hg5, h⟩ := py_bind_inv h
        cases hg5
        unfold liftE at h
        split at h
        · next hi =>
          cases h
          intro q hq
          exact hall q (inspectMetrics_sub hi q hq)
        · cases h

/-- with or without shortcuts: the interfaces of an IGP path of a demand are usable -/
theorem igpPaths_mem {env : Env} {s : State} (h : Sane s) {es : List ℕ} (hes : es ⊆ s.ifs)
    (hnd : es.Nodup) {a b : String} {ps : List (List Item)} {t : State}
    (hp : igpPaths env (s.graphOf es) es a b s = .ok (some ps) t) :
    ∀ q ∈ ps, ∀ i, Item.ifc i ∈ q → i ∈ es := by
  cases hk : s.kind with
  | perf =>
    rcases igpPaths_spec h hes hnd (by rw [hk]; intro e; cases e) hp with ⟨e, -⟩ | ⟨l, e, -, -, hl⟩
    · cases e
    · cases e
      intro q hq i hi
      obtain ⟨p, hp, rfl⟩ := List.mem_map.1 hq
      have hi' : i ∈ p := by simpa using hi
      exact Route.mem_ok ((hl p).1 hp).1 i hi'
  | flex =>
    unfold igpPaths at hp
    obtain ⟨s0, s0', hg, hp⟩ := py_bind_inv hp
    cases hg
    cases hsp : (s.graphOf es).allShortestPaths a b with
    | error e => rw [hsp] at hp; cases e <;> cases hp
    | ok nxSp =>
      rw [hsp] at hp
      simp only [] at hp
      rw [hk] at hp
      simp only [] at hp
      obtain ⟨qs, u, hf, hp⟩ := py_bind_inv hp
      cases hp
      obtain ⟨-, h3⟩ := flex_paths h hk hes hnd hsp
      intro q hq i hi
      obtain ⟨p, hp, hfp⟩ := findIgpShortcuts_sub hf q hq
      exact Route.mem_ok ((h3 p).1 hp).1 i (hfp i hi)

end NTM
