import Verif.Proof.Ranked
import Verif.Proof.Contribution

/-!
# The paths of a demand when IGP shortcuts are in use
-/

namespace NTM

open Spec

theorem findShortcut_end {env : Env} {s : State} (hs : GroupsFresh env s) (u : String)
    (vs : List String) :
    wp (findShortcut env s u vs) (fun r t => t = s ∧ ∀ ls e, r = some (ls, e) →
      ls ≠ [] ∧ (∀ l ∈ ls.head?, e = s.lspDst l) ∧ ∃ v ∈ vs, RidingOf s (pairKey u v) ls)
      (fun _ _ => True) s := by
  induction vs with
  | nil => exact ⟨rfl, fun ls e h => by cases h⟩
  | cons v vs ih =>
    unfold findShortcut
    rw [wp_bind]
    refine wp_mono (bestLsps_spec hs _) ?_ (fun _ _ _ => trivial)
    rintro ls t ⟨rfl, hr⟩
    cases ls with
    | nil =>
      refine wp_mono ih ?_ (fun _ _ h => h)
      rintro r t' ⟨rfl, h⟩
      refine ⟨rfl, fun ls e he => ?_⟩
      obtain ⟨h1, h0, v', h2, h3⟩ := h ls e he
      exact ⟨h1, h0, v', by simp [h2], h3⟩
    | cons l ls =>
      refine ⟨rfl, fun ls' e he => ?_⟩
      cases he
      exact ⟨by simp, fun l' hl' => by cases hl'; rfl, v, by simp, hr⟩

theorem idxOf_drop {np : List String} (hnd : np.Nodup) {u v : String}
    (hv : v ∈ np.drop (np.idxOf u + 1)) : np.idxOf u < np.idxOf v := by
  by_contra hlt
  have hvn := List.mem_of_mem_drop hv
  have h1 : np.idxOf v < np.idxOf u + 1 := by omega
  have h2 : v ∈ np.take (np.idxOf u + 1) := by
    rw [List.mem_take_iff_getElem]
    refine ⟨np.idxOf v, ?_, by simp⟩
    rw [lt_inf_iff]
    exact ⟨h1, List.idxOf_lt_length_of_mem hvn⟩
  have := hnd
  rw [← List.take_append_drop (np.idxOf u + 1) np, List.nodup_append] at this
  exact this.2.2 v h2 v hv rfl

/-- the LSPs keyed by two node names run between the nodes of these names -/
def KeyedBy (s : State) (np : List String) : Prop :=
  ∀ u ∈ np, ∀ v ∈ np, ∀ l ∈ s.routedGroup (pairKey u v), s.lspSrc l = u ∧ s.lspDst l = v

/-- where the search resumes -/
def resumeAt (np : List String) : Option String → ℕ
  | none => 0
  | some e => np.idxOf e

theorem shortcutLsps_ordered {env : Env} {s : State} (hs : GroupsFresh env s) {np : List String}
    (hnd : np.Nodup) (hk : KeyedBy s np) (l : List String) (hl : ∀ u ∈ l, u ∈ np)
    (skip : Option String) :
    wp (shortcutLsps env np l skip) (fun r t => t = s ∧
      Stepwise s (· ∈ np) np.idxOf (resumeAt np skip) r) (fun _ _ => True) s := by
  induction l generalizing skip with
  | nil => exact ⟨rfl, trivial⟩
  | cons u l ih =>
    have ih' := fun skip => ih (fun v hv => hl v (by simp [hv])) skip
    unfold shortcutLsps
    simp only [wp_bind, wp_get]
    refine wp_ite (fun _ => ih' skip) fun hc => ?_
    have hlo : resumeAt np skip ≤ np.idxOf u := by
      cases skip with
      | none => simp [resumeAt]
      | some e => simpa [resumeAt] using hc
    simp only [wp_bind, wp_liftE]
    cases hn : s.getNode u with
    | error e => trivial
    | ok n =>
      simp only []
      refine wp_ite (fun hsc => ?_) (fun _ => ih' skip)
      simp only [wp_bind]
      refine wp_mono (findShortcut_end hs u _) ?_ (fun _ _ h => h)
      rintro r t ⟨rfl, hr⟩
      cases r with
      | none => exact ih' skip
      | some x =>
        obtain ⟨ls, e⟩ := x
        simp only [wp_bind, wp_pure]
        refine wp_mono (ih' (some e)) ?_ (fun _ _ h => h)
        rintro more t ⟨rfl, ho⟩
        obtain ⟨hne, hend, v, hv, hr⟩ := hr ls e rfl
        rw [List.mem_reverse] at hv
        have hu := hl u (by simp)
        have hvn := List.mem_of_mem_drop hv
        have hall : ∀ l ∈ ls, t.lspSrc l = u ∧ t.lspDst l = v :=
          fun l hl => hk u hu v hvn l (hr.sub hl)
        obtain ⟨l0, ls0, rfl⟩ := List.exists_cons_of_ne_nil hne
        have he : e = v := by
          rw [hend l0 (by simp)]
          exact (hall l0 (by simp)).2
        subst he
        exact ⟨rfl, u, e, hu, hvn, hne, hall, hlo, idxOf_drop hnd hv, ho⟩

/-- the groups substituted come, in order, from one of the node paths -/
theorem foundLoop_ordered {env : Env} {s : State} (hs : GroupsFresh env s)
    (nodePaths : List (List String)) (hnd : ∀ np ∈ nodePaths, np.Nodup)
    (hk : ∀ np ∈ nodePaths, KeyedBy s np) (init : Option (List (List ℕ)))
    (hi : ∀ gs, init = some gs → ∃ np ∈ nodePaths, Stepwise s (· ∈ np) np.idxOf 0 gs ∧
      ∀ ls ∈ gs, FoundOn s np ls)
    (rest : List (List String)) (hrest : ∀ np ∈ rest, np ∈ nodePaths)
    {r : Option (List (List ℕ))} {t : State}
    (h : (rest.foldlM (init := init) fun _ np => do
        let x ← shortcutLsps env np np none
        pure (some x)) s = .ok r t) :
    t = s ∧ ∀ gs, r = some gs → ∃ np ∈ nodePaths, Stepwise s (· ∈ np) np.idxOf 0 gs ∧
      ∀ ls ∈ gs, FoundOn s np ls := by
  induction rest generalizing init with
  | nil => cases h; exact ⟨rfl, hi⟩
  | cons np rest ih =>
    rw [List.foldlM_cons] at h
    obtain ⟨x, s1, hx, h'⟩ := py_bind_inv h
    obtain ⟨y, s2, hy, hx'⟩ := py_bind_inv hx
    cases hx'
    have hmem := hrest np (by simp)
    obtain ⟨rfl, hf⟩ := of_wp_ok (shortcutLsps_spec hs np np (fun _ h => h) none) hy
    obtain ⟨-, ho⟩ := of_wp_ok (shortcutLsps_ordered hs (hnd np hmem) (hk np hmem) np
      (fun _ h => h) none) hy
    refine ih (some y) ?_ (fun q hq => hrest q (by simp [hq])) h'
    rintro gs e
    cases e
    exact ⟨np, hmem, ho, hf⟩

theorem getNodes_ok {s : State} (l : List String) {acc ns : List ℕ}
    (h : (l.foldlM (init := acc) fun acc u =>
      (s.getNode u).map fun n => acc ++ [n]) = Except.ok ns) : ∀ u ∈ l, ∃ n, s.getNode u = .ok n := by
  induction l generalizing acc with
  | nil => simp
  | cons u l ih =>
    rw [List.foldlM_cons] at h
    cases hu : s.getNode u with
    | error e => rw [hu] at h; cases h
    | ok n =>
      rw [hu] at h
      intro x hx
      rcases List.mem_cons.1 hx with rfl | hx
      · exact ⟨n, hu⟩
      · exact ih h x hx

/-- `q` is the path `p`, or `p` with stretches replaced by LSPs found on one of the node paths -/
def ShortcutOf (s : State) (np : List (List String)) (p : List ℕ) (q : List Item) : Prop :=
  ∃ legs choice rest, p = wholePath legs rest ∧ (∀ g ∈ legs, g.Fits s) ∧ Choice choice legs ∧
    q = substituted legs choice rest ∧
    ∀ g ∈ legs, ∃ x ∈ np, FoundOn s x g.lsps ∧ ∀ u ∈ x, ∃ n, s.getNode u = .ok n

theorem shortcutOf_refl (s : State) (np : List (List String)) (p : List ℕ) :
    ShortcutOf s np p (p.map Item.ifc) :=
  ⟨[], [], p, rfl, by simp, .nil, rfl, by simp⟩

theorem findIgpShortcuts_paths {env : Env} {s t : State} (hs : GroupsFresh env s)
    {paths : List (List ℕ)} {np : List (List String)} {ps : List (List Item)}
    {ok : ℕ → Prop} {ρ : String → ℕ} {a b : String}
    (hr : ∀ p ∈ paths, Route s.tail s.head ok a p b)
    (hinc : ∀ p ∈ paths, ∀ i ∈ p, ρ (s.tail i) < ρ (s.head i))
    (hnp : ∀ q ∈ np, q.Pairwise fun x y => ρ x < ρ y)
    (hk : ∀ q ∈ np, (∀ u ∈ q, ∃ n, s.getNode u = .ok n) → KeyedBy s q)
    (h : findIgpShortcuts env paths np s = .ok ps t) :
    ∀ q ∈ ps, ∃ p ∈ paths, ShortcutOf s np p q := by
  have hnil : ∀ q ∈ paths.map (fun p => p.map Item.ifc), ∃ p ∈ paths, ShortcutOf s np p q := by
    intro q hq
    obtain ⟨p, hp, rfl⟩ := List.mem_map.1 hq
    exact ⟨p, hp, shortcutOf_refl s np p⟩
  unfold findIgpShortcuts at h
  obtain ⟨s0, s0', hg, h⟩ := py_bind_inv h
  cases hg
  obtain ⟨ns, s1, hns, h⟩ := py_bind_inv h
  have hns' : s1 = s ∧ ∀ u ∈ np.flatten.dedup, ∃ n, s.getNode u = .ok n := by
    unfold liftE at hns
    split at hns
    · next a ha => cases hns; exact ⟨rfl, getNodes_ok _ ha⟩
    · cases hns
  obtain ⟨rfl, hget⟩ := hns'
  have hkeyed : ∀ q ∈ np, KeyedBy s1 q := fun q hq => hk q hq fun u hu =>
    hget u (List.mem_dedup.2 (List.mem_flatten.2 ⟨q, hq, hu⟩))
  have hnd : ∀ q ∈ np, q.Nodup := fun q hq => (hnp q hq).imp fun {x y} hxy e => by
    subst e; omega
  split at h
  · cases h; exact hnil
  · obtain ⟨qs, s2, hqs, h⟩ := py_bind_inv h
    have hall : ∀ q ∈ qs, ∃ p ∈ paths, ShortcutOf s1 np p q := by
      unfold insertShortcuts at hqs
      obtain ⟨found, s3, hf, hqs⟩ := py_bind_inv hqs
      obtain ⟨rfl, hfound⟩ := foundLoop_ordered hs np hnd hkeyed none (by intro gs e; cases e)
        np (fun _ h => h) hf
      cases found with
      | none => cases hqs
      | some groups =>
        simp only [] at hqs
        obtain ⟨s4, s4', hg4, hqs⟩ := py_bind_inv hqs
        cases hg4
        split at hqs
        · cases hqs; exact hnil
        · cases hqs
          intro q hq
          obtain ⟨p, hp, hq⟩ := substitute_sub hq
          refine ⟨p, hp, ?_⟩
          rcases hq with rfl | ⟨ps', h1, h2⟩
          · exact shortcutOf_refl _ np p
          · obtain ⟨x, hx, ho, hfo⟩ := hfound groups rfl
            have hpw := hnp x hx
            have ho' : Stepwise _ (· ∈ x) ρ 0 groups :=
              ho.mono (fun y z hy hz => idxOf_lt_ranked hpw hy hz)
                (fun y z hy hz hle => by
                  rcases Nat.lt_or_eq_of_le hle with hlt | e
                  · exact Nat.le_of_lt (idxOf_lt_ranked hpw hy hz hlt)
                  · rw [(List.idxOf_inj hy).1 e]) (fun _ _ _ => Nat.zero_le _)
            obtain ⟨legs, rest, g1, g2, g3, g4⟩ := insertLsps_ordered (hr p hp) (hinc p hp) ho' h1
            obtain ⟨choice, g5, g6⟩ := (g4 q).1 h2
            refine ⟨legs, choice, rest, g1, g3, g5, g6, fun g hg => ⟨x, hx, hfo _ ?_, fun u hu =>
              hget u (List.mem_dedup.2 (List.mem_flatten.2 ⟨x, hx, hu⟩))⟩⟩
            rw [← g2]
            exact List.mem_map.2 ⟨g, hg, rfl⟩
    split at h
    · cases h; exact hall
    · split at h
      · cases h
      · obtain ⟨s5, s5', hg5, h⟩ := py_bind_inv h
        cases hg5
        unfold liftE at h
        split at h
        · next hi =>
          cases h
          intro q hq
          exact hall q (inspectMetrics_sub hi q hq)
        · cases h

section
variable {env : Env} {s s1 s' : State} {Δ : ℕ → ℕ → ℚ}

theorem NamesDistinct.keys (h : NamesDistinct s) : KeysDistinct s :=
  fun a ha b hb a' ha' b' hb' e => h a (List.mem_append_right _ ha) b (List.mem_append_right _ hb)
    a' (List.mem_append_right _ ha') b' (List.mem_append_right _ hb') e

theorem SimResult.routedGroup_names (hk : NamesDistinct s) (h : SimResult env s s1 s' Δ)
    {a b : String} (ha : a ∈ modelNames s) (hb : b ∈ modelNames s) :
    s'.routedGroup (pairKey a b) =
      (between s.lsps s.lspSrc s.lspDst a b).filter fun l => !(s'.lsp l).path.saysUnrouted := by
  have hg : s'.groups = buildGroups env s.lsps s.lspSrc s.lspDst := by
    rw [h.net.2.2.2.1, h.frame.groups]
  unfold State.routedGroup
  rw [hg, dictGet_buildGroups]
  · by_cases hn : between s.lsps s.lspSrc s.lspDst a b = []
    · rw [if_pos hn, hn]; rfl
    · rw [if_neg hn]; rfl
  · intro a' ha' b' hb' e
    refine hk a' ?_ b' ?_ a ha b hb e
    · unfold modelNames endNames; simp only [List.mem_append]; exact .inr (.inl (.inl (.inl ha')))
    · unfold modelNames endNames; simp only [List.mem_append]; exact .inr (.inl (.inl (.inr hb')))

theorem SimResult.mem_named (ht : Tidy s) (hk : NamesDistinct s) (h : SimResult env s s1 s' Δ)
    {a b : String} (ha : a ∈ modelNames s) (hb : b ∈ modelNames s) {l : ℕ} :
    l ∈ s'.routedGroup (pairKey a b) ↔ LspBetween s' a b l ∧ IsRouted s' l := by
  rw [h.routedGroup_names hk ha hb, List.mem_filter, mem_between]
  unfold LspBetween
  rw [h.cfg.lsps, h.cfg.lspSrc, h.cfg.lspDst]
  refine and_congr_right fun hl => ?_
  rw [← h.isRouted_iff ht hl.1]
  simp

theorem SimResult.riding_best (ht : Tidy s) (hk : NamesDistinct s) (h : SimResult env s s1 s' Δ)
    {a b : String} (ha : a ∈ modelNames s) (hb : b ∈ modelNames s) {ls : List ℕ}
    (hr : RidingOf s' (pairKey a b) ls) : BestLsps s' a b ls := by
  intro l
  rw [hr.mem_iff, h.mem_named ht hk ha hb, and_assoc]
  refine and_congr_right fun _ => and_congr_right fun _ => ?_
  constructor
  · intro g l' x y; exact g l' ((h.mem_named ht hk ha hb).2 ⟨x, y⟩)
  · intro g l' x; obtain ⟨y, z⟩ := (h.mem_named ht hk ha hb).1 x; exact g l' y z

theorem name_mem {n : ℕ} (hn : n ∈ s.nodes) : (s.node n).name ∈ modelNames s :=
  List.mem_append_left _ (List.mem_map.2 ⟨n, hn, rfl⟩)

theorem SimResult.getNode_name (h : SimResult env s s1 s' Δ) {u : String} {n : ℕ}
    (hn : s'.getNode u = .ok n) : n ∈ s.nodes ∧ (s'.node n).name = u ∧ u ∈ modelNames s := by
  obtain ⟨h1, h2⟩ := getNode_ok hn
  rw [h.cfg.nodes] at h1
  refine ⟨h1, h2, ?_⟩
  have : (s'.node n).name = (s.node n).name := by rw [h.cfg.node]
  rw [← h2, this]
  exact name_mem h1

theorem igpPaths_shortcuts (h : Sane s) (hs : GroupsFresh env s) (hk : s.kind = .flex)
    {es : List ℕ} (hes : es ⊆ s.ifs) (hnd : es.Nodup)
    (hkey : ∀ q, (∀ u ∈ q, ∃ n, s.getNode u = .ok n) → KeyedBy s q) {a b : String}
    {ps : List (List Item)} {t : State}
    (hp : igpPaths env (s.graphOf es) es a b s = .ok (some ps) t) :
    ∃ np, ∀ q ∈ ps, ∃ p, CheapestOver s (· ∈ es) a p b ∧ ShortcutOf s np p q := by
  unfold igpPaths at hp
  obtain ⟨s0, s0', hg, hp⟩ := py_bind_inv hp
  cases hg
  cases hsp : (s.graphOf es).allShortestPaths a b with
  | error e => rw [hsp] at hp; cases e <;> cases hp
  | ok nxSp =>
    rw [hsp] at hp
    simp only [] at hp
    rw [hk] at hp
    simp only [] at hp
    obtain ⟨qs, u, hf, hp⟩ := py_bind_inv hp
    cases hp
    obtain ⟨-, h3⟩ := flex_paths h hk hes hnd hsp
    obtain ⟨-, -, h4⟩ := allShortestPaths_ok (graphOf_closed h hes) (graphOf_pos h hes) hsp
    have hpos : ∀ i, i ∈ es → 1 ≤ s.costOf i := fun i hi => h.costs i (hes hi)
    refine ⟨nxSp, fun q hq => ?_⟩
    obtain ⟨p, hp, hsc⟩ := findIgpShortcuts_paths (ok := (· ∈ es))
      (ρ := distTo s.tail s.head s.costOf (· ∈ es) a) (a := a) (b := b) hs
      (fun p hp => ((h3 p).1 hp).1) (fun p hp => cheapest_increasing ((h3 p).1 hp) hpos)
      (fun np hnp => by
        obtain ⟨r, rfl, hr⟩ := (h4 np).1 hnp
        obtain ⟨p, g1, rfl, g3⟩ := hr.1.exists_route (graphOf_min h hes)
        have hc : Cheapest s.tail s.head s.costOf (· ∈ es) a p b :=
          (cheapest_iff (graphOf_min h hes)).2 ⟨g1, hr, g3⟩
        exact ranked_pairwise g1 (cheapest_increasing hc hpos))
      (fun np _ hn => hkey np hn) hf q hq
    exact ⟨p, (h3 p).1 hp, hsc⟩

/-- the paths of a demand that does not ride LSPs end to end -/
theorem SimResult.shortcut_placed (ht : Tidy s) (hn : NamesDistinct s)
    (h : SimResult env s s1 s' Δ) {d : ℕ} (hd : d ∈ s.dmds) {paths : List (List Item)}
    (hp : (s'.dmd d).path = some paths) :
    (∃ ls, ls ≠ [] ∧ RidingOf s' (pairKey (s.dmdSrc d) (s.dmdDst d)) ls ∧
      paths = ls.map fun l => [Item.lsp l]) ∨
    (RidingOf s' (pairKey (s.dmdSrc d) (s.dmdDst d)) [] ∧
      ∀ r ∈ paths, ViaShortcuts s' (s.dmdSrc d) r (s.dmdDst d)) := by
  cases hk : s.kind with
  | perf =>
    rcases h.placed ht (by rw [hk]; intro e; cases e) hd with ⟨ls, h1, h2, h3⟩ | ⟨h0, ⟨h1, -⟩ | ⟨l, h1, -, -, h4⟩⟩
    · rw [hp] at h3; cases h3; exact .inl ⟨ls, h1, h2, rfl⟩
    · rw [hp] at h1; cases h1
    · rw [hp] at h1
      cases h1
      refine .inr ⟨h0, fun r hr => ?_⟩
      obtain ⟨q, hq, rfl⟩ := List.mem_map.1 hr
      exact ⟨[], [], q, (h4 q).1 hq, by simp, .nil, rfl⟩
  | flex =>
    have hpl := h.place d hd
    have hs1 := h.sane1 ht
    have hc1 := h.cfg1
    obtain ⟨D, T, C, B, I, hov⟩ := h.over
    rcases hpl with ⟨ls, h1, h2, h3⟩ | ⟨h1, D', h2⟩
    · rw [hp] at h3
      cases h3
      exact .inl ⟨ls, h1, by rw [hov, RidingOf.over]; exact h2, rfl⟩
    · refine .inr ⟨by rw [hov, RidingOf.over]; exact h1, ?_⟩
      rw [hp] at h2
      have hsaneD : Sane { s1 with dmd := D' } := ⟨hs1.nodup, hs1.costs, hs1.single⟩
      have hget : ∀ u n, ({ s1 with dmd := D' } : State).getNode u = .ok n → s'.getNode u = .ok n := by
        intro u n hu; rw [hov]; exact hu
      have hname : ∀ u, (∃ n, ({ s1 with dmd := D' } : State).getNode u = .ok n) → u ∈ modelNames s :=
        fun u ⟨n, hu⟩ => (h.getNode_name (hget u n hu)).2.2
      have hgrp : ∀ key, ({ s1 with dmd := D' } : State).routedGroup key = s'.routedGroup key := by
        intro key; rw [hov]; rfl
      have hends : ({ s1 with dmd := D' } : State).lspSrc = s'.lspSrc ∧
          ({ s1 with dmd := D' } : State).lspDst = s'.lspDst := by
        rw [hov]; exact ⟨rfl, rfl⟩
      obtain ⟨np, hnp⟩ := igpPaths_shortcuts (s := { s1 with dmd := D' }) hsaneD h.fresh
        (hc1.kind.trans hk) (es := s1.igpEdges) (considered_sub s1 _ _ _)
        (nodup_igpEdges hs1.nodup) (by
          intro q hq u hu v hv l hl
          rw [hgrp] at hl
          have := (h.mem_named ht hn (hname u (hq u hu)) (hname v (hq v hv))).1 hl
          rw [hends.1, hends.2]
          exact ⟨this.1.2.1, this.1.2.2⟩) h2
      intro r hr
      obtain ⟨p, hc, legs, choice, rest, rfl, hfit, hch, rfl, hfound⟩ := hnp r hr
      refine ⟨legs, choice, rest, ?_, fun g hg => ⟨?_, ?_⟩, hch, rfl⟩
      · rw [hov]; exact cheapestOver_igp.1 hc
      · rw [hov]; exact hfit g hg
      · obtain ⟨x, hx, ⟨hne, u, hu, v, hv, n, hun, hsc, hrid⟩, hx'⟩ := hfound g hg
        obtain ⟨g1, g2, g3⟩ := h.getNode_name (hget u n hun)
        refine ⟨n, h.cfg.nodes ▸ g1, by rw [hov]; exact hsc, v, ?_⟩
        rw [g2]
        refine h.riding_best ht hn g3 (hname v (hx' v (List.mem_of_mem_drop hv))) ?_
        rw [hov, RidingOf.over]
        exact RidingOf.withDmd.1 hrid

end

end NTM
