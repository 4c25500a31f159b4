import Verif.Proof.EcmpLoad
import Verif.Proof.ShortcutLsps

/-!
# What each demand adds to the traffic of an interface; demands that ride LSPs
-/

namespace NTM

open Spec

theorem ridden_lsps (ls : List ℕ) : ridden (ls.map fun l => [Item.lsp l]) = ls := by
  unfold ridden
  induction ls with
  | nil => rfl
  | cons l ls ih =>
    rw [List.map_cons, List.flatten_cons, List.singleton_append, List.filterMap_cons, ih]

theorem ridden_ifcs (l : List (List ℕ)) : ridden (l.map fun q => q.map Item.ifc) = [] := by
  unfold ridden
  rw [List.filterMap_eq_nil_iff]
  intro y hy
  rw [List.mem_flatten] at hy
  obtain ⟨p, hp, hy⟩ := hy
  obtain ⟨q, -, rfl⟩ := List.mem_map.1 hp
  obtain ⟨i, -, rfl⟩ := List.mem_map.1 hy
  rfl

theorem mem_ridden {paths : List (List Item)} {l : ℕ} :
    l ∈ ridden paths ↔ ∃ p ∈ paths, Item.lsp l ∈ p := by
  unfold ridden
  rw [List.mem_filterMap]
  constructor
  · rintro ⟨y, hy, e⟩
    rw [List.mem_flatten] at hy
    obtain ⟨p, hp, hy⟩ := hy
    cases y with
    | ifc i => cases e
    | lsp m => cases e; exact ⟨p, hp, hy⟩
  · rintro ⟨p, hp, hl⟩
    exact ⟨_, List.mem_flatten.2 ⟨p, hp, hl⟩, rfl⟩

section
variable {env : Env} {s s1 s' : State} {Δ : ℕ → ℕ → ℚ}

theorem SimResult.lspIfs_nodup (ht : Tidy s) (h : SimResult env s s1 s' Δ) {l : ℕ}
    (hl : l ∈ s.lsps) : (s'.lspIfs l).Nodup := by
  unfold State.lspIfs
  rcases h.basic ht hl with e | ⟨p, c, hd, b, e, -, -, hn, -⟩
  · rw [e]; exact List.nodup_nil
  · rw [e]; exact hn

theorem crosses_eq (s : State) (l i : ℕ) : crosses s l i = decide (i ∈ s.lspIfs l) := by
  unfold crosses State.lspIfs
  cases (s.lsp l).path <;> simp

/-- a demand that rides LSPs end to end: detail and load -/
theorem SimResult.lspLoad (ht : Tidy s) (h : SimResult env s s1 s' Δ) {d : ℕ} (hd : d ∈ s.dmds)
    {ls : List ℕ} (hne : ls ≠ []) (hr : RidingOf s' (pairKey (s.dmdSrc d) (s.dmdDst d)) ls)
    (hp : (s'.dmd d).path = some (ls.map fun l => [Item.lsp l])) :
    (s'.dmd d).detail = some (lspDetail s'.kind (s'.dmd d).traffic ls) ∧
    ∀ i, Δ d i = (ls.map fun l =>
      if crosses s' l i then (s'.dmd d).traffic / ls.length else 0).sum := by
  rcases h.load d hd with ⟨h0, -⟩ | ⟨paths, ls', det, h1, h2, h3, h4⟩
  · rw [hp] at h0; cases h0
  · have := h2.unique hr
    subst this
    rcases h3 with ⟨-, -, h5, h6⟩ | ⟨h5, -⟩
    · refine ⟨by rw [h4, h5], fun i => ?_⟩
      rw [h6]
      simp only []
      congr 1
      refine List.map_congr_left fun l hl => ?_
      have hls : l ∈ s.lsps :=
        (h.lsp_mem hd hp (List.mem_map.2 ⟨l, hl, rfl⟩) (List.mem_singleton.2 rfl)).1
      have hn := h.lspIfs_nodup ht hls
      rw [crosses_eq]
      by_cases hi : i ∈ s'.lspIfs l
      · rw [List.count_eq_one_of_mem hn hi]; simp [hi]
      · rw [List.count_eq_zero_of_not_mem hi]; simp [hi]
    · exact absurd h5 hne

theorem SimResult.delta_eq (ht : Tidy s) (hsc : s.kind = .flex → NoShortcuts s)
    (h : SimResult env s s1 s' Δ) {d : ℕ} (hd : d ∈ s.dmds) (i : ℕ) :
    Δ d i = contribution s' d i := by
  rcases h.placed ht hsc hd with ⟨ls, hne, hr, hpl⟩ | ⟨hr, ⟨hpl, -⟩ | ⟨l, hpl, -, -, -⟩⟩
  · obtain ⟨h1, h2⟩ := h.lspLoad ht hd hne hr hpl
    unfold contribution
    rw [hpl, h1]
    simp only []
    rw [ridden_lsps, if_neg hne, h2]
  · unfold contribution
    rw [hpl]
    rcases h.load d hd with ⟨-, -, h1⟩ | ⟨paths, ls, det, h1, -⟩
    · rw [h1]
    · rw [hpl] at h1; cases h1
  · obtain ⟨l', det, h1, h2, h3⟩ := h.igpLoad ht hsc hd hpl (by
      intro p hp m hm
      obtain ⟨q, -, rfl⟩ := List.mem_map.1 hp
      simp at hm)
    unfold contribution
    rw [hpl, h2, h3.load i]
    simp only []
    rw [ridden_ifcs, if_pos rfl]
    cases s'.kind <;> rfl

/-! ### metrics -/

theorem foldl_min_le (l : List ℕ) (a : ℕ) : l.foldl min a ≤ a ∧ ∀ x ∈ l, l.foldl min a ≤ x := by
  induction l generalizing a with
  | nil => simp
  | cons b l ih =>
    obtain ⟨h1, h2⟩ := ih (min a b)
    rw [List.foldl_cons]
    refine ⟨h1.trans (min_le_left _ _), fun x hx => ?_⟩
    rcases List.mem_cons.1 hx with rfl | hx
    · exact h1.trans (min_le_right _ _)
    · exact h2 x hx

/-- what `min` of metrics means: all equal, or the smallest of numbers -/
theorem pyMin_spec {ms : List Metric} {m : Metric} (h : pyMin ms = .ok m) :
    m ∈ ms ∧ ((∀ x ∈ ms, x = m) ∨
      ∃ n, m = .val n ∧ ∀ x ∈ ms, ∃ k, x = .val k ∧ n ≤ k) := by
  refine ⟨pyMin_mem h, ?_⟩
  unfold pyMin at h
  split at h
  · cases h
  · cases h; left; simp
  · rename_i hnil hone
    split at h
    · next n ns heq =>
      cases h
      right
      refine ⟨_, rfl, fun x hx => ?_⟩
      rw [allSome_eq_some] at heq
      have hx' := List.mem_map_of_mem (f := fun m : Metric => match m with
        | .val n => some n
        | _ => none) hx
      replace hx' := heq ▸ hx'
      obtain ⟨k, hk, e⟩ := List.mem_map.1 hx'
      cases x with
      | val j =>
        cases e
        refine ⟨_, rfl, ?_⟩
        obtain ⟨h1, h2⟩ := foldl_min_le ns n
        rcases List.mem_cons.1 hk with rfl | hk
        · exact h1
        · exact h2 _ hk
      | none => cases e
      | unrouted => cases e
    · split at h
      · next hall =>
        cases h
        left
        intro x hx
        rw [List.all_eq_true] at hall
        simpa using hall x hx
      · cases h

theorem pyMin_vals (a b : ℕ) (ns : List ℕ) :
    pyMin ((a :: b :: ns).map Metric.val) = .ok (.val ((b :: ns).foldl min a)) := by
  unfold pyMin
  simp only [List.map_cons]
  split
  · next n ns' heq =>
    rw [allSome_eq_some] at heq
    simp only [List.map_cons, List.map_map, List.cons.injEq, Option.some.injEq] at heq
    obtain ⟨rfl, h2⟩ := heq
    cases ns' with
    | nil => simp at h2
    | cons c ns' =>
      simp only [List.map_cons, List.cons.injEq, Option.some.injEq] at h2
      obtain ⟨rfl, h2⟩ := h2
      have : ns = ns' := List.map_injective_iff.2 (fun _ _ e => Option.some.inj e) h2
      rw [this]
  · next hno =>
    refine absurd (allSome_eq_some.2 ?_) (hno a (b :: ns))
    simp only [List.map_cons, List.map_map]
    rfl

theorem pyMin_val {ms : List Metric} {n : ℕ} (hm : .val n ∈ ms)
    (h : ∀ x ∈ ms, ∃ k, x = .val k ∧ n ≤ k) : pyMin ms = .ok (.val n) := by
  obtain ⟨ns, rfl⟩ : ∃ ns : List ℕ, ms = ns.map Metric.val := by
    clear hm
    induction ms with
    | nil => exact ⟨[], rfl⟩
    | cons x ms ih =>
      obtain ⟨k, rfl, -⟩ := h x (by simp)
      obtain ⟨ns, rfl⟩ := ih fun x hx => h x (by simp [hx])
      exact ⟨k :: ns, rfl⟩
  obtain ⟨k, hk, e⟩ := List.mem_map.1 hm
  cases e
  cases ns with
  | nil => cases hk
  | cons a ns =>
    cases ns with
    | nil =>
      simp only [List.mem_singleton] at hk
      subst hk
      rfl
    | cons b ns =>
      rw [pyMin_vals]
      congr 2
      obtain ⟨h1, h2⟩ := foldl_min_le (b :: ns) a
      have hle : (b :: ns).foldl min a ≤ n := by
        rcases List.mem_cons.1 hk with rfl | hk
        · exact h1
        · exact h2 _ hk
      have hmem : Metric.val ((b :: ns).foldl min a) ∈ (a :: b :: ns).map Metric.val := by
        exact pyMin_mem (pyMin_vals a b ns)
      obtain ⟨k, e, hk'⟩ := h _ hmem
      cases e
      omega

theorem pyMin_same {ms : List Metric} {m : Metric} (hne : ms ≠ []) (h : ∀ x ∈ ms, x = m)
    (hnd : ms.Nodup) : pyMin ms = .ok m := by
  cases ms with
  | nil => exact absurd rfl hne
  | cons a ms =>
    cases ms with
    | nil => rw [h a (by simp)]; rfl
    | cons b ms =>
      rw [h a (by simp), h b (by simp)] at hnd
      simp at hnd

theorem pyMin_dedup {ms : List Metric} {m : Metric} (h : pyMin ms = .ok m) :
    pyMin ms.dedup = .ok m := by
  obtain ⟨h1, h2 | ⟨n, rfl, h2⟩⟩ := pyMin_spec h
  · refine pyMin_same ?_ (fun x hx => h2 x (List.mem_dedup.1 hx)) (List.nodup_dedup _)
    intro h0
    have := List.mem_dedup.2 h1
    rw [h0] at this
    cases this
  · exact pyMin_val (List.mem_dedup.2 h1) fun x hx => h2 x (List.mem_dedup.1 hx)

/-- the LSPs ridden are those of least metric -/
theorem RidingOf.mem_iff {s : State} {key : String} {ls : List ℕ} (h : RidingOf s key ls) (l : ℕ) :
    l ∈ ls ↔ l ∈ s.routedGroup key ∧ ∀ l' ∈ s.routedGroup key, ∀ n', s.effMetric l' = .ok (.val n') →
      ∃ n, s.effMetric l = .ok (.val n) ∧ n ≤ n' := by
  rcases h with ⟨h1, rfl⟩ | ⟨h1, ms, m, h2, h3, rfl⟩
  · rw [h1]; simp
  · have hm := effMetrics_ok h2
    have hmem : ∀ l ∈ s.routedGroup key, ∃ x ∈ ms, s.effMetric l = .ok x := by
      intro l hl
      have : s.effMetric l ∈ (s.routedGroup key).map s.effMetric := List.mem_map.2 ⟨l, hl, rfl⟩
      rw [hm] at this
      obtain ⟨x, hx, e⟩ := List.mem_map.1 this
      exact ⟨x, hx, e.symm⟩
    unfold State.withMetric
    rw [List.mem_filter]
    refine and_congr_right fun hl => ?_
    obtain ⟨x, hx, ex⟩ := hmem l hl
    rw [ex]
    simp only [decide_eq_true_eq]
    obtain ⟨g1, g2⟩ := pyMin_spec h3
    constructor
    · rintro rfl l' hl' n' e'
      obtain ⟨y, hy, ey⟩ := hmem l' hl'
      rw [ey] at e'
      cases e'
      rcases g2 with g2 | ⟨n, rfl, g2⟩
      · refine ⟨n', ?_, le_refl _⟩
        rw [g2 _ hy]
      · obtain ⟨k, e, hk⟩ := g2 _ hy
        cases e
        exact ⟨n, rfl, hk⟩
    · intro hmin
      rcases g2 with g2 | ⟨n, rfl, g2⟩
      · exact g2 x hx
      · have : Except.ok (Metric.val n) ∈ ms.map (Except.ok (ε := Exn)) :=
          List.mem_map.2 ⟨_, g1, rfl⟩
        rw [← hm] at this
        obtain ⟨l', hl', e'⟩ := List.mem_map.1 this
        obtain ⟨k, ek, hk⟩ := hmin l' hl' n e'
        cases ek
        obtain ⟨k', e, hk'⟩ := g2 _ hx
        cases e
        congr 1
        omega

theorem SimResult.rides (h : SimResult env s s1 s' Δ) {d : ℕ} (hd : d ∈ s.dmds) :
    (∃ ls, ls ≠ [] ∧ RidingOf s' (pairKey (s.dmdSrc d) (s.dmdDst d)) ls ∧
      (s'.dmd d).path = some (ls.map fun l => [Item.lsp l])) ∨
    RidingOf s' (pairKey (s.dmdSrc d) (s.dmdDst d)) [] := by
  have hpl := h.place d hd
  obtain ⟨D, T, C, B, I, hov⟩ := h.over
  rcases hpl with ⟨ls, h1, h2, h3⟩ | ⟨h1, -⟩
  · exact .inl ⟨ls, h1, by rw [hov, RidingOf.over]; exact h2, h3⟩
  · exact .inr (by rw [hov, RidingOf.over]; exact h1)

theorem SimResult.mem_group (ht : Tidy s) (hk : KeysDistinct s) (h : SimResult env s s1 s' Δ)
    {d : ℕ} (hd : d ∈ s.dmds) {l : ℕ} :
    l ∈ s'.routedGroup (pairKey (s.dmdSrc d) (s.dmdDst d)) ↔
      LspBetween s' (s'.dmdSrc d) (s'.dmdDst d) l ∧ IsRouted s' l := by
  obtain ⟨ha, hb⟩ := dmd_endNames hd
  rw [h.routedGroup_eq hk ha hb, List.mem_filter, mem_between]
  unfold LspBetween
  rw [h.cfg.lsps, h.cfg.lspSrc, h.cfg.lspDst, h.cfg.dmdSrc, h.cfg.dmdDst]
  refine and_congr_right fun hl => ?_
  rw [← h.isRouted_iff ht hl.1]
  simp

theorem SimResult.riding_nodup (ht : Tidy s) (hk : KeysDistinct s) (h : SimResult env s s1 s' Δ)
    {d : ℕ} (hd : d ∈ s.dmds) {ls : List ℕ}
    (hr : RidingOf s' (pairKey (s.dmdSrc d) (s.dmdDst d)) ls) : ls.Nodup := by
  obtain ⟨ha, hb⟩ := dmd_endNames hd
  have hn : (s'.routedGroup (pairKey (s.dmdSrc d) (s.dmdDst d))).Nodup := by
    rw [h.routedGroup_eq hk ha hb]
    unfold between
    exact (ht.lsps.filter _).filter _
  rcases hr with ⟨-, rfl⟩ | ⟨-, ms, m, -, -, rfl⟩
  · exact List.nodup_nil
  · exact hn.filter _

end

end NTM
