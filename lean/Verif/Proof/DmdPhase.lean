import Verif.Proof.LspPhase

/-!
# The demand phase of a simulation: placing demands
-/

namespace NTM

open Spec

/-- the routed LSPs of the group stored under `key` -/
def State.routedGroup (s : State) (key : String) : List ℕ :=
  ((dictGet s.groups key).getD []).filter fun l => !(s.lsp l).path.saysUnrouted

/-- `ls` are the LSPs a demand with this group key rides -/
def RidingOf (s : State) (key : String) (ls : List ℕ) : Prop :=
  (s.routedGroup key = [] ∧ ls = []) ∨
  (s.routedGroup key ≠ [] ∧ ∃ ms m, s.effMetrics (s.routedGroup key) = .ok ms ∧
    pyMin ms = .ok m ∧ ls = s.withMetric m (s.routedGroup key))

theorem ridingLsps_spec {env : Env} {s : State} (hs : GroupsFresh env s) (key : String) :
    wp (ridingLsps env key) (fun ls t => t = s ∧ RidingOf s key ls) (fun _ t => t = s) s := by
  unfold ridingLsps
  rw [wp_bind, wp_ok (lspGroups_fresh hs), wp_bind, wp_get]
  change wp (match s.routedGroup key with
    | [] => pure []
    | ls => do
      let ms ← liftE (s.effMetrics ls)
      let m ← liftE (pyMin ms)
      pure (s.withMetric m ls)) _ _ s
  split
  · next h => exact ⟨rfl, .inl ⟨h, rfl⟩⟩
  · next hne =>
    rw [wp_bind, wp_liftE]
    cases hms : s.effMetrics (s.routedGroup key) with
    | error e => rfl
    | ok ms =>
      simp only []
      rw [wp_bind, wp_liftE]
      cases hm : pyMin ms with
      | error e => rfl
      | ok m => exact ⟨rfl, .inr ⟨hne, ms, m, hms, hm, rfl⟩⟩

theorem effMetrics_ok {s : State} {ls : List ℕ} {ms : List Metric} (h : s.effMetrics ls = .ok ms) :
    ls.map s.effMetric = ms.map .ok := by
  induction ls generalizing ms with
  | nil => unfold State.effMetrics at h; cases h; rfl
  | cons l ls ih =>
    unfold State.effMetrics at h
    cases hl : s.effMetric l with
    | error e => rw [hl] at h; cases h
    | ok m =>
      rw [hl] at h
      simp only [] at h
      cases hls : s.effMetrics ls with
      | error e => rw [hls] at h; cases h
      | ok ms' =>
        rw [hls] at h
        cases h
        simp [hl, ih hls]

theorem effMetrics_error {s : State} {ls : List ℕ} {e : Exn} (h : s.effMetrics ls = .error e) :
    ∃ l ∈ ls, s.effMetric l = .error e := by
  induction ls with
  | nil => unfold State.effMetrics at h; cases h
  | cons l ls ih =>
    unfold State.effMetrics at h
    cases hl : s.effMetric l with
    | error e' => rw [hl] at h; cases h; exact ⟨l, by simp, hl⟩
    | ok m =>
      rw [hl] at h
      simp only [] at h
      cases hls : s.effMetrics ls with
      | error e' =>
        rw [hls] at h; cases h
        obtain ⟨l', h1, h2⟩ := ih hls
        exact ⟨l', by simp [h1], h2⟩
      | ok ms' => rw [hls] at h; cases h

theorem pyMin_mem {ms : List Metric} {m : Metric} (h : pyMin ms = .ok m) : m ∈ ms := by
  unfold pyMin at h
  split at h
  · cases h
  · cases h; simp
  · rename_i hnil _
    split at h
    · next n ns heq =>
      cases h
      rw [allSome_eq_some] at heq
      have hmem : ∀ (l : List ℕ) (a : ℕ), l.foldl min a ∈ a :: l := by
        intro l
        induction l with
        | nil => intro a; simp
        | cons b l ih =>
          intro a
          rw [List.foldl_cons]
          have := ih (min a b)
          rcases List.mem_cons.1 this with h | h
          · rw [h]
            rcases min_choice a b with h' | h' <;> rw [h'] <;> simp
          · simp [h]
      have h1 := hmem ns n
      have h2 : some (ns.foldl min n) ∈ (n :: ns).map some := List.mem_map.2 ⟨_, h1, rfl⟩
      rw [← heq] at h2
      obtain ⟨x, hx, he⟩ := List.mem_map.1 h2
      cases x with
      | val k => simp only [Option.some.injEq] at he; rw [← he]; exact hx
      | unrouted => cases he
      | none => cases he
    · split at h
      · next h1 =>
        cases h
        cases ms with
        | nil => exact (hnil rfl).elim
        | cons x xs =>
          simp only [List.all_cons, Bool.and_eq_true, decide_eq_true_eq] at h1
          simp [h1.1]
      · cases h

theorem RidingOf.sub {s : State} {key : String} {ls : List ℕ} (h : RidingOf s key ls) :
    ls ⊆ s.routedGroup key := by
  rcases h with ⟨-, rfl⟩ | ⟨-, ms, m, -, -, rfl⟩
  · simp
  · unfold State.withMetric; exact List.filter_subset_self _

theorem RidingOf.nil_iff {s : State} {key : String} {ls : List ℕ} (h : RidingOf s key ls) :
    ls = [] ↔ s.routedGroup key = [] := by
  rcases h with ⟨h1, rfl⟩ | ⟨h1, ms, m, h2, h3, rfl⟩
  · simp [h1]
  · constructor
    · intro he
      exfalso
      have hm := pyMin_mem h3
      have h2' := effMetrics_ok h2
      have : Except.ok m ∈ ms.map (Except.ok (ε := Exn)) := List.mem_map.2 ⟨m, hm, rfl⟩
      rw [← h2'] at this
      obtain ⟨l, hl, hlm⟩ := List.mem_map.1 this
      have : l ∈ s.withMetric m (s.routedGroup key) := by
        unfold State.withMetric
        rw [List.mem_filter]
        exact ⟨hl, by rw [hlm]; simp⟩
      rw [he] at this; cases this
    · intro h; exact absurd h h1

theorem effMetric_withDmd (s : State) (D : ℕ → Dmd) (l : ℕ) :
    State.effMetric { s with dmd := D } l = s.effMetric l := rfl

theorem effMetrics_withDmd (s : State) (D : ℕ → Dmd) (ls : List ℕ) :
    State.effMetrics { s with dmd := D } ls = s.effMetrics ls := by
  induction ls with
  | nil => rfl
  | cons l ls ih => unfold State.effMetrics; rw [ih, effMetric_withDmd]

theorem RidingOf.withDmd {s : State} {D : ℕ → Dmd} {key : String} {ls : List ℕ} :
    RidingOf { s with dmd := D } key ls ↔ RidingOf s key ls := by
  unfold RidingOf
  rw [effMetrics_withDmd]
  exact Iff.rfl

/-- same demand objects up to the path -/
def DmdCfg (s : State) (D : ℕ → Dmd) : Prop := ∀ d, D d = { s.dmd d with path := (D d).path }

/-- how a demand from `a` to `b` is placed, given the network state `s` -/
def Place (env : Env) (s : State) (g : NxG) (es : List ℕ) (a b : String)
    (p : Option (List (List Item))) : Prop :=
  (∃ ls, ls ≠ [] ∧ RidingOf s (pairKey a b) ls ∧ p = some (ls.map fun l => [Item.lsp l])) ∨
  (RidingOf s (pairKey a b) [] ∧
    ∃ D, igpPaths env g es a b { s with dmd := D } = .ok p { s with dmd := D })

theorem updDmd_withDmd (s : State) (D : ℕ → Dmd) (d : ℕ) (f : Dmd → Dmd) :
    State.updDmd { s with dmd := D } d f =
      { s with dmd := fun e => if e = d then f (D e) else D e } := rfl

theorem routeDemand_spec {env : Env} {s : State} (hs : GroupsFresh env s) (g : NxG) (es : List ℕ)
    (d : ℕ) (D : ℕ → Dmd) (hD : DmdCfg s D) :
    wp (routeDemand env g es d)
      (fun _ t => ∃ p, t = { s with dmd := fun e => if e = d then { D e with path := p } else D e } ∧
        Place env s g es (s.dmdSrc d) (s.dmdDst d) p)
      (fun _ t => ∃ D', t = { s with dmd := D' } ∧ DmdCfg s D') { s with dmd := D } := by
  unfold routeDemand
  simp only [wp_bind, wp_modify, wp_get, updDmd_withDmd]
  generalize hD1 : (fun e => if e = d then { D e with path := some [] } else D e) = D1
  have hcfg : DmdCfg s D1 := by
    intro e
    rw [← hD1]
    by_cases h : e = d
    · simp only [h, if_true]; rw [hD d]
    · simp only [h, if_false]; exact hD e
  have hsrc : State.dmdSrc { s with dmd := D1 } d = s.dmdSrc d := by
    unfold State.dmdSrc; simp only []; rw [hcfg d]
  have hdst : State.dmdDst { s with dmd := D1 } d = s.dmdDst d := by
    unfold State.dmdDst; simp only []; rw [hcfg d]
  rw [hsrc, hdst]
  have hD1d : ∀ p, (fun e => if e = d then { D1 e with path := p } else D1 e) =
      (fun e => if e = d then { D e with path := p } else D e) := by
    intro p
    rw [← hD1]
    funext e
    by_cases h : e = d <;> simp [h]
  have hfr : GroupsFresh env { s with dmd := D1 } := hs
  refine wp_mono (ridingLsps_spec hfr _) ?_ ?_
  · rintro ls t ⟨rfl, hr⟩
    have hr' : RidingOf s (pairKey (s.dmdSrc d) (s.dmdDst d)) ls :=
      RidingOf.withDmd.1 hr
    cases ls with
    | nil =>
      simp only [wp_bind, wp_modify]
      refine (keeps_igpPaths env g es _ _).wp_read hfr ?_ ?_
      · intro p hp
        refine ⟨p, ?_, .inr ⟨hr', D1, hp⟩⟩
        rw [updDmd_withDmd, hD1d]
      · intro e _
        exact ⟨D1, rfl, hcfg⟩
    | cons l ls =>
      simp only [wp_modify]
      refine ⟨_, ?_, .inl ⟨l :: ls, by simp, hr', rfl⟩⟩
      rw [updDmd_withDmd, hD1d]
  · rintro e t rfl
    exact ⟨D1, rfl, hcfg⟩

/-- after the placement loop every demand is placed according to the network state at the
start of the loop -/
theorem routeLoop_spec {env : Env} {s : State} (hs : GroupsFresh env s) (g : NxG) (es : List ℕ)
    (ds : List ℕ) :
    wp (forEach ds (routeDemand env g es))
      (fun _ t => ∃ D, t = { s with dmd := D } ∧ DmdCfg s D ∧
        (∀ d ∈ ds, Place env s g es (s.dmdSrc d) (s.dmdDst d) (D d).path) ∧
        ∀ d, d ∉ ds → D d = s.dmd d)
      (fun _ t => ∃ D, t = { s with dmd := D } ∧ DmdCfg s D) s := by
  have := wp_forEach_idx (s := s) (E := fun _ t => ∃ D, t = { s with dmd := D } ∧ DmdCfg s D)
    (I := fun done t => ∃ D, t = { s with dmd := D } ∧ DmdCfg s D ∧
      (∀ d ∈ done, Place env s g es (s.dmdSrc d) (s.dmdDst d) (D d).path) ∧
      ∀ d, d ∉ done → D d = s.dmd d)
    (routeDemand env g es) ds [] ?_ ?_
  · simpa using this
  · rintro pre d post - t ⟨D, rfl, hD, hdone, hrest⟩
    refine wp_mono (routeDemand_spec hs g es d D hD) ?_ (fun _ _ h => h)
    rintro _ t ⟨p, rfl, hp⟩
    refine ⟨_, rfl, ?_, ?_, ?_⟩
    · intro e
      by_cases h : e = d
      · simp only [h, if_true]; rw [hD d]
      · simp only [h, if_false]; exact hD e
    · intro e he
      by_cases h : e = d
      · subst h; simpa using hp
      · simp only [h, if_false]
        refine hdone e ?_
        simpa [h] using he
    · intro e he
      have hne : e ≠ d := by rintro rfl; simp at he
      simp only [hne, if_false]
      exact hrest e (fun h => he (by simp at h ⊢; exact .inl h))
  · exact ⟨s.dmd, rfl, fun _ => rfl, by simp, fun _ _ => rfl⟩

/-- the IGP part without shortcuts: exactly the cheapest routes -/
theorem igpPaths_spec {env : Env} {s : State} (h : Sane s) {es : List ℕ} (hes : es ⊆ s.ifs)
    (hnd : es.Nodup) (hsc : s.kind = .flex → NoShortcuts s) {a b : String}
    {p : Option (List (List Item))} {t : State}
    (hp : igpPaths env (s.graphOf es) es a b s = .ok p t) :
    (p = none ∧ ¬ Reachable s.tail s.head (· ∈ es) a b) ∨
    ∃ l, p = some (l.map fun q => q.map Item.ifc) ∧ l ≠ [] ∧ l.Nodup ∧
      ∀ q, q ∈ l ↔ CheapestOver s (· ∈ es) a q b := by
  have hwp : wp (igpPaths env (s.graphOf es) es a b) (fun p _ =>
      (p = none ∧ ¬ Reachable s.tail s.head (· ∈ es) a b) ∨
      ∃ l, p = some (l.map fun q => q.map Item.ifc) ∧ l ≠ [] ∧ l.Nodup ∧
        ∀ q, q ∈ l ↔ CheapestOver s (· ∈ es) a q b) (fun _ _ => True) s := by
    unfold igpPaths
    simp only [wp_bind, wp_get]
    cases hsp : (s.graphOf es).allShortestPaths a b with
    | error e =>
      split
      · next he => left; cases he; exact ⟨rfl, noPath_iff h hes hsp⟩
      · trivial
      · next he => cases he
    | ok nxSp =>
      simp only []
      have hne : ∀ (l : List (List ℕ)), (∀ q, q ∈ l ↔ CheapestOver s (· ∈ es) a q b) → l ≠ [] := by
        intro l hl
        obtain ⟨q, hq⟩ := exists_cheapest (cost := fun i => (s.ifc i).cost) (ok_reachable h hes hsp)
        exact List.ne_nil_of_mem ((hl q).2 hq)
      cases hk : s.kind with
      | perf =>
        simp only []
        obtain ⟨l, h1, h2, h3⟩ := perf_paths h hk hes hsp
        rw [h1]
        simp only [wp_pure]
        exact .inr ⟨l, rfl, hne l h3, h2, h3⟩
      | flex =>
        simp only [wp_bind]
        obtain ⟨h2, h3⟩ := flex_paths h hk hes hnd hsp
        unfold findIgpShortcuts
        simp only [wp_bind, wp_get, wp_liftE]
        split
        · next ns hns =>
          have hall : ∀ n ∈ ns, n ∈ s.nodes := by
            have aux : ∀ (l : List String) (acc ns : List ℕ), (∀ n ∈ acc, n ∈ s.nodes) →
                (l.foldlM (init := acc) fun acc u =>
                  (s.getNode u).map fun n => acc ++ [n]) = Except.ok ns →
                ∀ n ∈ ns, n ∈ s.nodes := by
              intro l
              induction l with
              | nil => intro acc ns hacc hh; cases hh; exact hacc
              | cons u l ih =>
                intro acc ns hacc hh
                rw [List.foldlM_cons] at hh
                unfold State.getNode at hh
                cases hf : s.nodes.find? fun n => (s.node n).name = u with
                | none => rw [hf] at hh; cases hh
                | some m =>
                  rw [hf] at hh
                  refine ih (acc ++ [m]) ns ?_ hh
                  intro n hn
                  rcases List.mem_append.1 hn with hn | hn
                  · exact hacc n hn
                  · rw [List.mem_singleton.1 hn]; exact List.mem_of_find?_eq_some hf
            exact aux _ [] ns (by simp) hns
          have hno : (ns.all fun n => !(s.node n).shortcuts) = true := by
            rw [List.all_eq_true]
            intro n hn
            rw [hsc hk n (hall n hn)]; rfl
          rw [if_pos hno]
          simp only [wp_pure]
          exact .inr ⟨_, rfl, hne _ h3, h2, h3⟩
        · trivial
  exact of_wp_ok hwp hp

end NTM
