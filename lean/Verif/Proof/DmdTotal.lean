import Verif.Proof.LspTotal
import Verif.Proof.LoadPhase

/-!
# The demand phase raises nothing
-/

namespace NTM

open Spec

/-- what the demand phase relies on -/
structure Ready (env : Env) (t : State) : Prop where
  fresh : GroupsFresh env t
  sane : Sane t
  lsp : ∀ l ∈ t.lsps, (t.lsp l).path = .unrouted ∨ ∃ p c m, (t.lsp l).path = .routed p c m ∧
    PathOver t (Usable t 0) (t.lspSrc l) p (t.lspDst l)
  src : ∀ l ∈ t.lsps, t.lspSrc l ∈ t.nodeNames
  metric : ∀ l ∈ t.lsps, ∃ m, (t.lsp l).manualView = .ok m
  heads : ∀ i ∈ t.ifs, t.head i ∈ t.nodeNames

theorem Ready.withLoad {env : Env} {t : State} (h : Ready env t) (D : ℕ → Dmd) (T : ℕ → Traffic) :
    Ready env (t.withLoad D T) :=
  ⟨h.fresh, ⟨h.sane.nodup, h.sane.costs, h.sane.single⟩, h.lsp, h.src, h.metric, h.heads⟩

theorem Ready.withDmd {env : Env} {t : State} (h : Ready env t) (D : ℕ → Dmd) :
    Ready env { t with dmd := D } :=
  ⟨h.fresh, ⟨h.sane.nodup, h.sane.costs, h.sane.single⟩, h.lsp, h.src, h.metric, h.heads⟩

/-! ### Metrics -/

theorem getShortestPath_cost {s : State} (h : Sane s) {a b : String} (ha : a ∈ s.nodeNames)
    (hr : Reachable s.tail s.head (Usable s 0) a b) :
    ∃ c, (s.getShortestPath a b 0).cost = some c := by
  have hr' : Reachable s.tail s.head (· ∈ s.igpEdges) a b := reachable_igp.2 hr
  have hes : s.igpEdges ⊆ s.ifs := considered_sub s _ _ _
  obtain ⟨q, hq⟩ := exists_cheapest (cost := fun i => (s.ifc i).cost) hr'
  have hlen := shortestLength_cheapest h hes hq
  rcases allShortestPaths_total h hes (b := b) ha with ⟨⟨ps, hps⟩, -⟩ | ⟨-, hn⟩
  · unfold State.getShortestPath
    cases hk : s.kind with
    | perf =>
      have hg : s.graphPerf false 0 false = s.graphOf s.igpEdges := by
        unfold State.graphOf; rw [hk]; rfl
      simp only []
      rw [hg, hps, hlen]
      obtain ⟨l, h1, -, -⟩ := perf_paths h hk hes hps
      simp only []
      rw [h1]
      exact ⟨_, rfl⟩
    | flex =>
      have hg : s.graphFlex false 0 false = s.graphOf s.igpEdges := by
        unfold State.graphOf; rw [hk]; rfl
      simp only []
      rw [hg, hps, hlen]
      exact ⟨_, rfl⟩
  · exact absurd hr' hn

theorem Ready.effMetric {env : Env} {t : State} (h : Ready env t) {l : ℕ} (hl : l ∈ t.lsps) :
    ∃ m, t.effMetric l = .ok m ∧ ((t.lsp l).path.saysUnrouted = false → ∃ n, m = .val n) := by
  obtain ⟨v, hv⟩ := h.metric l hl
  unfold State.effMetric
  rw [hv]
  cases v with
  | some n => exact ⟨_, rfl, fun _ => ⟨n, rfl⟩⟩
  | none =>
    simp only []
    rcases h.lsp l hl with hp | ⟨p, c, m, hp, hpath⟩
    · rw [hp, if_pos (show LspPath.unrouted.saysUnrouted = true from rfl)]
      exact ⟨_, rfl, fun e => by cases e⟩
    · rw [hp, if_neg (by simp [LspPath.saysUnrouted])]
      obtain ⟨c, hc⟩ := getShortestPath_cost h.sane (h.src l hl) (b := t.lspDst l) ⟨p, hpath⟩
      rw [hc]
      exact ⟨_, rfl, fun _ => ⟨c, rfl⟩⟩

theorem effMetrics_total {s : State} {ls : List ℕ} (h : ∀ l ∈ ls, ∃ m, s.effMetric l = .ok m) :
    ∃ ms, s.effMetrics ls = .ok ms := by
  cases he : s.effMetrics ls with
  | ok ms => exact ⟨ms, rfl⟩
  | error e =>
    obtain ⟨l, hl, hle⟩ := effMetrics_error he
    obtain ⟨m, hm⟩ := h l hl
    rw [hm] at hle; cases hle

theorem pyMin_allVals {ms : List Metric} (hne : ms ≠ []) (h : ∀ m ∈ ms, ∃ n, m = .val n) :
    ∃ m, pyMin ms = .ok m := by
  unfold pyMin
  split
  · exact absurd rfl hne
  · exact ⟨_, rfl⟩
  · split
    · exact ⟨_, rfl⟩
    · rename_i hx
      exfalso
      have : ∀ ms : List Metric, (∀ m ∈ ms, ∃ n, m = .val n) → ∃ l : List ℕ,
          allSome (ms.map fun m => match m with
            | .val n => some n
            | _ => none) = some l ∧ l.length = ms.length := by
        intro ms
        induction ms with
        | nil => intro _; exact ⟨[], rfl, rfl⟩
        | cons m ms ih =>
          intro h
          obtain ⟨n, rfl⟩ := h m (by simp)
          obtain ⟨l, h1, h2⟩ := ih fun m hm => h m (by simp [hm])
          refine ⟨n :: l, ?_, by simp [h2]⟩
          rw [allSome_eq_some] at h1 ⊢
          simp [h1]
      obtain ⟨l, h1, h2⟩ := this ms h
      cases l with
      | nil => exact hne (List.length_eq_zero_iff.1 h2.symm)
      | cons n ns => exact hx n ns h1

theorem Ready.group {env : Env} {t : State} (h : Ready env t) {key : String} {l : ℕ}
    (hl : l ∈ (dictGet t.groups key).getD []) : l ∈ t.lsps := by
  cases hd : dictGet t.groups key with
  | none => rw [hd] at hl; cases hl
  | some ls =>
    rw [hd] at hl
    have := h.fresh
    unfold GroupsFresh at this
    rw [this] at hd
    exact mem_of_buildGroups (mem_of_dictGet hd) hl

theorem Ready.routedMetrics {env : Env} {t : State} (h : Ready env t) (key : String) :
    ∃ ms, t.effMetrics (t.routedGroup key) = .ok ms ∧ (ms = [] ↔ t.routedGroup key = []) ∧
      ∀ m ∈ ms, ∃ n, m = .val n := by
  have hmem : ∀ l ∈ t.routedGroup key, l ∈ t.lsps ∧ (t.lsp l).path.saysUnrouted = false :=
    fun l hl => mem_routedGroup h.fresh hl
  obtain ⟨ms, hms⟩ := effMetrics_total (s := t) (ls := t.routedGroup key) fun l hl => by
    obtain ⟨m, hm, -⟩ := h.effMetric (hmem l hl).1
    exact ⟨m, hm⟩
  have heq := effMetrics_ok hms
  refine ⟨ms, hms, ?_, fun m hm => ?_⟩
  · constructor
    · rintro rfl; simpa using heq
    · intro e; rw [e] at heq; simpa using heq.symm
  · have : Except.ok m ∈ ms.map (Except.ok (ε := Exn)) := List.mem_map.2 ⟨m, hm, rfl⟩
    rw [← heq] at this
    obtain ⟨l, hl, hlm⟩ := List.mem_map.1 this
    obtain ⟨m', hm', hv⟩ := h.effMetric (hmem l hl).1
    rw [hm'] at hlm
    cases hlm
    exact hv (hmem l hl).2

theorem ridingLsps_runs {env : Env} {t : State} (h : Ready env t) (key : String) :
    Runs (ridingLsps env key) t := by
  unfold Runs ridingLsps
  rw [wp_bind, wp_ok (lspGroups_fresh h.fresh), wp_bind, wp_get]
  change wp (match t.routedGroup key with
    | [] => pure []
    | ls => do
      let ms ← liftE (t.effMetrics ls)
      let m ← liftE (pyMin ms)
      pure (t.withMetric m ls)) _ _ t
  obtain ⟨ms, h1, h2, h3⟩ := h.routedMetrics key
  split
  · trivial
  · next hne =>
    have hne' : t.routedGroup key ≠ [] := fun e => hne e
    obtain ⟨m, hm⟩ := pyMin_allVals (fun e => hne' (h2.1 e)) h3
    simp only [wp_bind, wp_liftE]
    rw [h1]
    simp only []
    rw [hm]
    trivial

theorem bestLsps_runs {env : Env} {t : State} (h : Ready env t) (key : String) :
    Runs (bestLsps env key) t := by
  unfold Runs bestLsps
  rw [wp_bind, wp_ok (lspGroups_fresh h.fresh), wp_bind, wp_get]
  cases hd : dictGet t.groups key with
  | none => trivial
  | some cands =>
    have hrg : t.routedGroup key = cands.filter fun l => !(t.lsp l).path.saysUnrouted := by
      unfold State.routedGroup; rw [hd]; rfl
    simp only [wp_bind, wp_liftE]
    rw [← hrg]
    obtain ⟨ms, h1, h2, h3⟩ := h.routedMetrics key
    rw [h1]
    simp only []
    by_cases hne : ms = []
    · rw [hne]; trivial
    · obtain ⟨m, hm⟩ := pyMin_allVals hne h3
      rw [hm]
      simp only [wp_bind, wp_liftE]
      obtain ⟨ms', hms'⟩ := effMetrics_total (s := t) (ls := cands) fun l hl => by
        obtain ⟨m, hm, -⟩ := h.effMetric (h.group (key := key) (by rw [hd]; exact hl))
        exact ⟨m, hm⟩
      rw [hms']
      trivial

/-! ### IGP shortcuts -/

theorem findShortcut_runs {env : Env} {t : State} (h : Ready env t) (s0 : State) (u : String)
    (vs : List String) : Runs (findShortcut env s0 u vs) t := by
  induction vs with
  | nil => trivial
  | cons v vs ih =>
    unfold Runs findShortcut
    rw [wp_bind]
    refine wp_mono ((bestLsps_runs h _).wp (bestLsps_spec h.fresh _)) ?_ (fun _ _ h => h)
    rintro ls t' ⟨rfl, -⟩
    cases ls with
    | nil => exact ih
    | cons l ls => trivial

theorem getNode_total {s : State} {u : String} (hu : u ∈ s.nodeNames) : ∃ n, s.getNode u = .ok n := by
  unfold State.getNode
  cases hf : s.nodes.find? fun n => (s.node n).name = u with
  | some n => exact ⟨n, rfl⟩
  | none =>
    exfalso
    rw [List.find?_eq_none] at hf
    obtain ⟨n, hn, he⟩ := List.mem_map.1 hu
    exact hf n hn (by simpa using he)

theorem shortcutLsps_runs {env : Env} {t : State} (h : Ready env t) (np : List String)
    (l : List String) (hl : ∀ u ∈ l, u ∈ t.nodeNames) (skip : Option String) :
    Runs (shortcutLsps env np l skip) t := by
  induction l generalizing skip with
  | nil => trivial
  | cons u l ih =>
    have ih' := fun skip => ih (fun v hv => hl v (by simp [hv])) skip
    unfold Runs shortcutLsps
    simp only [wp_bind, wp_get]
    refine wp_ite (fun _ => ih' skip) fun _ => ?_
    simp only [wp_bind, wp_liftE]
    obtain ⟨n, hn⟩ := getNode_total (hl u (by simp))
    rw [hn]
    simp only []
    refine wp_ite (fun _ => ?_) fun _ => ih' skip
    simp only [wp_bind]
    refine wp_mono ((findShortcut_runs h t u _).wp (findShortcut_spec h.fresh t u _)) ?_
      (fun _ _ h => h)
    rintro r t' ⟨rfl, -⟩
    cases r with
    | none => exact ih' skip
    | some x =>
      obtain ⟨ls, e⟩ := x
      simp only [wp_bind, wp_pure]
      exact ih' (some e)

theorem foundLoop_runs {env : Env} {t : State} (h : Ready env t) (rest : List (List String))
    (hrest : ∀ np ∈ rest, ∀ u ∈ np, u ∈ t.nodeNames) (init : Option (List (List ℕ)))
    (hi : rest ≠ [] ∨ init ≠ none) :
    wp (rest.foldlM (init := init) fun _ np => do
        let x ← shortcutLsps env np np none
        pure (some x)) (fun r u => u = t ∧ r ≠ none) (fun _ _ => False) t := by
  induction rest generalizing init with
  | nil => exact ⟨rfl, hi.resolve_left (by simp)⟩
  | cons np rest ih =>
    rw [List.foldlM_cons]
    simp only [wp_bind]
    refine wp_mono ((shortcutLsps_runs h np np (hrest np (by simp)) none).wp
      (shortcutLsps_spec h.fresh np np (fun _ h => h) none)) ?_ (fun _ _ h => h)
    rintro r t' ⟨rfl, -⟩
    simp only [wp_pure]
    exact ih (fun q hq => hrest q (by simp [hq])) (some r) (.inr (by simp))

theorem pyProduct_ne_nil {α : Type} {ls : List (List α)} (h : ∀ l ∈ ls, l ≠ []) :
    pyProduct ls ≠ [] := by
  induction ls with
  | nil => simp [pyProduct]
  | cons l ls ih =>
    obtain ⟨x, hx⟩ := List.exists_mem_of_ne_nil _ (h l (by simp))
    obtain ⟨p, hp⟩ := List.exists_mem_of_ne_nil _ (ih fun l hl => h l (by simp [hl]))
    refine List.ne_nil_of_mem (a := x :: p) ?_
    rw [mem_pyProduct] at hp ⊢
    exact .cons hx hp

theorem insertLsps_ne {s : State} {groups : List (List ℕ)} (hg : ∀ g ∈ groups, g ≠ []) {p : List ℕ}
    {ps : List (List Item)} (h : s.insertLsps groups p = some ps) : ps ≠ [] := by
  unfold State.insertLsps at h
  split at h
  · cases h
  · next slices hsl =>
    cases h
    rw [ne_eq, List.map_eq_nil_iff]
    refine pyProduct_ne_nil fun l hl => ?_
    rw [List.mem_reverse] at hl
    rw [allSome_eq_some] at hsl
    have : some l ∈ slices.map some := List.mem_map.2 ⟨l, hl, rfl⟩
    rw [← hsl] at this
    obtain ⟨g, hgm, he⟩ := List.mem_map.1 this
    cases hab : s.lspSlice p g with
    | none => rw [hab] at he; cases he
    | some ab =>
      rw [hab] at he
      simp only [Option.map_some, Option.some.injEq] at he
      rw [← he, ne_eq, List.map_eq_nil_iff]
      exact hg g hgm

theorem substitute_ne {s : State} {groups : List (List ℕ)} (hg : ∀ g ∈ groups, g ≠ [])
    {paths : List (List ℕ)} (hp : paths ≠ []) :
    (paths.foldl (init := []) fun acc p =>
      match s.insertLsps groups p with
      | some ps => ps.foldl (fun acc q => if q ∈ acc then acc else acc ++ [q]) acc
      | none => acc ++ [p.map Item.ifc]) ≠ [] := by
  have key : ∀ (paths : List (List ℕ)) (acc : List (List Item)), paths ≠ [] ∨ acc ≠ [] →
      (paths.foldl (init := acc) fun acc p =>
        match s.insertLsps groups p with
        | some ps => ps.foldl (fun acc q => if q ∈ acc then acc else acc ++ [q]) acc
        | none => acc ++ [p.map Item.ifc]) ≠ [] := by
    intro paths
    induction paths with
    | nil => intro acc h; exact h.resolve_left (by simp)
    | cons p paths ih =>
      intro acc _
      rw [List.foldl_cons]
      refine ih _ (.inr ?_)
      cases hi : s.insertLsps groups p with
      | none => simp
      | some ps =>
        obtain ⟨q, hq⟩ := List.exists_mem_of_ne_nil _ (insertLsps_ne hg hi)
        simp only []
        exact List.ne_nil_of_mem ((mem_addNew ps acc q).2 (.inr hq))
  exact key paths [] (.inl hp)

theorem mixedMetric_total {env : Env} {t : State} (h : Ready env t) {q : List Item}
    (hq : ∀ l, Item.lsp l ∈ q → ∃ key, l ∈ t.routedGroup key) : ∃ m, t.mixedMetric q = .ok m := by
  induction q with
  | nil => exact ⟨0, rfl⟩
  | cons x q ih =>
    obtain ⟨m, hm⟩ := ih fun l hl => hq l (by simp [hl])
    unfold State.mixedMetric
    cases x with
    | ifc i => simp only []; rw [hm]; exact ⟨_, rfl⟩
    | lsp l =>
      simp only []
      obtain ⟨key, hl⟩ := hq l (by simp)
      obtain ⟨h1, h2⟩ := mem_routedGroup h.fresh hl
      obtain ⟨v, hv, hn⟩ := h.effMetric h1
      obtain ⟨n, rfl⟩ := hn h2
      rw [hv, hm]
      exact ⟨_, rfl⟩

theorem inspectMetrics_total {env : Env} {t : State} (h : Ready env t) {ps : List (List Item)}
    (hq : ∀ q ∈ ps, ∀ l, Item.lsp l ∈ q → ∃ key, l ∈ t.routedGroup key) :
    ∃ qs, t.inspectMetrics ps = .ok qs := by
  have : ∃ ms, t.mixedMetrics ps = .ok ms := by
    induction ps with
    | nil => exact ⟨[], rfl⟩
    | cons p ps ih =>
      obtain ⟨ms, hms⟩ := ih fun q hm => hq q (by simp [hm])
      obtain ⟨m, hm⟩ := mixedMetric_total h (hq p (by simp))
      unfold State.mixedMetrics
      rw [hm, hms]
      exact ⟨_, rfl⟩
  obtain ⟨ms, hms⟩ := this
  unfold State.inspectMetrics
  rw [hms]
  exact ⟨_, rfl⟩

theorem findIgpShortcuts_runs {env : Env} {t : State} (h : Ready env t) {paths : List (List ℕ)}
    (hp : paths ≠ []) {np : List (List String)} (hnp : np ≠ [])
    (hnames : ∀ q ∈ np, ∀ u ∈ q, u ∈ t.nodeNames) : Runs (findIgpShortcuts env paths np) t := by
  unfold Runs findIgpShortcuts
  simp only [wp_bind, wp_get, wp_liftE]
  have hns : ∀ (l : List String) (acc : List ℕ), (∀ u ∈ l, u ∈ t.nodeNames) →
      ∃ ns, (l.foldlM (init := acc) fun acc u =>
        (t.getNode u).map fun n => acc ++ [n]) = Except.ok ns := by
    intro l
    induction l with
    | nil => intro acc _; exact ⟨acc, rfl⟩
    | cons u l ih =>
      intro acc hl
      obtain ⟨n, hn⟩ := getNode_total (hl u (by simp))
      obtain ⟨ns, hns⟩ := ih (acc ++ [n]) fun v hv => hl v (by simp [hv])
      refine ⟨ns, ?_⟩
      rw [List.foldlM_cons, hn]
      exact hns
  obtain ⟨ns, hns⟩ := hns np.flatten.dedup [] fun u hu => by
    obtain ⟨q, hq, hu⟩ := List.mem_flatten.1 (List.mem_dedup.1 hu)
    exact hnames q hq u hu
  rw [hns]
  simp only []
  refine wp_ite (fun _ => trivial) fun _ => ?_
  simp only [wp_bind]
  have hins : wp (insertShortcuts env np paths) (fun ps u => u = t ∧ ps ≠ [] ∧
      ∀ q ∈ ps, ∀ l, Item.lsp l ∈ q → ∃ key, l ∈ t.routedGroup key) (fun _ _ => False) t := by
    unfold insertShortcuts
    simp only [wp_bind]
    have hruns := foundLoop_runs h np hnames none (.inl hnp)
    refine wp_mono (wp_and hruns
      (foundLoop_spec h.fresh np none (by intro gs e; cases e) np (fun _ h => h))) ?_
      (fun _ _ h => h.1)
    rintro r u ⟨⟨rfl, hr⟩, -, hfound⟩
    cases r with
    | none => exact absurd rfl hr
    | some groups =>
      simp only [wp_bind, wp_get]
      refine wp_ite (fun _ => ?_) fun _ => ?_
      · refine ⟨rfl, by simpa using hp, ?_⟩
        intro q hq l hl
        obtain ⟨p, -, rfl⟩ := List.mem_map.1 hq
        simp at hl
      · refine ⟨rfl, substitute_ne (fun g hg => ?_) hp, ?_⟩
        · obtain ⟨q, -, hf⟩ := hfound groups rfl g hg
          exact hf.1
        · intro q hq l hl
          obtain ⟨p, hp, hq⟩ := substitute_sub hq
          rcases hq with rfl | ⟨ps', h1, h2⟩
          · simp at hl
          · obtain ⟨g, hg, hlg⟩ := insertLsps_lsp h1 h2 hl
            obtain ⟨q', -, -, w, -, v, -, n, -, -, hr⟩ := hfound groups rfl g hg
            exact ⟨_, hr.sub hlg⟩
  refine wp_mono hins ?_ (fun _ _ h => h)
  rintro ps u ⟨rfl, h1, h2⟩
  refine wp_ite (fun _ => trivial) fun _ => wp_ite (fun e => absurd (List.length_eq_zero_iff.1 e) h1)
    fun _ => ?_
  simp only [wp_bind, wp_get, wp_liftE]
  obtain ⟨qs, hqs⟩ := inspectMetrics_total h h2
  rw [hqs]
  trivial

theorem walk_names {w : String → String → Option ℕ} {P : String → Prop}
    (hw : ∀ u v, (w u v).isSome → P v) {a : String} {rest : List String} {b : String}
    (h : IsWalk w a rest b) : ∀ u ∈ rest, P u := by
  induction rest generalizing a with
  | nil => simp
  | cons x rest ih =>
    intro u hu
    rcases List.mem_cons.1 hu with rfl | hu
    · exact hw _ _ h.1
    · exact ih h.2 u hu

theorem igpPaths_runs {env : Env} {t : State} (h : Ready env t) {es : List ℕ} (hes : es ⊆ t.ifs)
    (hnd : es.Nodup) {a b : String} (ha : a ∈ t.nodeNames) :
    Runs (igpPaths env (t.graphOf es) es a b) t := by
  unfold Runs igpPaths
  simp only [wp_bind, wp_get]
  rcases allShortestPaths_total h.sane hes (b := b) ha with ⟨⟨ps, hps⟩, hr⟩ | ⟨hn, -⟩
  · rw [hps]
    simp only []
    cases hk : t.kind with
    | perf =>
      simp only []
      obtain ⟨l, h1, -, -⟩ := perf_paths h.sane hk hes hps
      rw [h1]
      trivial
    | flex =>
      simp only [wp_bind]
      obtain ⟨-, h3⟩ := flex_paths h.sane hk hes hnd hps
      obtain ⟨q, hq⟩ := exists_cheapest (cost := fun i => (t.ifc i).cost) hr
      obtain ⟨-, hne, hall⟩ := allShortestPaths_ok (graphOf_closed h.sane hes)
        (graphOf_pos h.sane hes) hps
      refine wp_mono (findIgpShortcuts_runs h (List.ne_nil_of_mem ((h3 q).2 hq)) hne ?_)
        (fun _ _ _ => trivial) (fun _ _ h => h)
      intro np hnp u hu
      obtain ⟨rest, rfl, hcw⟩ := (hall np).1 hnp
      rcases List.mem_cons.1 hu with rfl | hu
      · exact ha
      · refine walk_names (P := (· ∈ t.nodeNames)) (fun x y hxy => ?_) hcw.1 u hu
        obtain ⟨c, hc⟩ := Option.isSome_iff_exists.1 hxy
        obtain ⟨i, hi, -, h2, -⟩ := (graphOf_min h.sane hes).attained hc
        rw [← h2]
        exact h.heads i (hes hi)
  · rw [hn]
    trivial

/-! ### Placing demands -/

theorem routeDemand_runs {env : Env} {t : State} (h : Ready env t) {d : ℕ}
    (hd : t.dmdSrc d ∈ t.nodeNames) :
    Runs (routeDemand env (t.graphOf t.igpEdges) t.igpEdges d) t := by
  unfold Runs routeDemand
  simp only [wp_bind, wp_modify, wp_get]
  have hu : Ready env (t.updDmd d fun x => { x with path := some [] }) := h.withDmd _
  have hsrc : (t.updDmd d fun x => { x with path := some [] }).dmdSrc d = t.dmdSrc d := by
    unfold State.dmdSrc State.updDmd; simp
  rw [hsrc]
  refine wp_mono ((ridingLsps_runs hu _).wp (ridingLsps_spec hu.fresh _)) ?_ (fun _ _ h => h)
  rintro ls u ⟨rfl, -⟩
  cases ls with
  | nil =>
    simp only [wp_bind, wp_modify]
    exact igpPaths_runs hu (es := t.igpEdges) (considered_sub t _ _ _) (nodup_igpEdges h.sane.nodup) hd
  | cons l ls => trivial

theorem routeLoop_runs {env : Env} {s : State} (h : Ready env s)
    (hd : ∀ d ∈ s.dmds, s.dmdSrc d ∈ s.nodeNames) :
    Runs (forEach s.dmds (routeDemand env (s.graphOf s.igpEdges) s.igpEdges)) s := by
  have := wp_forEach (s := s) (E := fun _ _ => False)
    (I := fun t => ∃ D, t = { s with dmd := D } ∧ DmdCfg s D)
    (routeDemand env (s.graphOf s.igpEdges) s.igpEdges) s.dmds ?_ ⟨s.dmd, rfl, fun _ => rfl⟩
  · exact wp_mono this (fun _ _ _ => trivial) (fun _ _ h => h)
  · rintro d hdm t ⟨D, rfl, hD⟩
    have hsrc : State.dmdSrc { s with dmd := D } d = s.dmdSrc d := by
      unfold State.dmdSrc; simp only []; rw [hD d]
    refine wp_mono (((routeDemand_runs (h.withDmd D) (d := d) (by rw [hsrc]; exact hd d hdm)) :
      Runs (routeDemand env (s.graphOf s.igpEdges) s.igpEdges d) { s with dmd := D }).wp
      (routeDemand_spec h.fresh _ _ d D hD)) ?_ (fun _ _ h => h)
    rintro _ t ⟨p, rfl, -⟩
    refine ⟨_, rfl, fun e => ?_⟩
    by_cases he : e = d
    · simp only [he, if_true]; rw [hD d]
    · simp only [he, if_false]; exact hD e

/-! ### Loading demands -/

/-- an interface that is up carries a number, not "Down" -/
def UpVal (t : State) : Prop := ∀ i ∈ t.ifs, (t.ifc i).failed = false →
  ∃ q, (t.ifc i).traffic = .val q

theorem Adds.upVal {Δ : ℕ → ℚ} {s t : State} (h : Adds Δ s t) (hu : UpVal s) : UpVal t := by
  rw [h.eq]
  intro i hi hf
  obtain ⟨q, hq⟩ := hu i hi hf
  exact ⟨q + Δ i, by simp [hq, Traffic.plus]⟩

theorem addTraffic_runs {s : State} {i : ℕ} (q : ℚ) (h : ∃ x, (s.ifc i).traffic = .val x) :
    Runs (addTraffic i q) s := by
  obtain ⟨x, hx⟩ := h
  unfold Runs wp addTraffic
  rw [hx]
  trivial

/-- interface `i` of the model is up -/
def Up (s : State) (i : ℕ) : Prop := i ∈ s.ifs ∧ (s.ifc i).failed = false

theorem Adds.up {Δ : ℕ → ℚ} {s t : State} (h : Adds Δ s t) {i : ℕ} (hi : Up s i) : Up t i := by
  rw [h.eq]; exact hi

/-- adding traffic to interfaces that are up raises nothing -/
theorem addTraffic_up {s₀ s : State} (hu : UpVal s₀) (hs : ∃ Δ, Adds Δ s₀ s) {i : ℕ} (hi : Up s₀ i)
    (q : ℚ) : wp (addTraffic i q) (fun _ t => ∃ Δ, Adds Δ s₀ t) (fun _ _ => False) s := by
  obtain ⟨Δ, hs⟩ := hs
  have hi' := hs.up hi
  refine wp_mono ((addTraffic_runs q (hs.upVal hu i hi'.1 hi'.2)).wp (addTraffic_spec i q s)) ?_
    (fun _ _ h => h)
  intro _ t ht
  exact ⟨_, hs.trans ht⟩

theorem forEach_up {s₀ s : State} (hu : UpVal s₀) (hs : ∃ Δ, Adds Δ s₀ s) {l : List ℕ}
    (hl : ∀ i ∈ l, Up s₀ i) (q : ℚ) :
    wp (forEach l fun i => addTraffic i q) (fun _ t => ∃ Δ, Adds Δ s₀ t) (fun _ _ => False) s :=
  wp_forEach _ l (fun i hi _ ht => addTraffic_up hu ht (hl i hi) q) hs

/-- the items of a path can be loaded -/
def ItemOk (s : State) : Item → Prop
  | .ifc i => Up s i
  | .lsp l => s.kind = .flex ∧ ∃ p c m, (s.lsp l).path = .routed p c m ∧ ∀ i ∈ p, Up s i

theorem applyItem_runs {s₀ s : State} (hu : UpVal s₀) (hs : ∃ Δ, Adds Δ s₀ s)
    (infos : List PathInfo) {x : Item} (hx : ItemOk s₀ x) :
    wp (applyItem s₀.kind infos x) (fun _ t => ∃ Δ, Adds Δ s₀ t) (fun _ _ => False) s := by
  unfold applyItem
  cases x with
  | ifc i =>
    cases s₀.kind with
    | perf => exact addTraffic_up hu hs hx _
    | flex =>
      simp only []
      exact wp_forEach _ infos (fun p _ t ht => wp_ite (fun _ => addTraffic_up hu ht hx _)
        fun _ => ht) hs
  | lsp l =>
    obtain ⟨hk, p, c, m, hp, hall⟩ := hx
    rw [hk]
    simp only [wp_bind, wp_get, wp_liftE]
    obtain ⟨Δ, hs'⟩ := hs
    rw [hs'.lsp, hp]
    exact forEach_up hu ⟨Δ, hs'⟩ hall _

theorem cumSplits_length (deg : String → ℕ) (tail : Item → String) (n : ℕ) (p : List Item) :
    (cumSplits deg tail n p).length = p.length := by
  induction p generalizing n with
  | nil => rfl
  | cons x p ih => simp [cumSplits, ih]

theorem pathInfos_total {rnd : ℚ → ℚ} {deg : String → ℕ} {tail : Item → String} {q : ℚ}
    {ps : List (List Item)} (h : ∀ p ∈ ps, p ≠ []) : ∃ l, pathInfos rnd deg tail q ps = .ok l := by
  induction ps with
  | nil => exact ⟨[], rfl⟩
  | cons p ps ih =>
    obtain ⟨l, hl⟩ := ih fun q hq => h q (by simp [hq])
    have hp : ∃ x, pathInfo rnd deg tail q p = .ok x := by
      unfold pathInfo
      simp only []
      cases hm : ((cumSplits deg tail 1 p).map Prod.snd).max? with
      | some m => exact ⟨_, rfl⟩
      | none =>
        exfalso
        rw [List.max?_eq_none_iff, List.map_eq_nil_iff] at hm
        have := cumSplits_length deg tail 1 p
        rw [hm] at this
        exact h p (by simp) (List.length_eq_zero_iff.1 this.symm)
    obtain ⟨x, hx⟩ := hp
    unfold pathInfos
    rw [hx, hl]
    exact ⟨_, rfl⟩

theorem pathInfos_error {rnd : ℚ → ℚ} {deg : String → ℕ} {tail : Item → String} {q : ℚ}
    {ps : List (List Item)} {e : Exn} (h : pathInfos rnd deg tail q ps = .error e) :
    ∃ p ∈ ps, p = [] := by
  by_contra hn
  obtain ⟨l, hl⟩ := pathInfos_total (rnd := rnd) (deg := deg) (tail := tail) (q := q) (ps := ps)
    fun p hp e => hn ⟨p, hp, e⟩
  rw [hl] at h; cases h

theorem Ready.upPath {env : Env} {t : State} (h : Ready env t) {l : ℕ} (hl : l ∈ t.lsps)
    (hr : (t.lsp l).path.saysUnrouted = false) :
    ∃ p c m, (t.lsp l).path = .routed p c m ∧ ∀ i ∈ p, Up t i := by
  rcases h.lsp l hl with hp | ⟨p, c, m, hp, hpath⟩
  · rw [hp] at hr; cases hr
  · refine ⟨p, c, m, hp, fun i hi => ?_⟩
    have := Route.mem_ok hpath i hi
    exact ⟨this.1, this.2.1⟩

theorem loadDemand_runs {env : Env} {t : State} (h : Ready env t) (hu : UpVal t) {d : ℕ}
    (hp : ∀ paths, (t.dmd d).path = some paths →
      RidingOf t (pairKey (t.dmdSrc d) (t.dmdDst d)) [] →
      ∀ q ∈ paths, q ≠ [] ∧ ∀ x ∈ q, ItemOk t x) : Runs (loadDemand env d) t := by
  unfold Runs loadDemand
  simp only [wp_bind, wp_get]
  cases hpath : (t.dmd d).path with
  | none => trivial
  | some paths =>
    simp only [wp_bind]
    refine wp_mono ((bestLsps_runs h _).wp (bestLsps_spec h.fresh _)) ?_ (fun _ _ h => h)
    rintro ls u ⟨rfl, hr⟩
    simp only [wp_get]
    cases ls with
    | nil =>
      have hq := hp paths hpath hr
      simp only [wp_bind, wp_liftE]
      split
      · next infos hinf =>
        simp only [wp_modify]
        have := wp_forEach (s := u.updDmd d fun x => { x with detail := some infos })
          (E := fun _ _ => False)
          (I := fun v => ∃ Δ, Adds Δ (u.updDmd d fun x => { x with detail := some infos }) v)
          (applyItem u.kind infos) (itemSet paths) ?_ ⟨_, Adds.zero _⟩
        · exact wp_mono this (fun _ _ _ => trivial) (fun _ _ h => h)
        · intro x hx v hv
          obtain ⟨q, hqm, hxq⟩ := List.mem_flatten.1 (List.mem_dedup.1 hx)
          exact applyItem_runs (s₀ := u.updDmd d fun x => { x with detail := some infos }) hu hv infos
            (by
              have := (hq q hqm).2 x hxq
              cases x <;> exact this)
      · next e he =>
        exfalso
        obtain ⟨q, hqm, hqe⟩ := pathInfos_error he
        exact (hq q hqm).1 hqe
    | cons l ls =>
      simp only [wp_bind, wp_modify]
      generalize hL : l :: ls = L
      have hmem : ∀ m ∈ L, ∃ p c h, (u.lsp m).path = .routed p c h ∧ ∀ i ∈ p, Up u i := by
        intro m hm
        rw [← hL] at hm
        obtain ⟨h1, h2⟩ := mem_routedGroup h.fresh (hr.sub hm)
        exact h.upPath h1 h2
      have := wp_forEach (s := u) (E := fun _ _ => False) (I := fun v => ∃ Δ, Adds Δ u v)
        (fun l => do
          let s ← get
          let ifs ← liftE (s.lsp l).path.interfaces
          forEach ifs fun i => addTraffic i ((u.dmd d).traffic / L.length)) L ?_
        ⟨_, Adds.zero _⟩
      · exact wp_mono this (fun _ _ _ => trivial) (fun _ _ h => h)
      · rintro m hm v ⟨Δ, hv⟩
        obtain ⟨p, c, hd, h1, h2⟩ := hmem m hm
        simp only [wp_bind, wp_get, wp_liftE]
        rw [hv.lsp, h1]
        exact forEach_up hu ⟨Δ, hv⟩ h2 _

/-! ### What IGP paths are made of -/

theorem insertLsps_nonempty {s : State} {groups : List (List ℕ)} {p : List ℕ} (hp : p ≠ [])
    {ps : List (List Item)} (h : s.insertLsps groups p = some ps) : ∀ q ∈ ps, q ≠ [] := by
  unfold State.insertLsps at h
  split at h
  · cases h
  · cases h
    intro q hq
    obtain ⟨combo, -, rfl⟩ := List.mem_map.1 hq
    have : ∀ (combo : List (ℕ × ℕ × ℕ)) (q : List Item), q ≠ [] →
        (combo.foldl (fun q (x : ℕ × ℕ × ℕ) =>
          sliceSet q x.1 x.2.1 (Item.lsp x.2.2)) q) ≠ [] := by
      intro combo
      induction combo with
      | nil => intro q hq; exact hq
      | cons x combo ih => intro q _; exact ih _ (by simp [sliceSet])
    exact this combo _ (by simpa using hp)

theorem findIgpShortcuts_nonempty {env : Env} {s t : State} {paths : List (List ℕ)}
    (hp : ∀ p ∈ paths, p ≠ []) {np : List (List String)} {ps : List (List Item)}
    (h : findIgpShortcuts env paths np s = .ok ps t) : ∀ q ∈ ps, q ≠ [] := by
  have hnil : ∀ q ∈ paths.map (fun p => p.map Item.ifc), q ≠ [] := by
    intro q hq
    obtain ⟨p, hpm, rfl⟩ := List.mem_map.1 hq
    simpa using hp p hpm
  unfold findIgpShortcuts at h
  obtain ⟨s0, s0', hg, h⟩ := py_bind_inv h
  cases hg
  obtain ⟨ns, s1, hns, h⟩ := py_bind_inv h
  split at h
  · cases h; exact hnil
  · obtain ⟨qs, s2, hqs, h⟩ := py_bind_inv h
    have hall : ∀ q ∈ qs, q ≠ [] := by
      unfold insertShortcuts at hqs
      obtain ⟨found, s3, -, hqs⟩ := py_bind_inv hqs
      cases found with
      | none => cases hqs
      | some groups =>
        simp only [] at hqs
        obtain ⟨s4, s4', hg4, hqs⟩ := py_bind_inv hqs
        cases hg4
        split at hqs
        · cases hqs; exact hnil
        · cases hqs
          intro q hq
          obtain ⟨p, hpm, hq⟩ := substitute_sub hq
          rcases hq with rfl | ⟨ps', h1, h2⟩
          · simpa using hp p hpm
          · exact insertLsps_nonempty (hp p hpm) h1 q h2
    split at h
    · cases h; exact hall
    · split at h
      · cases h
      · obtain ⟨s5, s5', hg5, h⟩ := py_bind_inv h
        cases hg5
        unfold liftE at h
        split at h
        · next hi =>
          cases h
          intro q hq
          exact hall q (inspectMetrics_sub hi q hq)
        · cases h

theorem igpPaths_nonempty {env : Env} {s : State} (h : Sane s) {es : List ℕ} (hes : es ⊆ s.ifs)
    (hnd : es.Nodup) {a b : String} (hab : a ≠ b) {ps : List (List Item)} {t : State}
    (hp : igpPaths env (s.graphOf es) es a b s = .ok (some ps) t) : ∀ q ∈ ps, q ≠ [] := by
  cases hk : s.kind with
  | perf =>
    rcases igpPaths_spec h hes hnd (by rw [hk]; intro e; cases e) hp with ⟨e, -⟩ | ⟨l, e, -, -, hl⟩
    · cases e
    · cases e
      intro q hq
      obtain ⟨p, hp, rfl⟩ := List.mem_map.1 hq
      simpa using route_ne_nil ((hl p).1 hp).1 hab
  | flex =>
    unfold igpPaths at hp
    obtain ⟨s0, s0', hg, hp⟩ := py_bind_inv hp
    cases hg
    cases hsp : (s.graphOf es).allShortestPaths a b with
    | error e => rw [hsp] at hp; cases e <;> cases hp
    | ok nxSp =>
      rw [hsp] at hp
      simp only [] at hp
      rw [hk] at hp
      simp only [] at hp
      obtain ⟨qs, u, hf, hp⟩ := py_bind_inv hp
      cases hp
      obtain ⟨-, h3⟩ := flex_paths h hk hes hnd hsp
      exact findIgpShortcuts_nonempty (fun p hp => route_ne_nil ((h3 p).1 hp).1 hab) hf

theorem igpPaths_items {env : Env} {s : State} (h : Ready env s) {a b : String} (hab : a ≠ b)
    {ps : List (List Item)} {t : State}
    (hp : igpPaths env (s.graphOf s.igpEdges) s.igpEdges a b s = .ok (some ps) t) :
    ∀ q ∈ ps, q ≠ [] ∧ ∀ x ∈ q, ItemOk s x := by
  have hes : s.igpEdges ⊆ s.ifs := considered_sub s _ _ _
  have hnd := nodup_igpEdges h.sane.nodup
  intro q hq
  refine ⟨igpPaths_nonempty h.sane hes hnd hab hp q hq, fun x hx => ?_⟩
  cases x with
  | ifc i =>
    have := mem_considered_usable.1 (igpPaths_mem h.sane hes hnd hp q hq i hx)
    exact ⟨this.1, this.2.1⟩
  | lsp l =>
    obtain ⟨key, hl⟩ := igpPaths_lsp h.fresh hp q hq l hx
    obtain ⟨h1, h2⟩ := mem_routedGroup h.fresh hl
    refine ⟨?_, h.upPath h1 h2⟩
    cases hk : s.kind with
    | flex => rfl
    | perf =>
      exfalso
      rcases igpPaths_spec h.sane hes hnd (by rw [hk]; intro e; cases e) hp with
        ⟨e, -⟩ | ⟨l', e, -, -, hl'⟩
      · cases e
      · cases e
        obtain ⟨p, -, rfl⟩ := List.mem_map.1 hq
        simp at hx

/-! ### The whole phase -/

theorem loadLoop_runs {env : Env} {s : State} (h : Ready env s) (hu : UpVal s) (ds : List ℕ)
    (hp : ∀ d ∈ ds, ∀ paths, (s.dmd d).path = some paths →
      RidingOf s (pairKey (s.dmdSrc d) (s.dmdDst d)) [] →
      ∀ q ∈ paths, q ≠ [] ∧ ∀ x ∈ q, ItemOk s x) :
    wp (forEach ds (loadDemand env)) (fun _ t => ∃ D T, t = s.withLoad D T) (fun _ _ => False) s := by
  have := wp_forEach (s := s) (E := fun _ _ => False)
    (I := fun t => ∃ D T, t = s.withLoad D T ∧
      (∀ d, D d = { s.dmd d with detail := (D d).detail }) ∧ UpVal t)
    (loadDemand env) ds ?_ ⟨s.dmd, fun i => (s.ifc i).traffic, rfl, fun _ => rfl, hu⟩
  · exact wp_mono this (fun _ t ⟨D, T, h, _⟩ => ⟨D, T, h⟩) (fun _ _ h => h)
  · rintro d hd t ⟨D, T, rfl, hD, hv⟩
    have hsrc : (s.withLoad D T).dmdSrc d = s.dmdSrc d := by
      unfold State.dmdSrc State.withLoad; simp only []; rw [hD d]
    have hdst : (s.withLoad D T).dmdDst d = s.dmdDst d := by
      unfold State.dmdDst State.withLoad; simp only []; rw [hD d]
    have hpath : ((s.withLoad D T).dmd d).path = (s.dmd d).path := by
      show (D d).path = _
      rw [hD d]
    have hr := h.withLoad D T
    refine wp_mono ((loadDemand_runs hr hv (d := d) ?_).wp (loadDemand_spec hr.fresh d)) ?_
      (fun _ _ h => h)
    · intro paths h1 h2 q hq
      rw [hpath] at h1
      rw [hsrc, hdst] at h2
      have := hp d hd paths h1 (RidingOf.withLoad.1 h2) q hq
      refine ⟨this.1, fun x hx => ?_⟩
      have := this.2 x hx
      cases x <;> exact this
    · intro _ u hu'
      rcases hu' with ⟨-, rfl⟩ | ⟨paths, ls, det, Δ, v, -, -, -, h4, rfl⟩
      · exact ⟨D, T, rfl, hD, hv⟩
      · have hvu := h4.upVal hv
        have h4' := h4.withLoad
        subst h4'
        refine ⟨fun e => if e = d then { D e with detail := some det } else D e,
          fun i => (T i).plus (Δ i), rfl, fun e => ?_, hvu⟩
        by_cases he : e = d
        · simp only [he, if_true]; rw [hD d]
        · simp only [he, if_false]; exact hD e

theorem resetTraffic_eq (s : State) : s.resetTraffic = s.withLoad s.dmd fun i =>
    if i ∈ s.ifs then (if (s.ifc i).failed then .down else .val 0) else (s.ifc i).traffic := by
  unfold State.resetTraffic State.withLoad
  congr 1
  funext i
  by_cases hi : i ∈ s.ifs <;> simp [hi]

theorem resetTraffic_upVal (s : State) : UpVal s.resetTraffic := by
  intro i hi hf
  have hi' : i ∈ s.ifs := hi
  unfold State.resetTraffic at hf ⊢
  simp only [hi', if_true] at hf ⊢
  simp [hf]

/-- routing the demands raises nothing once LSPs sit on paths that are up, provided demands go
between different nodes of the model -/
theorem routeDemands_runs {env : Env} {s : State} (h : Ready env s)
    (hsrc : ∀ d ∈ s.dmds, s.dmdSrc d ∈ s.nodeNames) (hne : ∀ d ∈ s.dmds, s.dmdSrc d ≠ s.dmdDst d) :
    wp (routeDemands env) (fun _ t => ∃ D T, t = s.withLoad D T) (fun _ _ => False) s := by
  have hE : ∀ {α : Type} (x y : Py α) (Q : α → State → Prop) (E : Exn → State → Prop),
      x s = y s → wp y Q E s → wp x Q E s := by
    intro α x y Q E hxy h; unfold wp at *; rw [hxy]; exact h
  refine hE _ _ _ _ (routeDemands_eq env s) ?_
  rw [wp_bind]
  refine wp_mono ((routeLoop_runs h hsrc).wp
    (routeLoop_spec h.fresh (s.graphOf s.igpEdges) s.igpEdges s.dmds)) ?_ (fun _ _ h => h)
  rintro _ t ⟨D, rfl, hD, hplace, -⟩
  unfold updateUtilization
  simp only [wp_bind, wp_modify, wp_get]
  have hr := h.withDmd D
  have hupd := resetTraffic_upVal { s with dmd := D }
  have heq := resetTraffic_eq { s with dmd := D }
  have hr2 : Ready env (State.resetTraffic { s with dmd := D }) := by
    rw [heq]; exact hr.withLoad _ _
  refine wp_mono (loadLoop_runs hr2 hupd _ ?_) ?_ (fun _ _ h => h)
  · intro d hd paths h1 h2
    have hd' : d ∈ s.dmds := hd
    have h1' : (D d).path = some paths := h1
    have hs1 : (State.resetTraffic { s with dmd := D }).dmdSrc d = s.dmdSrc d := by
      show (s.node (D d).src).name = _
      rw [hD d]; rfl
    have hs2 : (State.resetTraffic { s with dmd := D }).dmdDst d = s.dmdDst d := by
      show (s.node (D d).dst).name = _
      rw [hD d]; rfl
    rw [hs1, hs2, heq] at h2
    have h2' := RidingOf.withDmd.1 (RidingOf.withLoad.1 h2)
    rcases hplace d hd' with ⟨ls, hls, hrd, -⟩ | ⟨-, D', hig⟩
    · exact absurd (RidingOf.unique hrd h2') hls
    · rw [h1'] at hig
      intro q hq
      have := igpPaths_items (h.withDmd D') (hne d hd') hig q hq
      refine ⟨this.1, fun x hx => ?_⟩
      have := this.2 x hx
      rw [heq]
      cases x <;> exact this
  · rintro _ t ⟨D2, T2, rfl⟩
    refine ⟨D2, T2, ?_⟩
    rw [heq]
    rfl

end NTM
