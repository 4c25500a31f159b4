import Verif.Proof.DmdPhase
import Mathlib.Algebra.BigOperators.Group.List.Basic
import Mathlib.Algebra.BigOperators.Ring.List
import Mathlib.Algebra.Order.Field.Rat

/-!
# The load phase of a simulation: traffic on interfaces
-/

namespace NTM

open Spec

theorem RidingOf.unique {s : State} {key : String} {ls ls' : List ℕ} (h : RidingOf s key ls)
    (h' : RidingOf s key ls') : ls = ls' := by
  rcases h with ⟨h1, rfl⟩ | ⟨h1, ms, m, h2, h3, rfl⟩ <;>
  rcases h' with ⟨g1, rfl⟩ | ⟨g1, ms', m', g2, g3, rfl⟩
  · rfl
  · exact absurd h1 g1
  · exact absurd g1 h1
  · rw [h2] at g2; cases g2
    rw [h3] at g3; cases g3
    rfl

theorem pyMin_valueError {ms : List Metric} (h : pyMin ms = .error .valueError) : ms = [] := by
  unfold pyMin at h
  split at h
  · rfl
  · cases h
  · split at h
    · cases h
    · split at h <;> cases h

theorem bestLsps_spec {env : Env} {s : State} (hs : GroupsFresh env s) (key : String) :
    wp (bestLsps env key) (fun ls t => t = s ∧ RidingOf s key ls) (fun _ t => t = s) s := by
  unfold bestLsps
  rw [wp_bind, wp_ok (lspGroups_fresh hs), wp_bind, wp_get]
  cases hd : dictGet s.groups key with
  | none =>
    refine ⟨rfl, .inl ⟨?_, rfl⟩⟩
    unfold State.routedGroup; rw [hd]; rfl
  | some cands =>
    have hrg : s.routedGroup key = cands.filter fun l => !(s.lsp l).path.saysUnrouted := by
      unfold State.routedGroup; rw [hd]; rfl
    simp only [wp_bind, wp_liftE]
    rw [← hrg]
    cases hms : s.effMetrics (s.routedGroup key) with
    | error e => trivial
    | ok ms =>
      simp only []
      have hnil : ms = [] ↔ s.routedGroup key = [] := by
        have := effMetrics_ok hms
        constructor
        · rintro rfl
          simpa using this
        · intro h; rw [h] at this; simpa using this.symm
      split
      · next h =>
        exact ⟨rfl, .inl ⟨hnil.1 (pyMin_valueError h), rfl⟩⟩
      · rfl
      · next m hm =>
        simp only [wp_bind, wp_liftE]
        cases hcs : s.effMetrics cands with
        | error e => trivial
        | ok ms' =>
          refine ⟨rfl, .inr ⟨?_, ms, m, hms, hm, ?_⟩⟩
          · intro h
            rw [hnil.2 h] at hm
            cases hm
          · unfold State.withMetric
            rw [hrg, List.filter_filter, List.filter_filter]
            congr 1
            funext l
            rw [Bool.and_comm]

/-- the interfaces of an LSP's path -/
def State.lspIfs (s : State) (l : ℕ) : List ℕ :=
  match (s.lsp l).path with
  | .routed ifs _ _ => ifs
  | _ => []

theorem interfaces_ok {s : State} {l : ℕ} {ifs : List ℕ} (h : (s.lsp l).path.interfaces = .ok ifs) :
    s.lspIfs l = ifs := by
  unfold State.lspIfs
  unfold LspPath.interfaces at h
  split at h <;> cases h
  next heq => rw [heq]

/-- add an amount to a traffic value -/
def Traffic.plus : Traffic → ℚ → Traffic
  | .down, _ => .down
  | .val t, q => .val (t + q)

/-- `t` is `s` with `Δ i` added to the traffic of each interface, none of which is down -/
structure Adds (Δ : ℕ → ℚ) (s t : State) : Prop where
  eq : t = { s with ifc := fun i => { s.ifc i with traffic := (s.ifc i).traffic.plus (Δ i) } }
  down : ∀ i, (s.ifc i).traffic = .down → Δ i = 0

theorem Adds.zero (s : State) : Adds (fun _ => 0) s s := by
  refine ⟨?_, fun _ _ => rfl⟩
  have : (fun i => { s.ifc i with traffic := (s.ifc i).traffic.plus 0 }) = s.ifc := by
    funext i
    cases h : s.ifc i with
    | mk n c cap nd rm ck tr f rr sr re pct ic =>
      cases tr <;> simp [Traffic.plus]
  rw [this]

theorem Adds.trans {Δ Δ' : ℕ → ℚ} {s t u : State} (h : Adds Δ s t) (g : Adds Δ' t u) :
    Adds (fun i => Δ i + Δ' i) s u := by
  constructor
  · rw [g.eq, h.eq]
    simp only []
    congr 1
    funext i
    cases hi : s.ifc i with
    | mk n c cap nd rm ck tr f rr sr re pct ic =>
      cases tr <;> simp [Traffic.plus, add_assoc]
  · intro i hi
    have h1 := h.down i hi
    have h2 : (t.ifc i).traffic = .down := by rw [h.eq]; simp [hi, Traffic.plus]
    rw [h1, g.down i h2, add_zero]

theorem addTraffic_spec (i : ℕ) (q : ℚ) (s : State) :
    wp (addTraffic i q) (fun _ t => Adds (fun j => if j = i then q else 0) s t)
      (fun _ t => t = s) s := by
  unfold wp addTraffic
  cases ht : (s.ifc i).traffic with
  | down => rfl
  | val t =>
    simp only []
    constructor
    · unfold State.updIfc
      congr 1
      funext j
      by_cases h : j = i
      · subst h; simp [ht, Traffic.plus]
      · simp only [h, if_false]
        cases hj : s.ifc j with
        | mk n c cap nd rm ck tr f rr sr re pct ic =>
          cases tr <;> simp [Traffic.plus]
    · intro j hj
      have : j ≠ i := by rintro rfl; rw [ht] at hj; cases hj
      simp [this]

theorem forEach_adds {β : Type} (f : β → Py Unit) (Δ : β → ℕ → ℚ) (s₀ : State) (bs : List β)
    (hf : ∀ b ∈ bs, ∀ s, (∃ Δ₀, Adds Δ₀ s₀ s) →
      wp (f b) (fun _ t => Adds (Δ b) s t) (fun _ t => ∃ Δ', Adds Δ' s t) s)
    {s : State} (hs : ∃ Δ₀, Adds Δ₀ s₀ s) :
    wp (forEach bs f) (fun _ t => Adds (fun i => (bs.map fun b => Δ b i).sum) s t)
      (fun _ t => ∃ Δ', Adds Δ' s t) s := by
  induction bs generalizing s with
  | nil => simpa using Adds.zero s
  | cons b bs ih =>
    rw [wp_forEach_cons]
    refine wp_mono (hf b (by simp) s hs) ?_ (fun _ _ h => h)
    intro _ t ht
    have ht' : ∃ Δ₀, Adds Δ₀ s₀ t := by
      obtain ⟨Δ₀, h0⟩ := hs
      exact ⟨_, h0.trans ht⟩
    refine wp_mono (ih (fun c hc => hf c (by simp [hc])) ht') ?_ ?_
    · intro _ u hu
      simpa using ht.trans hu
    · rintro _ u ⟨Δ', hu⟩
      exact ⟨_, ht.trans hu⟩

theorem sum_ite_eq_count (l : List ℕ) (i : ℕ) (q : ℚ) :
    (l.map fun j => if i = j then q else 0).sum = l.count i * q := by
  induction l with
  | nil => simp
  | cons j l ih =>
    rw [List.map_cons, List.sum_cons, ih, List.count_cons]
    by_cases h : i = j
    · subst h; simp; ring
    · have : ¬ (j = i) := fun e => h e.symm
      simp [h, this]

theorem forEach_addTraffic (l : List ℕ) (q : ℚ) (s : State) :
    wp (forEach l fun i => addTraffic i q) (fun _ t => Adds (fun i => (l.count i : ℚ) * q) s t)
      (fun _ t => ∃ Δ', Adds Δ' s t) s := by
  have := forEach_adds (fun i => addTraffic i q) (fun j i => if i = j then q else 0) s l
    (fun b _ t _ => wp_mono (addTraffic_spec b q t) (fun _ _ h => h)
      (fun _ u h => ⟨fun _ => 0, by rw [h]; exact Adds.zero t⟩)) ⟨_, Adds.zero s⟩
  refine wp_mono this ?_ (fun _ _ h => h)
  intro _ t ht
  simpa only [sum_ite_eq_count] using ht

/-- the load an item of an IGP path adds to interface `i` -/
def itemLoad (s : State) (infos : List PathInfo) (x : Item) (i : ℕ) : ℚ :=
  match s.kind, x with
  | .perf, .ifc j => if i = j then pyRound 1 (itemTraffic infos x) else 0
  | .perf, .lsp _ => 0
  | .flex, .ifc j =>
    if i = j then (infos.map fun p => if x ∈ p.items then p.traffic else 0).sum else 0
  | .flex, .lsp l => ((s.lspIfs l).count i : ℚ) * pyRound 1 (itemTraffic infos x)

theorem Adds.kind {Δ : ℕ → ℚ} {s t : State} (h : Adds Δ s t) : t.kind = s.kind := by rw [h.eq]
theorem Adds.lsp {Δ : ℕ → ℚ} {s t : State} (h : Adds Δ s t) : t.lsp = s.lsp := by rw [h.eq]

theorem applyItem_spec (s₀ : State) (infos : List PathInfo) (x : Item) (s : State)
    (hs : ∃ Δ₀, Adds Δ₀ s₀ s) :
    wp (applyItem s₀.kind infos x) (fun _ t => Adds (itemLoad s₀ infos x) s t)
      (fun _ t => ∃ Δ', Adds Δ' s t) s := by
  obtain ⟨Δ₀, h0⟩ := hs
  unfold applyItem itemLoad
  cases hk : s₀.kind with
  | perf =>
    cases x with
    | ifc j =>
      simp only []
      exact wp_mono (addTraffic_spec j _ s) (fun _ _ h => h)
        (fun _ u h => ⟨fun _ => 0, by rw [h]; exact Adds.zero s⟩)
    | lsp l => exact ⟨_, Adds.zero s⟩
  | flex =>
    cases x with
    | ifc j =>
      simp only []
      have := forEach_adds
        (fun p : PathInfo => if Item.ifc j ∈ p.items then addTraffic j p.traffic else pure ())
        (fun p i => if i = j then (if Item.ifc j ∈ p.items then p.traffic else 0) else 0) s infos
        (fun p _ t _ => ?_) ⟨_, Adds.zero s⟩
      · refine wp_mono this ?_ (fun _ _ h => h)
        intro _ t ht
        convert ht using 2 with i
        by_cases h : i = j <;> simp [h]
      · split
        · refine wp_mono (addTraffic_spec j _ t) (fun _ _ h => h)
            (fun _ u h => ⟨fun _ => 0, by rw [h]; exact Adds.zero t⟩)
        · rw [wp_pure]
          simpa using Adds.zero t
    | lsp l =>
      simp only [wp_bind, wp_get, wp_liftE]
      have hl : s.lsp = s₀.lsp := h0.lsp
      cases hif : (s.lsp l).path.interfaces with
      | error e => exact ⟨_, Adds.zero s⟩
      | ok ifs =>
        simp only []
        have e1 : s₀.lspIfs l = ifs := by
          have := interfaces_ok hif
          unfold State.lspIfs at this ⊢
          rw [← hl]; exact this
        rw [e1]
        exact forEach_addTraffic ifs _ s

/-- how a placed demand loads the network: its detail and its load per interface -/
def LoadedAs (s : State) (d : ℕ) (paths : List (List Item)) (ls : List ℕ) (det : List PathInfo)
    (Δ : ℕ → ℚ) : Prop :=
  (ls ≠ [] ∧ (∀ l ∈ ls, ∃ ifs c h, (s.lsp l).path = .routed ifs c h) ∧
    det = lspDetail s.kind (s.dmd d).traffic ls ∧
    Δ = fun i => (ls.map fun l => ((s.lspIfs l).count i : ℚ) *
      ((s.dmd d).traffic / ls.length)).sum) ∨
  (ls = [] ∧
    pathInfos (match s.kind with
      | .perf => pyRound 4
      | .flex => id) (outDeg s.itemTail paths) s.itemTail (s.dmd d).traffic paths = .ok det ∧
    Δ = fun i => ((itemSet paths).map fun x => itemLoad s det x i).sum)

theorem updDmd_adds {Δ : ℕ → ℚ} {s t : State} (d : ℕ) (f : Dmd → Dmd)
    (h : Adds Δ (s.updDmd d f) t) :
    ∃ u, Adds Δ s u ∧ t = u.updDmd d f := by
  refine ⟨{ s with ifc := fun i => { s.ifc i with traffic := (s.ifc i).traffic.plus (Δ i) } },
    ⟨rfl, h.down⟩, ?_⟩
  rw [h.eq]
  rfl

theorem loadDemand_spec {env : Env} {s : State} (hs : GroupsFresh env s) (d : ℕ) :
    wp (loadDemand env d)
      (fun _ t => ((s.dmd d).path = none ∧ t = s) ∨
        ∃ paths ls det Δ u, (s.dmd d).path = some paths ∧
          RidingOf s (pairKey (s.dmdSrc d) (s.dmdDst d)) ls ∧ LoadedAs s d paths ls det Δ ∧
          Adds Δ s u ∧ t = u.updDmd d fun x => { x with detail := some det })
      (fun _ t => ∃ Δ u det, Adds Δ s u ∧
        (t = u ∨ t = u.updDmd d fun x => { x with detail := some det })) s := by
  unfold loadDemand
  simp only [wp_bind, wp_get]
  cases hp : (s.dmd d).path with
  | none => exact .inl ⟨rfl, rfl⟩
  | some paths =>
    simp only [wp_bind]
    refine wp_mono (bestLsps_spec hs _) ?_ ?_
    · rintro ls t ⟨rfl, hr⟩
      simp only [wp_get]
      cases ls with
      | nil =>
        simp only [wp_bind, wp_liftE]
        split
        · next infos hinf =>
          simp only [wp_modify]
          have := forEach_adds (applyItem t.kind infos) (fun x => itemLoad t infos x)
            (t.updDmd d fun x => { x with detail := some infos }) (itemSet paths) ?_
            ⟨_, Adds.zero _⟩
          · refine wp_mono this ?_ ?_
            · intro _ u hu
              obtain ⟨v, hv, rfl⟩ := updDmd_adds d _ hu
              exact .inr ⟨paths, [], infos, _, v, rfl, hr, .inr ⟨rfl, hinf, rfl⟩, hv, rfl⟩
            · rintro _ u ⟨Δ', hu⟩
              obtain ⟨v, hv, rfl⟩ := updDmd_adds d _ hu
              exact ⟨Δ', v, infos, hv, .inr rfl⟩
          · intro x _ u hu
            exact applyItem_spec (t.updDmd d fun x => { x with detail := some infos }) infos x u hu
        · exact ⟨_, t, [], Adds.zero t, .inl rfl⟩
      | cons l ls =>
        simp only [wp_bind, wp_modify]
        generalize hL : l :: ls = L
        have hLne : L ≠ [] := by rw [← hL]; simp
        -- also record that every LSP used has a path
        have hadds := forEach_adds (fun l => do
            let s ← get
            let ifs ← liftE (s.lsp l).path.interfaces
            forEach ifs fun i => addTraffic i ((t.dmd d).traffic / L.length))
          (fun l i => ((t.lspIfs l).count i : ℚ) * ((t.dmd d).traffic / L.length)) t L ?_
          ⟨_, Adds.zero t⟩
        · have hrouted : wp (forEach L fun l => do
              let s ← get
              let ifs ← liftE (s.lsp l).path.interfaces
              forEach ifs fun i => addTraffic i ((t.dmd d).traffic / L.length))
              (fun _ _ => ∀ l ∈ L, ∃ ifs c h, (t.lsp l).path = .routed ifs c h)
              (fun _ _ => True) t := by
            have := wp_forEach_idx (s := t) (E := fun _ _ => True)
              (I := fun done u => u.lsp = t.lsp ∧
                ∀ l ∈ done, ∃ ifs c h, (t.lsp l).path = .routed ifs c h)
              (fun l => do
                let s ← get
                let ifs ← liftE (s.lsp l).path.interfaces
                forEach ifs fun i => addTraffic i ((t.dmd d).traffic / L.length)) L [] ?_ ?_
            · refine wp_mono this ?_ (fun _ _ _ => trivial)
              rintro _ u ⟨-, h⟩
              simpa using h
            · rintro pre m post - u ⟨hu, hdone⟩
              simp only [wp_bind, wp_get, wp_liftE]
              cases hif : (u.lsp m).path.interfaces with
              | error e => trivial
              | ok ifs =>
                simp only []
                refine wp_mono (forEach_addTraffic ifs _ u) ?_ (fun _ _ _ => trivial)
                intro _ v hv
                refine ⟨hv.lsp.trans hu, ?_⟩
                intro k hk
                rcases List.mem_append.1 hk with hk | hk
                · exact hdone k hk
                · rw [List.mem_singleton.1 hk, ← hu]
                  unfold LspPath.interfaces at hif
                  split at hif
                  · next a b c heq => exact ⟨_, _, _, heq⟩
                  · cases hif
                  · cases hif
            · exact ⟨rfl, by simp⟩
          refine wp_mono (wp_and hadds hrouted) ?_ ?_
          · rintro _ u ⟨hu, hro⟩
            refine .inr ⟨paths, L, _, _, u, rfl, ?_, .inl ⟨hLne, hro, rfl, rfl⟩, hu, ?_⟩
            · rw [← hL]; exact hr
            · have h1 : u.kind = t.kind := hu.kind
              have h2 : u.dmd = t.dmd := by rw [hu.eq]
              unfold State.updDmd
              congr 1
              funext e
              by_cases he : e = d
              · subst he; simp [h1, h2]
              · simp [he]
          · rintro _ u ⟨⟨Δ', hu⟩, -⟩
            exact ⟨Δ', u, [], hu, .inl rfl⟩
        · rintro m _ u ⟨Δ₀, hu⟩
          simp only [wp_bind, wp_get, wp_liftE]
          have hl : u.lsp = t.lsp := hu.lsp
          cases hif : (u.lsp m).path.interfaces with
          | error e => exact ⟨_, Adds.zero u⟩
          | ok ifs =>
            simp only []
            have e1 : t.lspIfs m = ifs := by
              have := interfaces_ok hif
              unfold State.lspIfs at this ⊢
              rw [← hl]; exact this
            rw [e1]
            exact forEach_addTraffic ifs _ u
    · rintro e t rfl
      exact ⟨_, t, [], Adds.zero t, .inl rfl⟩

/-- `s` with other traffic figures and other demand results -/
def State.withLoad (s : State) (D : ℕ → Dmd) (T : ℕ → Traffic) : State :=
  { s with dmd := D, ifc := fun i => { s.ifc i with traffic := T i } }

theorem effMetric_withLoad (s : State) (D : ℕ → Dmd) (T : ℕ → Traffic) (l : ℕ) :
    (s.withLoad D T).effMetric l = s.effMetric l := rfl

theorem effMetrics_withLoad (s : State) (D : ℕ → Dmd) (T : ℕ → Traffic) (ls : List ℕ) :
    (s.withLoad D T).effMetrics ls = s.effMetrics ls := by
  induction ls with
  | nil => rfl
  | cons l ls ih => unfold State.effMetrics; rw [ih, effMetric_withLoad]

theorem RidingOf.withLoad {s : State} {D : ℕ → Dmd} {T : ℕ → Traffic} {key : String}
    {ls : List ℕ} : RidingOf (s.withLoad D T) key ls ↔ RidingOf s key ls := by
  unfold RidingOf
  rw [effMetrics_withLoad]
  exact Iff.rfl

/-- the effect of loading one demand: its new detail and its load per interface -/
def Loaded (s : State) (d : ℕ) (det : Option (List PathInfo)) (Δ : ℕ → ℚ) : Prop :=
  ((s.dmd d).path = none ∧ det = (s.dmd d).detail ∧ Δ = fun _ => 0) ∨
  ∃ paths ls det', (s.dmd d).path = some paths ∧
    RidingOf s (pairKey (s.dmdSrc d) (s.dmdDst d)) ls ∧ LoadedAs s d paths ls det' Δ ∧
    det = some det'

theorem LoadedAs.withLoad {s : State} {D : ℕ → Dmd} {T : ℕ → Traffic} {d : ℕ}
    {paths : List (List Item)} {ls : List ℕ} {det : List PathInfo} {Δ : ℕ → ℚ}
    (hD : (D d).traffic = (s.dmd d).traffic) :
    LoadedAs (s.withLoad D T) d paths ls det Δ ↔ LoadedAs s d paths ls det Δ := by
  unfold LoadedAs
  rw [show ((s.withLoad D T).dmd d).traffic = (s.dmd d).traffic from hD]
  exact Iff.rfl

theorem Loaded.withLoad {s : State} {D : ℕ → Dmd} {T : ℕ → Traffic} {d : ℕ}
    {det : Option (List PathInfo)} {Δ : ℕ → ℚ} (hD : D d = s.dmd d)
    (h : Loaded (s.withLoad D T) d det Δ) : Loaded s d det Δ := by
  have e : (s.withLoad D T).dmd d = s.dmd d := hD
  have e1 : (s.withLoad D T).dmdSrc d = s.dmdSrc d := by
    unfold State.dmdSrc; rw [e]; rfl
  have e2 : (s.withLoad D T).dmdDst d = s.dmdDst d := by
    unfold State.dmdDst; rw [e]; rfl
  unfold Loaded at h ⊢
  rw [e, e1, e2] at h
  rcases h with h | ⟨paths, ls, det', h1, h2, h3, h4⟩
  · exact .inl h
  · exact .inr ⟨paths, ls, det', h1, RidingOf.withLoad.1 h2,
      (LoadedAs.withLoad (by rw [hD])).1 h3, h4⟩

theorem Adds.withLoad {s u : State} {D : ℕ → Dmd} {T : ℕ → Traffic} {Δ : ℕ → ℚ}
    (h : Adds Δ (s.withLoad D T) u) : u = s.withLoad D fun i => (T i).plus (Δ i) := h.eq

theorem Traffic.plus_plus (t : Traffic) (a b : ℚ) : (t.plus a).plus b = t.plus (a + b) := by
  cases t <;> simp [Traffic.plus, add_assoc]

theorem Traffic.plus_zero (t : Traffic) : t.plus 0 = t := by
  cases t <;> simp [Traffic.plus]

theorem Traffic.plus_down {t : Traffic} {a : ℚ} : t.plus a = .down ↔ t = .down := by
  cases t <;> simp [Traffic.plus]

/-- after the load loop every demand is accounted for -/
theorem loadLoop_spec {env : Env} {s : State} (hs : GroupsFresh env s) (ds : List ℕ)
    (hnd : ds.Nodup) :
    wp (forEach ds (loadDemand env))
      (fun _ t => ∃ (Δ : ℕ → ℕ → ℚ) (E : ℕ → Option (List PathInfo)),
        t = s.withLoad (fun d => { s.dmd d with detail := E d })
          (fun i => (s.ifc i).traffic.plus (ds.map fun d => Δ d i).sum) ∧
        (∀ d ∈ ds, Loaded s d (E d) (Δ d)) ∧ (∀ d, d ∉ ds → E d = (s.dmd d).detail) ∧
        ∀ d ∈ ds, ∀ i, (s.ifc i).traffic = .down → Δ d i = 0)
      (fun _ t => ∃ D T, t = s.withLoad D T ∧
        ∀ d, D d = { s.dmd d with detail := (D d).detail }) s := by
  have := wp_forEach_idx (s := s) (E := fun _ t => ∃ D T, t = s.withLoad D T ∧
        ∀ d, D d = { s.dmd d with detail := (D d).detail })
    (I := fun done t => ∃ (Δ : ℕ → ℕ → ℚ) (E : ℕ → Option (List PathInfo)),
        t = s.withLoad (fun d => { s.dmd d with detail := E d })
          (fun i => (s.ifc i).traffic.plus (done.map fun d => Δ d i).sum) ∧
        (∀ d ∈ done, Loaded s d (E d) (Δ d)) ∧ (∀ d, d ∉ done → E d = (s.dmd d).detail) ∧
        ∀ d ∈ done, ∀ i, (s.ifc i).traffic = .down → Δ d i = 0)
    (loadDemand env) ds [] ?_ ?_
  · simpa using this
  · rintro pre d post hds t ⟨Δ, E, rfl, hdone, hrest, hdown⟩
    have hdpre : d ∉ pre := by
      rw [hds, List.nodup_append] at hnd
      intro h
      exact hnd.2.2 d h d (by simp) rfl
    rw [List.nil_append] at hdone hrest hdown ⊢
    have hDd : (fun d => { s.dmd d with detail := E d }) d = s.dmd d := by
      simp only []; rw [hrest d hdpre]
    have hfr : GroupsFresh env (s.withLoad (fun d => { s.dmd d with detail := E d })
          (fun i => (s.ifc i).traffic.plus (pre.map fun d => Δ d i).sum)) := hs
    refine wp_mono (loadDemand_spec hfr d) ?_ ?_
    · intro _ u hu
      obtain ⟨det, Δd, hl, hue, hdn⟩ : ∃ det Δd,
          Loaded (s.withLoad (fun d => { s.dmd d with detail := E d })
            (fun i => (s.ifc i).traffic.plus (pre.map fun d => Δ d i).sum)) d det Δd ∧
          u = s.withLoad (fun e => { s.dmd e with detail := if e = d then det else E e })
            (fun i => (s.ifc i).traffic.plus ((pre.map fun d => Δ d i).sum + Δd i)) ∧
          ∀ i, (s.ifc i).traffic = .down → Δd i = 0 := by
        rcases hu with ⟨h1, rfl⟩ | ⟨paths, ls, det, Δd, v, h1, h2, h3, h4, rfl⟩
        · refine ⟨_, _, .inl ⟨h1, rfl, rfl⟩, ?_, fun _ _ => rfl⟩
          congr 1
          · funext e
            by_cases he : e = d
            · subst he; simp [State.withLoad]
            · simp [he]
          · funext i; simp
        · refine ⟨some det, Δd, .inr ⟨paths, ls, det, h1, h2, h3, rfl⟩, ?_, ?_⟩
          · rw [h4.withLoad]
            unfold State.updDmd State.withLoad
            simp only [Traffic.plus_plus]
            congr 1
            funext e
            by_cases he : e = d
            · subst he; simp
            · simp [he]
          · intro i hi
            refine h4.down i ?_
            show (s.ifc i).traffic.plus _ = .down
            rw [Traffic.plus_down]; exact hi
      refine ⟨fun e i => if e = d then Δd i else Δ e i, fun e => if e = d then det else E e,
        ?_, ?_, ?_, ?_⟩
      · rw [hue]
        congr 1
        funext i
        congr 1
        rw [List.map_append, List.sum_append]
        congr 1
        · congr 1
          refine List.map_congr_left ?_
          intro e he
          have : e ≠ d := by rintro rfl; exact hdpre he
          simp [this]
        · simp
      · intro e he
        by_cases h : e = d
        · subst h; simpa using hl.withLoad hDd
        · simp only [h, if_false]
          exact hdone e (by simpa [h] using he)
      · intro e he
        have h : e ≠ d := by rintro rfl; simp at he
        simp only [h, if_false]
        exact hrest e (fun h' => he (by simp [h']))
      · intro e he i hi
        by_cases h : e = d
        · simp only [h, if_true]; exact hdn i hi
        · simp only [h, if_false]
          exact hdown e (by simpa [h] using he) i hi
    · rintro _ u ⟨Δ', v, det, hv, hu⟩
      rw [hv.withLoad] at hu
      rcases hu with rfl | rfl
      · exact ⟨_, _, rfl, fun _ => rfl⟩
      · refine ⟨fun e => if e = d then { s.dmd e with detail := some det } else
          { s.dmd e with detail := E e },
          fun i => ((s.ifc i).traffic.plus (pre.map fun d => Δ d i).sum).plus (Δ' i), rfl, ?_⟩
        · intro e; by_cases he : e = d <;> simp [he]
  · refine ⟨fun _ _ => 0, fun d => (s.dmd d).detail, ?_, by simp, fun _ _ => rfl, by simp⟩
    unfold State.withLoad
    simp [Traffic.plus_zero]

end NTM
