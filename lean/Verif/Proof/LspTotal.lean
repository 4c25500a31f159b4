import Verif.Proof.LspInv
import Verif.Proof.LoadSum
import Verif.Proof.ShortcutLsps

/-!
# The LSP phase raises nothing
-/

namespace NTM

open Spec

/-- `x`, run from `s`, raises nothing -/
def Runs {α : Type} (x : Py α) (s : State) : Prop := wp x (fun _ _ => True) (fun _ _ => False) s

theorem Runs.ok {α : Type} {x : Py α} {s : State} (h : Runs x s) : ∃ a t, x s = .ok a t := by
  unfold Runs wp at h
  cases hx : x s with
  | ok a t => exact ⟨a, t, rfl⟩
  | error e t => rw [hx] at h; exact h.elim

theorem Runs.wp {α : Type} {x : Py α} {s : State} {Q : α → State → Prop} {E : Exn → State → Prop}
    (h : Runs x s) (hw : wp x Q E s) : wp x Q (fun _ _ => False) s :=
  wp_mono (wp_and hw h) (fun _ _ h => h.1) (fun _ _ h => h.2)

theorem runs_of_ok {α : Type} {x : Py α} {s t : State} {a : α} (h : x s = .ok a t) : Runs x s := by
  unfold Runs; rw [wp_ok h]; trivial

/-- a route between different nodes has a hop -/
theorem route_ne_nil {tail head : ℕ → String} {ok : ℕ → Prop} {a b : String} {p : List ℕ}
    (h : Route tail head ok a p b) (hab : a ≠ b) : p ≠ [] := by
  rintro rfl
  cases h
  exact hab rfl

theorem pathHeadroom_some {s : State} {p : List ℕ} (h : p ≠ []) : ∃ m, s.pathHeadroom p = some m := by
  unfold State.pathHeadroom minQ
  cases hm : (p.map s.reservable).min? with
  | none => rw [List.min?_eq_none_iff] at hm; exact absurd (List.map_eq_nil_iff.1 hm) h
  | some m => exact ⟨m, rfl⟩

theorem withHeadroom_ok {s : State} {bw : ℚ} {all : List (List ℕ)} (h : ∀ p ∈ all, p ≠ []) :
    ∃ cands, s.withHeadroom bw all = .ok cands := by
  induction all with
  | nil => exact ⟨[], rfl⟩
  | cons p ps ih =>
    obtain ⟨m, hm⟩ := pathHeadroom_some (s := s) (h p (by simp))
    obtain ⟨l, hl⟩ := ih fun q hq => h q (by simp [hq])
    unfold State.withHeadroom
    rw [hm, hl]
    exact ⟨_, rfl⟩

theorem lspCandidates_ok {s : State} (h : Sane s) {bw : ℚ} {a b : String}
    {nxSp : List (List String)} (hp : (s.lspGraph bw).allShortestPaths a b = .ok nxSp) :
    ∃ all, s.lspCandidates bw nxSp = .ok all := by
  rw [lspGraph_eq] at hp
  unfold State.lspCandidates
  cases hk : s.kind with
  | perf =>
    obtain ⟨l, h1, -, -⟩ := perf_paths h hk (considered_sub s false bw true) hp
    simp only [h1]
    exact ⟨_, rfl⟩
  | flex => exact ⟨_, rfl⟩

theorem setSetup_nonneg (x : Lsp) {q : ℚ} (h : 0 ≤ q) : ∃ y, x.setSetup q = .ok y := by
  unfold Lsp.setSetup
  split
  · simp only [if_pos h]
    split <;> exact ⟨_, rfl⟩
  · exact ⟨_, if_pos h⟩

theorem setSetup_asks {x : Lsp} {traff : ℚ} (h : 0 ≤ traff) {r : Bw} :
    ∃ y, Lsp.setSetup { x with reserved := r } (x.configured.getD traff) = .ok y := by
  unfold Lsp.setSetup
  cases hc : x.configured with
  | none => simp only [Option.getD_none]; rw [if_pos h]; exact ⟨_, rfl⟩
  | some c =>
    simp only [Option.getD_some]
    by_cases h0 : c = 0
    · subst h0; exact ⟨_, rfl⟩
    · rw [if_pos h0]; exact ⟨_, rfl⟩

theorem signalLsp_runs {env : Env} {traff : ℚ} {l : ℕ} {s : State} (h : Sane s) (ht : 0 ≤ traff)
    (hsrc : s.lspSrc l ∈ s.nodeNames) (hne : s.lspSrc l ≠ s.lspDst l) :
    Runs (signalLsp env traff l) s := by
  unfold Runs signalLsp
  simp only [wp_bind, wp_get, wp_liftE]
  obtain ⟨x, hx⟩ := setSetup_asks (x := s.lsp l) ht
    (r := .val ((s.lsp l).configured.getD traff))
  rw [hx]
  simp only [wp_set]
  generalize x.setup.getD 0 = b
  have htot := allShortestPaths_total h (considered_sub s false b true) (b := s.lspDst l) hsrc
  rw [← lspGraph_eq] at htot
  rcases htot with ⟨⟨nxSp, hsp⟩, -⟩ | ⟨hsp, -⟩
  · rw [hsp]
    obtain ⟨all, hall⟩ := lspCandidates_ok h hsp
    obtain ⟨-, hmem⟩ := lspCandidates_spec h hsp hall
    obtain ⟨cands, hc⟩ := withHeadroom_ok (s := s) (bw := b) (all := all)
      fun p hp => route_ne_nil ((hmem p).1 hp).1 hne
    simp only [wp_bind, wp_liftE]
    rw [hall]
    simp only []
    rw [hc]
    simp only []
    cases cands with
    | nil => trivial
    | cons c cs =>
      simp only [wp_bind, wp_modify]
      exact wp_mono (choosePath_spec env (c :: cs) _ (by simp)) (fun _ _ _ => trivial)
        (fun _ _ h => h)
  · rw [hsp]
    trivial

theorem routedCandidates_ne {s : State} (h : Sane s) {env : Env} {a b : String} (hab : a ≠ b)
    {path : List ℕ} {res needed : ℚ} {p : List ℕ}
    (hp : p ∈ s.routedCandidates env a b path res needed) : p ≠ [] := by
  unfold State.routedCandidates at hp
  have hperm := env.ordI_perm (s.routedEdges path res needed)
  generalize env.ordI (s.routedEdges path res needed) = es at hp hperm
  have hmem : ∀ i, i ∈ es ↔ i ∈ s.routedEdges path res needed := fun i => hperm.mem_iff
  have hes : es ⊆ s.ifs := fun i hi => (mem_routedEdges.1 ((hmem i).1 hi)).1
  cases hk : s.kind with
  | perf =>
    rw [hk] at hp
    simp only [] at hp
    have hg : s.graphOf es =
        { nodes := s.graphNodes es, w := weightDi s.tail s.head s.costOf es } := by
      unfold State.graphOf; rw [hk]
    rw [← hg] at hp
    split at hp
    · cases hp
    · next ps hps =>
      obtain ⟨l, h1, h2, h3⟩ := perf_paths h hk hes hps
      rw [h1] at hp
      exact route_ne_nil ((h3 p).1 hp).1 hab
  | flex =>
    rw [hk] at hp
    simp only [] at hp
    have hg : s.graphOf es =
        { nodes := s.graphNodes es, w := weightMulti s.tail s.head s.costOf es } := by
      unfold State.graphOf; rw [hk]
    rw [← hg] at hp
    split at hp
    · cases hp
    · next ps hps =>
      unfold State.normalize at hp
      rw [List.flatMap_map, List.mem_flatMap] at hp
      obtain ⟨np, hnp, hp⟩ := hp
      rw [convertRouted_eq, pyProduct_singletons, List.mem_singleton] at hp
      obtain ⟨-, -, hps'⟩ := allShortestPaths_ok (graphOf_closed h hes) (graphOf_pos h hes) hps
      obtain ⟨rest, rfl, hcw⟩ := (hps' np).1 hnp
      have hnd : (a :: rest).Nodup := hcw.nodup (graphOf_pos h hes)
      rw [hopsByIndex_eq hnd] at hp
      cases rest with
      | nil => exact absurd hcw.1 hab
      | cons x rest =>
        obtain ⟨c, hc⟩ := Option.isSome_iff_exists.1 hcw.1.1
        obtain ⟨i, hi, h1, h2, -⟩ := (graphOf_min h hes).attained hc
        have : i ∈ p := by
          rw [hp, List.mem_flatMap]
          refine ⟨(a, x), by simp [hops], mem_routedHop.2 ⟨hes hi, h1, h2, ?_⟩⟩
          exact (routedEdges_hop ((hmem i).1 hi)).2
        exact List.ne_nil_of_mem this

theorem reoptLsp_runs {env : Env} {needed : ℚ} {l : ℕ} {s : State} (h : Sane s)
    (hn : 0 ≤ needed) (hne : s.lspSrc l ≠ s.lspDst l) {path : List ℕ} {c : ℕ} {m res : ℚ}
    (hp : (s.lsp l).path = .routed path c m) (hr : (s.lsp l).reserved = .val res) :
    Runs (reoptLsp env needed l) s := by
  have hfind : Runs (findPathWithBw env l needed) s := by
    unfold Runs findPathWithBw
    simp only [wp_bind, wp_get, wp_liftE]
    rw [hp, hr]
    simp only [LspPath.interfaces, Bw.num]
    rw [if_neg]
    · generalize hc : s.routedCandidates env (s.lspSrc l) (s.lspDst l) path res needed = cands
      cases cands with
      | nil => trivial
      | cons q qs =>
        simp only [wp_bind]
        refine wp_mono (pickCandidate_spec env (q :: qs) s (by simp)) ?_ (fun _ _ h => h)
        rintro p t -
        simp only [wp_modify, wp_get, wp_liftE]
        obtain ⟨y, hy⟩ := setSetup_nonneg ((t.updLsp l fun y => { y with
          path := .routed p (s.pathCost p) ((s.routedHeadroom path res p).getD 0)
          reserved := .val needed }).lsp l) hn
        rw [hy]
        trivial
    · intro hany
      obtain ⟨q, hq, hnone⟩ := List.any_eq_true.1 hany
      have := routedCandidates_ne h hne hq
      unfold State.routedHeadroom minQ at hnone
      rw [Option.isNone_iff_eq_none, List.min?_eq_none_iff] at hnone
      exact this (List.map_eq_nil_iff.1 hnone)
  unfold Runs reoptLsp
  simp only [wp_bind, wp_get, wp_liftE]
  rw [hp]
  simp only [LspPath.interfaces]
  refine wp_mono (hfind.wp (findPathWithBw_spec h)) ?_ (fun _ _ h => h)
  rintro _ t ⟨path', c', m', res', h1, h2, h3⟩
  rw [hr] at h2
  cases h2
  rcases h3 with rfl | ⟨p, k, x, hc, hne, hx, rfl⟩
  · rw [if_neg (by simp)]
    trivial
  · have hl : ({ s.updLsp l fun _ => x with rngPos := k } : State).lsp l = x := by
      simp [State.updLsp]
    rw [hl, hr]
    have hxr : x.reserved = .val needed := by rw [hx]
    rw [hxr]
    by_cases hrn : res = needed
    · rw [if_neg (by simp [hrn])]
      trivial
    · rw [if_pos (by simpa using hrn)]
      simp only [wp_bind, wp_liftE, Bw.num, wp_modify, wp_get]
      rw [reserveOn_lsp, hl, hxr]
      have hxp : x.path = .routed p (s.pathCost p) ((s.routedHeadroom path' res p).getD 0) := by
        rw [hx]
      rw [hxp]
      trivial

/-- `l` has a path and a reservation -/
def Carried (s : State) (l : ℕ) : Prop :=
  ∃ p c m b, (s.lsp l).path = .routed p c m ∧ (s.lsp l).reserved = .val b

theorem Signalled.carried {t t' : State} {bw : ℚ} {l : ℕ} (h : Signalled t bw l t') :
    (t'.lsp l).path = .unrouted ∨ Carried t' l := by
  rcases h.self with h | ⟨⟨p, c, m, h1⟩, h2⟩
  · exact .inl h
  · exact .inr ⟨p, c, m, bw, h1, h2⟩

theorem Resignalled.carried {t t' : State} {needed : ℚ} {l : ℕ} (h : Resignalled t needed l t') :
    Carried t' l := by
  obtain ⟨path, c, hd, res, h1, h2, rfl | ⟨p, k, x, -, -, hx, rfl⟩⟩ := h
  · exact ⟨path, c, hd, res, h1, h2⟩
  · refine ⟨p, t.pathCost p, (t.routedHeadroom path res p).getD 0, needed, ?_⟩
    rw [resignalled_lsp, hx]
    exact ⟨rfl, rfl⟩

/-- the end points of LSPs are different nodes of the model -/
def LspEnds (s : State) : Prop :=
  ∀ l ∈ s.lsps, s.lspSrc l ∈ s.nodeNames ∧ s.lspSrc l ≠ s.lspDst l

theorem LspFrame.nodeNames {s t : State} (h : LspFrame s t) : t.nodeNames = s.nodeNames := by
  unfold State.nodeNames; rw [h.nodes, h.node]

theorem LspFrame.lspEnds {s t : State} (h : LspFrame s t) (hs : LspEnds s) : LspEnds t := by
  intro l hl
  rw [h.nodeNames, h.lspSrc, h.lspDst]
  exact hs l (h.lsps ▸ hl)

/-- the traffic of the demands listed under `key` -/
def totalIn (t : State) (dg : List (String × List ℕ)) (key : String) : ℚ :=
  match dictGet dg key with
  | some ds => (ds.map fun d => (t.dmd d).traffic).sum
  | none => 0

theorem routeGroup_runs {env : Env} {dg : List (String × List ℕ)} {grp : String × List ℕ}
    {t : State} (h : Sane t) (he : LspEnds t) (hmem : ∀ l ∈ grp.2, l ∈ t.lsps)
    (hnn : ∀ ds, dictGet dg grp.1 = some ds → ∀ d ∈ ds, 0 ≤ (t.dmd d).traffic) :
    Runs (routeGroup env dg grp) t := by
  unfold Runs routeGroup
  simp only [wp_bind, wp_get]
  have hT0 : 0 ≤ totalIn t dg grp.1 := by
    unfold totalIn
    split
    · next ds hds =>
      refine sum_nonneg_of ?_
      intro x hx
      obtain ⟨d, hd, rfl⟩ := List.mem_map.1 hx
      exact hnn ds hds d hd
    · exact le_refl 0
  change wp (forEach grp.2 (signalLsp env (if 0 < totalIn t dg grp.1 then
      totalIn t dg grp.1 / grp.2.length else 0))) (fun _ u => wp
      (if (grp.2.filter fun l => (u.lsp l).path ≠ .unrouted).length ≠ grp.2.length ∧
          0 < (grp.2.filter fun l => (u.lsp l).path ≠ .unrouted).length then
        forEach (grp.2.filter fun l => (u.lsp l).path ≠ .unrouted) (reoptLsp env
          (totalIn t dg grp.1 /
            (grp.2.filter fun l => (u.lsp l).path ≠ .unrouted).length))
      else pure ()) _ _ u) _ t
  generalize totalIn t dg grp.1 = T at *
  have heach : (0 : ℚ) ≤ if 0 < T then T / grp.2.length else 0 := by
    split
    · exact div_nonneg hT0 (Nat.cast_nonneg _)
    · exact le_refl 0
  have hloop := wp_forEach_idx (s := t) (E := fun _ _ => False)
    (I := fun pre u => LspFrame t u ∧ ∀ l ∈ pre, (u.lsp l).path = .unrouted ∨ Carried u l)
    (signalLsp env (if 0 < T then T / grp.2.length else 0)) grp.2 [] ?_ ⟨.refl t, by simp⟩
  · refine wp_mono hloop ?_ (fun _ _ h => h)
    rintro _ u ⟨hu, hst⟩
    rw [List.nil_append] at hst
    refine wp_ite (fun _ => ?_) (fun _ => trivial)
    have hloop2 := wp_forEach (s := u) (E := fun _ _ => False)
      (I := fun v => LspFrame t v ∧ ∀ l ∈ grp.2, (u.lsp l).path ≠ .unrouted → Carried v l)
      (reoptLsp env (T / (grp.2.filter fun l => (u.lsp l).path ≠ .unrouted).length))
      (grp.2.filter fun l => (u.lsp l).path ≠ .unrouted) ?_
      ⟨hu, fun l hl hp => (hst l hl).resolve_left hp⟩
    · exact wp_mono hloop2 (fun _ _ _ => trivial) (fun _ _ h => h)
    · rintro l hl v ⟨hv, hc⟩
      rw [List.mem_filter] at hl
      have hlp : (u.lsp l).path ≠ .unrouted := by simpa using hl.2
      obtain ⟨p, c, m, b, h1, h2⟩ := hc l hl.1 hlp
      have hsv := hv.sane h
      have hends := hv.lspEnds he l (hv.lsps ▸ hmem l hl.1)
      refine wp_mono ((reoptLsp_runs hsv (div_nonneg hT0 (Nat.cast_nonneg _)) hends.2 h1 h2).wp
        (reoptLsp_spec hsv)) ?_ (fun _ _ h => h)
      intro _ w hw
      refine ⟨hv.trans hw.frame, fun k hk hkp => ?_⟩
      by_cases hkl : k = l
      · subst hkl; exact hw.carried
      · have := hc k hk hkp
        unfold Carried at this ⊢
        rw [hw.other hkl]; exact this
  · rintro pre l post heq u ⟨hu, hst⟩
    rw [List.nil_append] at hst ⊢
    have hsu := hu.sane h
    have hl : l ∈ t.lsps := hmem l (by rw [heq]; simp)
    have hends := hu.lspEnds he l (hu.lsps ▸ hl)
    refine wp_mono ((signalLsp_runs hsu heach hends.1 hends.2).wp (signalLsp_spec hsu)) ?_
      (fun _ _ h => h)
    intro _ w hw
    refine ⟨hu.trans hw.frame, fun k hk => ?_⟩
    by_cases hkl : k = l
    · subst hkl; exact hw.carried
    · have := hst k ((List.mem_append.1 hk).resolve_right (by simpa using hkl))
      unfold Carried at this ⊢
      rw [hw.other hkl]; exact this

/-- signalling the LSPs of a model raises nothing, provided their end points are different
nodes of the model and demands have no negative traffic -/
theorem routeLsps_runs {env : Env} {s : State} (hs : Sane s) (hg : s.groups = [])
    (he : LspEnds s) (hn : NonnegTraffic s) : Runs (routeLsps env) s := by
  unfold Runs routeLsps
  simp only [wp_bind, wp_modify]
  have h1 : lspGroups env s.clearReserved =
      .ok (buildGroups env s.lsps s.lspSrc s.lspDst) (startLsps env s) := by
    unfold lspGroups
    have : s.clearReserved.groups = [] := hg
    rw [this]
    simp only [ne_eq, not_true_eq_false, if_false]
    rfl
  rw [wp_ok h1]
  simp only [wp_get]
  have hdg : State.demandGroups (startLsps env s) env = s.demandGroups env := rfl
  rw [hdg]
  have hfr := startLsps_frame env s
  have hloop := wp_forEach (s := startLsps env s) (E := fun _ _ => False)
    (I := fun u => LspFrame (startLsps env s) u)
    (routeGroup env (s.demandGroups env)) (buildGroups env s.lsps s.lspSrc s.lspDst) ?_
    (LspFrame.refl _)
  · exact wp_mono hloop (fun _ _ _ => trivial) (fun _ _ h => h)
  · intro g hgm u hu
    have hall := hfr.trans hu
    refine wp_mono ((routeGroup_runs (hu.sane (startLsps_sane hs)) (hall.lspEnds he) ?_ ?_).wp
      (keeps_routeGroup env _ g u)) (fun _ _ h => hu.trans h) (fun _ _ h => h)
    · intro l hl
      rw [hall.lsps]
      exact mem_of_buildGroups hgm hl
    · intro ds hds d hd
      rw [hall.dmd]
      exact hn d (mem_of_buildGroups (mem_of_dictGet hds) hd)

end NTM
