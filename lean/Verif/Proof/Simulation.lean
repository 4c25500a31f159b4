import Verif.Proof.Groups

/-!
# A whole simulation, phase by phase
-/

namespace NTM

open Spec

/-- `s` with other results of the demand phase and other circuits -/
def State.over (s : State) (D : ℕ → Dmd) (T : ℕ → Traffic) (C : List (ℕ × ℕ)) (B : ℕ → Bool)
    (I : ℕ → CktId) : State :=
  { s with dmd := D, circuits := C
           ifc := fun i => { s.ifc i with traffic := T i, inCkt := B i, cktId := I i } }

theorem effMetrics_over (s : State) (D : ℕ → Dmd) (T : ℕ → Traffic) (C : List (ℕ × ℕ))
    (B : ℕ → Bool) (I : ℕ → CktId) (ls : List ℕ) :
    (s.over D T C B I).effMetrics ls = s.effMetrics ls := by
  induction ls with
  | nil => rfl
  | cons l ls ih =>
    unfold State.effMetrics
    rw [ih, show (s.over D T C B I).effMetric l = s.effMetric l from rfl]

theorem RidingOf.over {s : State} {D : ℕ → Dmd} {T : ℕ → Traffic} {C : List (ℕ × ℕ)}
    {B : ℕ → Bool} {I : ℕ → CktId} {key : String} {ls : List ℕ} :
    RidingOf (s.over D T C B I) key ls ↔ RidingOf s key ls := by
  unfold RidingOf
  rw [effMetrics_over]
  exact Iff.rfl

theorem py_bind_inv {α β : Type} {x : Py α} {f : α → Py β} {s t : State} {b : β}
    (h : (x >>= f) s = .ok b t) : ∃ a u, x s = .ok a u ∧ f a u = .ok b t := by
  change EStateM.bind x f s = _ at h
  unfold EStateM.bind at h
  cases hx : x s with
  | ok a u => rw [hx] at h; exact ⟨a, u, rfl, h⟩
  | error e u => rw [hx] at h; cases h

/-- no parallel links can be read off an accepted PerformanceModel -/
theorem single_of_multipleLinks {s : State} (h : s.multipleLinks = []) :
    SingleLinks s := by
  intro i hi j hj ht hh
  by_contra hne
  unfold State.multipleLinks at h
  simp only [List.filter_eq_nil_iff, decide_eq_true_eq] at h
  generalize hf : (fun i => s.tail i ++ "-" ++ s.head i) = f at h
  have hfij : f i = f j := by rw [← hf]; simp only [ht, hh]
  refine h (f i) (List.mem_map.2 ⟨i, hi, rfl⟩) ?_
  have : [f i, f i].Sublist (s.ifs.map f) := by
    have : ∀ l : List ℕ, i ∈ l → j ∈ l → [f i, f i].Sublist (l.map f) := by
      intro l
      induction l with
      | nil => intro h; cases h
      | cons k l ih =>
        intro h1 h2
        rcases List.mem_cons.1 h1 with rfl | h1'
        · rcases List.mem_cons.1 h2 with rfl | h2'
          · exact absurd rfl hne
          · refine List.Sublist.cons_cons _ ?_
            rw [List.singleton_sublist, hfij]
            exact List.mem_map.2 ⟨j, h2', rfl⟩
        · rcases List.mem_cons.1 h2 with rfl | h2'
          · rw [List.map_cons, ← hfij]
            refine List.Sublist.cons_cons _ ?_
            rw [List.singleton_sublist]
            exact List.mem_map.2 ⟨i, h1', rfl⟩
          · exact (ih h1' h2').cons _
    exact this _ hi hj
  have := this.count_le (f i)
  simp only [List.count_cons_self, List.count_nil] at this
  omega

theorem repair_self {u : State} (h : ∀ c ∈ u.circuits, (u.ifc c.1).failed = (u.ifc c.2).failed) :
    u.repair = u := by
  have : ∀ i, u.misIn u.circuits i = false := by
    intro i
    by_contra hm
    obtain ⟨c, hc, -, hne⟩ := misIn_iff.1 (by simpa using hm)
    exact hne (h c hc)
  unfold State.repair State.repairOver
  simp only [this]
  rfl

/-- the edges the demand phase routes over -/
def State.igpEdges (s : State) : List ℕ := s.considered false 0 false

/-- everything a completed simulation of `s` establishes: `s1` is the state after the LSP
phase, `s'` the final state and `Δ d i` the load demand `d` puts on interface `i` -/
structure SimResult (env : Env) (s s1 s' : State) (Δ : ℕ → ℕ → ℚ) : Prop where
  lspRun : routeLsps env s.resetSim = .ok () s1
  frame : LspFrame { s.resetSim with groups := buildGroups env s.lsps s.lspSrc s.lspDst } s1
  fresh : GroupsFresh env s1
  over : ∃ D T C B I, s' = s1.over D T C B I
  dcfg : ∀ d, s'.dmd d = { s.dmd d with path := (s'.dmd d).path, detail := (s'.dmd d).detail }
  place : ∀ d ∈ s.dmds, Place env s1 (s1.graphOf s1.igpEdges) s1.igpEdges (s.dmdSrc d) (s.dmdDst d)
    (s'.dmd d).path
  load : ∀ d ∈ s.dmds, ((s'.dmd d).path = none ∧ (s'.dmd d).detail = (s.dmd d).detail ∧
      Δ d = fun _ => 0) ∨
    ∃ paths ls det, (s'.dmd d).path = some paths ∧
      RidingOf s' (pairKey (s.dmdSrc d) (s.dmdDst d)) ls ∧ LoadedAs s' d paths ls det (Δ d) ∧
      (s'.dmd d).detail = some det
  traffic : ∀ i ∈ s.ifs, (s'.ifc i).traffic =
    if (s'.ifc i).failed then .down else .val (s.dmds.map fun d => Δ d i).sum
  down : ∀ d ∈ s.dmds, ∀ i ∈ s.ifs, (s'.ifc i).failed = true → Δ d i = 0
  valid : ValidOk s'
  ckt : ∃ s3, Paired s3 s' ∧ CktIdsSet s3 ∧ s3.kind = s'.kind ∧ s3.ifs = s'.ifs ∧
    s3.tail = s'.tail ∧ s3.head = s'.head ∧ s3.reservable = s'.reservable
  outDmd : ∀ d, d ∉ s.dmds → s'.dmd d = s.dmd d
  outTraffic : ∀ i, i ∉ s.ifs →
    (s'.ifc i).traffic = (s.ifc i).traffic.plus (s.dmds.map fun d => Δ d i).sum

theorem resetSim_dmdSrc (s : State) : s.resetSim.dmdSrc = s.dmdSrc := by
  funext d
  unfold State.dmdSrc State.resetSim
  simp only []
  by_cases h : d ∈ s.dmds <;> simp [h]

theorem resetSim_dmdDst (s : State) : s.resetSim.dmdDst = s.dmdDst := by
  funext d
  unfold State.dmdDst State.resetSim
  simp only []
  by_cases h : d ∈ s.dmds <;> simp [h]

theorem resetSim_lspSrc (s : State) : s.resetSim.lspSrc = s.lspSrc := by
  funext d
  unfold State.lspSrc State.resetSim
  simp only []
  by_cases h : d ∈ s.lsps <;> simp [h]

theorem resetSim_lspDst (s : State) : s.resetSim.lspDst = s.lspDst := by
  funext d
  unfold State.lspDst State.resetSim
  simp only []
  by_cases h : d ∈ s.lsps <;> simp [h]

theorem resetSim_ifc (s : State) (i : ℕ) : s.resetSim.ifc i = { s.ifc i with
    reservedRaw := (s.resetSim.ifc i).reservedRaw, traffic := (s.resetSim.ifc i).traffic } := by
  unfold State.resetSim
  simp only []
  by_cases h : i ∈ s.ifs <;> simp [h]

theorem routeDemands_eq (env : Env) (s : State) : routeDemands env s =
    (forEach s.dmds (routeDemand env (s.graphOf s.igpEdges) s.igpEdges) >>=
      fun _ => updateUtilization env) s := by
  have hg : (match s.kind with
    | .perf => s.graphPerf false 0 false
    | .flex => s.graphFlex false 0 false) = s.graphOf s.igpEdges := by
    unfold State.graphOf; cases s.kind <;> rfl
  rw [← hg]
  rfl

/-- phase decomposition of a completed simulation on a model whose circuits' ends agree -/
theorem sim_spec {env : Env} {s s' : State} (hd : s.dmds.Nodup) (he : EndsAgree s)
    (hc : CktIdsSet s) (h : updateSimulation env s = .ok () s') :
    ∃ s1 Δ, SimResult env s s1 s' Δ := by
  unfold updateSimulation at h
  obtain ⟨_, s0, h0, h⟩ := py_bind_inv h
  have : s0 = s.resetSim := by cases h0; rfl
  subst this
  obtain ⟨_, s1, hl, h⟩ := py_bind_inv h
  obtain ⟨_, s3, hr, hv⟩ := py_bind_inv h
  have hfr0 := of_wp_ok (routeLsps_frame env s.resetSim rfl) hl
  rw [resetSim_lspSrc, resetSim_lspDst] at hfr0
  obtain ⟨hfr, hfresh⟩ := hfr0
  have hfr' : LspFrame { s.resetSim with groups := buildGroups env s.lsps s.lspSrc s.lspDst } s1 :=
    hfr
  -- demand phase
  rw [routeDemands_eq] at hr
  obtain ⟨_, s2, h2, hr⟩ := py_bind_inv hr
  obtain ⟨D, rfl, hDcfg, hplace, hrest⟩ :=
    of_wp_ok (routeLoop_spec hfresh (s1.graphOf s1.igpEdges) s1.igpEdges s1.dmds) h2
  unfold updateUtilization at hr
  obtain ⟨_, s2', h2', hr⟩ := py_bind_inv hr
  have : s2' = State.resetTraffic { s1 with dmd := D } := by cases h2'; rfl
  subst this
  rw [py_bind_ok (show (get : Py State) _ = .ok _ _ from rfl)] at hr
  have hfresh2 : GroupsFresh env (State.resetTraffic { s1 with dmd := D }) := by
    have h1 : (State.resetTraffic { s1 with dmd := D }).groups = s1.groups := rfl
    exact hfresh
  have hdm : s1.dmds = s.dmds := hfr.dmds
  obtain ⟨Δ, E, rfl, hload, hE, hdown⟩ := of_wp_ok (loadLoop_spec hfresh2 _
    (show (State.resetTraffic { s1 with dmd := D }).dmds.Nodup by
      show s1.dmds.Nodup
      rw [hdm]; exact hd)) hr
  obtain ⟨u, hP, rfl, hV⟩ := of_wp_ok (validate_spec env _) hv
  -- the state before validation, in terms of the state after the LSP phase
  generalize hT : (fun i => (((State.resetTraffic { s1 with dmd := D }).ifc i).traffic).plus
    ((State.resetTraffic { s1 with dmd := D }).dmds.map fun d => Δ d i).sum) = T at *
  generalize hD' : (fun d => { (State.resetTraffic { s1 with dmd := D }).dmd d with detail := E d }) =
    D' at *
  have hs3 : (State.resetTraffic { s1 with dmd := D }).withLoad D' T = s1.withLoad D' T := by
    unfold State.withLoad State.resetTraffic
    simp only []
    congr 1
    funext i
    by_cases hi : i ∈ s1.ifs <;> simp [hi]
  rw [hs3] at hP
  have hcfg : ∀ i, s1.ifc i = { s.ifc i with
      reservedRaw := (s1.ifc i).reservedRaw, traffic := (s1.ifc i).traffic } := by
    intro i
    have h1 := hfr.ifc i
    rw [h1]
    have h2 := resetSim_ifc s i
    simp only []
    rw [h2]
  have hnode : s1.node = s.node := hfr.node
  have hifs : s1.ifs = s.ifs := hfr.ifs
  have hkind : s1.kind = s.kind := hfr.kind
  have htail : ∀ i, s1.tail i = s.tail i := by intro i; unfold State.tail; rw [hcfg i, hnode]
  have hhead : ∀ i, s1.head i = s.head i := by intro i; unfold State.head; rw [hcfg i, hnode]
  have hckt1 : CktIdsSet (s1.withLoad D' T) := by
    intro hk i hi
    show (s1.ifc i).cktId ≠ .none
    rw [hcfg i]
    exact hc (hkind ▸ hk) i (hifs ▸ hi)
  have hfail : ∀ i, (s1.ifc i).failed = (s.ifc i).failed := by intro i; rw [hcfg i]
  have hagree : ∀ c ∈ u.circuits, (u.ifc c.1).failed = (u.ifc c.2).failed := by
    intro c hcm
    obtain ⟨h1, h2, h3, h4⟩ := hP.ends c hcm
    have hid := hP.sameId hckt1 c hcm
    obtain ⟨B, I, heq⟩ := hP.eq
    have hf : ∀ i, (u.ifc i).failed = (s1.ifc i).failed := by intro i; rw [heq]; rfl
    rw [hf, hf, hfail, hfail]
    refine he _ (hifs ▸ h1) _ (hifs ▸ h2) ⟨?_, ?_, ?_⟩
    · rw [← htail, ← hhead]; exact h3
    · rw [← htail, ← hhead]; exact h4
    · intro hk
      have hk' : (s1.withLoad D' T).kind = .flex := hkind.trans hk
      have e1 := hP.flexIds hk' c.1
      have e2 := hP.flexIds hk' c.2
      have e3 : ∀ i, ((s1.withLoad D' T).ifc i).cktId = (s.ifc i).cktId := by
        intro i
        show (s1.ifc i).cktId = _
        rw [hcfg i]
      rw [e3] at e1 e2
      rw [← e1, ← e2, hid]
  rw [repair_self hagree]
  obtain ⟨B, I, hu⟩ := hP.eq
  have hu' : u = s1.over D' T u.circuits B I := by
    rw [hu]
    rfl
  have hdmd : u.dmd = D' := by rw [hu]; rfl
  have huf : ∀ i, (u.ifc i).failed = (s1.ifc i).failed := by intro i; rw [hu]; rfl
  have hsrc : ∀ d, s1.dmdSrc d = s.dmdSrc d := by
    intro d
    have h1 : s1.dmdSrc d = s.resetSim.dmdSrc d := by
      unfold State.dmdSrc
      rw [hfr.dmd, hfr.node]
    rw [h1, resetSim_dmdSrc]
  have hdst : ∀ d, s1.dmdDst d = s.dmdDst d := by
    intro d
    have h1 : s1.dmdDst d = s.resetSim.dmdDst d := by
      unfold State.dmdDst
      rw [hfr.dmd, hfr.node]
    rw [h1, resetSim_dmdDst]
  have hd1 : ∀ d, s1.dmd d = { s.dmd d with path := (s1.dmd d).path } := by
    intro d
    rw [hfr.dmd]
    show (if d ∈ s.dmds then _ else _) = _
    by_cases hm : d ∈ s.dmds
    · rw [if_pos hm]
      show _ = { s.dmd d with path := (if d ∈ s.dmds then { s.dmd d with path := none } else s.dmd d).path }
      rw [if_pos hm]
    · rw [if_neg hm]
      show _ = { s.dmd d with path := (if d ∈ s.dmds then { s.dmd d with path := none } else s.dmd d).path }
      rw [if_neg hm]
  have hD2 : ∀ d, D' d = { s.dmd d with path := (D d).path, detail := E d } := by
    intro d
    rw [← hD']
    show { D d with detail := E d } = _
    rw [hDcfg d, hd1 d]
  have hDd : ∀ d, D d = { s.dmd d with path := (D d).path } := by
    intro d
    have := hDcfg d
    rw [hd1 d] at this
    exact this
  have hres : (s1.withLoad D' T).reservable = u.reservable := by rw [hu]; rfl
  refine ⟨s1, Δ, ?_⟩
  refine ⟨hl, hfr', hfresh, ⟨_, _, _, _, _, hu'⟩, ?_, ?_, ?_, ?_, ?_, hV, ?_, ?_, ?_⟩
  · intro d; rw [hdmd, hD2 d]
  · intro d hdm'
    rw [hdmd, hD2 d]
    have := hplace d (hdm ▸ hdm')
    rwa [hsrc, hdst] at this
  · intro d hdm'
    have hL := hload d (show d ∈ s1.dmds from hdm ▸ hdm')
    have hpath : (u.dmd d).path = (D d).path := by rw [hdmd, hD2 d]
    have hdet : (u.dmd d).detail = E d := by rw [hdmd, hD2 d]
    rw [hpath, hdet]
    rcases hL with ⟨h1, h2, h3⟩ | ⟨paths, ls, det, h1, h2, h3, h4⟩
    · refine .inl ⟨h1, ?_, h3⟩
      rw [h2]
      show (D d).detail = _
      rw [hDd d]
    · refine .inr ⟨paths, ls, det, h1, ?_, ?_, h4⟩
      · rw [hu', RidingOf.over]
        have e1 : (State.resetTraffic { s1 with dmd := D }).dmdSrc d = s.dmdSrc d := by
          unfold State.dmdSrc
          show (s1.node (D d).src).name = _
          rw [hDd d, hnode]
        have e2 : (State.resetTraffic { s1 with dmd := D }).dmdDst d = s.dmdDst d := by
          unfold State.dmdDst
          show (s1.node (D d).dst).name = _
          rw [hDd d, hnode]
        rw [e1, e2] at h2
        have hx : State.resetTraffic { s1 with dmd := D } =
            s1.withLoad D fun i => ((State.resetTraffic { s1 with dmd := D }).ifc i).traffic := by
          unfold State.withLoad State.resetTraffic
          simp only []
          congr 1
          funext i
          by_cases hi : i ∈ s1.ifs <;> simp [hi]
        rw [hx] at h2
        exact RidingOf.withLoad.1 h2
      · have hx : State.resetTraffic { s1 with dmd := D } =
            s1.withLoad D fun i => ((State.resetTraffic { s1 with dmd := D }).ifc i).traffic := by
          unfold State.withLoad State.resetTraffic
          simp only []
          congr 1
          funext i
          by_cases hi : i ∈ s1.ifs <;> simp [hi]
        rw [hx] at h3
        unfold LoadedAs at h3 ⊢
        have t1 : (u.dmd d).traffic = (s.dmd d).traffic := by rw [hdmd, hD2 d]
        have t2 : ((s1.withLoad D fun i =>
          ((State.resetTraffic { s1 with dmd := D }).ifc i).traffic).dmd d).traffic =
            (s.dmd d).traffic := by
          show (D d).traffic = _
          rw [hDd d]
        rw [t1]
        rw [t2] at h3
        rw [hu']
        exact h3
  · intro i hi
    have h1 : (u.ifc i).traffic = T i := by rw [hu]; rfl
    rw [h1, ← hT, huf]
    show Traffic.plus ((if i ∈ s1.ifs then { s1.ifc i with traffic := (if (s1.ifc i).failed then
      Traffic.down else .val 0) } else s1.ifc i).traffic) ((s1.dmds.map fun d => Δ d i).sum) = _
    rw [if_pos (hifs ▸ hi), hdm]
    cases (s1.ifc i).failed <;> simp [Traffic.plus]
  · intro d hdm' i hi hf
    refine hdown d (show d ∈ s1.dmds from hdm ▸ hdm') i ?_
    show ((if i ∈ s1.ifs then { s1.ifc i with traffic := (if (s1.ifc i).failed then
      Traffic.down else .val 0) } else s1.ifc i).traffic) = _
    rw [if_pos (hifs ▸ hi)]
    rw [huf] at hf
    simp [hf]
  · refine ⟨_, hP, hckt1, ?_, ?_, ?_, ?_, hres⟩
    · rw [hu]; rfl
    · rw [hu]; rfl
    · rw [hu]; rfl
    · rw [hu]; rfl
  · intro d hdm'
    have hn : d ∉ s1.dmds := hdm ▸ hdm'
    have e1 : D d = s.dmd d := by
      rw [hrest d hn, hfr.dmd]
      show (if d ∈ s.dmds then _ else _) = _
      rw [if_neg hdm']
    have e2 : E d = (D d).detail := hE d hn
    rw [hdmd, hD2 d, e2, e1]
  · intro i hi
    have hn : i ∉ s1.ifs := hifs ▸ hi
    have h1 : (u.ifc i).traffic = T i := by rw [hu]; rfl
    rw [h1, ← hT]
    show Traffic.plus ((if i ∈ s1.ifs then { s1.ifc i with traffic := (if (s1.ifc i).failed then
      Traffic.down else .val 0) } else s1.ifc i).traffic) ((s1.dmds.map fun d => Δ d i).sum) = _
    rw [if_neg hn, hdm, hfr.ifc i]
    show Traffic.plus ((if i ∈ s.ifs then { s.ifc i with reservedRaw := 0, traffic := .val 0 }
      else s.ifc i).traffic) _ = _
    rw [if_neg hi]

end NTM
