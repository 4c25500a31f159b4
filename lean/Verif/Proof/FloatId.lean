import Verif.Model.FloatLsp
import Verif.Proof.Validate

/-!
# Without rounding, the floating point simulation is the exact one
-/

namespace NTM

theorem id_reserved (s : State) : s.reservedFl id = s.reservedBw := rfl

theorem id_reservable (s : State) : s.reservableFl id = s.reservable := rfl

theorem id_considered (s : State) : s.consideredFl id = s.considered := rfl

theorem id_reserveOn (s : State) : s.reserveOnFl id = s.reserveOn := rfl

theorem id_withHeadroom (s : State) (b : ℚ) (ps : List (List ℕ)) :
    s.withHeadroomFl id b ps = s.withHeadroom b ps := by
  induction ps with
  | nil => rfl
  | cons p ps ih =>
    unfold State.withHeadroomFl State.withHeadroom
    rw [ih]
    rfl

theorem id_setSetup (x : Lsp) (q : ℚ) : x.setSetupFl id q = x.setSetup q := rfl

theorem id_graph (s : State) (b : ℚ) : s.graphOn (s.consideredFl id false b true) = s.lspGraph b := by
  unfold State.graphOn State.lspGraph
  cases s.kind <;> rfl

theorem id_candidates (s : State) : s.lspCandidatesFl id = s.lspCandidates := by
  funext b ps
  unfold State.lspCandidatesFl State.lspCandidates
  cases s.kind <;> rfl

theorem id_signalLsp (env : Env) (q : ℚ) : signalLspFl id env q = signalLsp env q := by
  funext l
  unfold signalLspFl signalLsp
  simp only [id_graph, id_candidates, id_setSetup, id_reserveOn, Option.map_id, id_eq,
    funext (id_withHeadroom _ _)]
  rfl

theorem id_routedCandidates (s : State) (env : Env) :
    s.routedCandidatesFl id env = s.routedCandidates env := by
  funext src dst path res needed
  unfold State.routedCandidatesFl State.routedCandidates State.graphOn
  cases s.kind <;> rfl

theorem id_findPath (env : Env) : findPathWithBwFl id env = findPathWithBw env := by
  funext l q
  unfold findPathWithBwFl findPathWithBw
  simp only [id_routedCandidates]
  rfl

theorem id_reopt (env : Env) : reoptLspFl id env = reoptLsp env := by
  funext q l
  unfold reoptLspFl reoptLsp
  rw [id_findPath]
  rfl

theorem id_sum (qs : List ℚ) : sumFl id qs = qs.sum := by
  unfold sumFl
  rw [List.sum_eq_foldl]
  rfl

theorem id_routeGroup (env : Env) : routeGroupFl id env = routeGroup env := by
  funext dg grp
  unfold routeGroupFl routeGroup
  simp only [id_reopt, id_signalLsp, id_sum]
  rfl

theorem id_routeLsps (env : Env) : routeLspsFl id env = routeLsps env := by
  unfold routeLspsFl routeLsps
  rw [id_routeGroup]

theorem id_itemFold (x : Item) (q : ℚ) (ys : List Item) : ∀ acc : ℚ,
    ys.foldl (fun acc y => if y = x then id (acc + q) else acc) acc = acc + (ys.count x : ℚ) * q := by
  induction ys with
  | nil => intro acc; simp
  | cons y ys ih =>
    intro acc
    rw [List.foldl_cons, ih]
    by_cases h : y = x
    · subst h
      rw [if_pos rfl, List.count_cons_self]
      push_cast
      show acc + q + _ = _
      ring
    · rw [if_neg h, List.count_cons_of_ne h]

theorem id_itemTraffic (infos : List PathInfo) (x : Item) :
    itemTrafficFl id infos x = itemTraffic infos x := by
  unfold itemTrafficFl itemTraffic
  have : ∀ (l : List PathInfo) (acc : ℚ), l.foldl (fun acc p => p.items.foldl
      (fun acc y => if y = x then id (acc + p.traffic) else acc) acc) acc =
      acc + (l.map fun p => (p.items.count x : ℚ) * p.traffic).sum := by
    intro l
    induction l with
    | nil => intro acc; simp
    | cons p l ih =>
      intro acc
      rw [List.foldl_cons, ih, id_itemFold, List.map_cons, List.sum_cons]
      ring
  rw [this, zero_add]

theorem id_applyItem (k : Kind) (infos : List PathInfo) :
    applyItemFl id k infos = applyItem k infos := by
  funext x
  unfold applyItemFl applyItem
  cases k <;> cases x <;> simp only [id_itemTraffic] <;> rfl

theorem id_lspDetail (k : Kind) (q : ℚ) (ls : List ℕ) : lspDetailFl id k q ls = lspDetail k q ls := by
  cases k <;> rfl

theorem id_loadDemand (env : Env) : loadDemandFl id env = loadDemand env := by
  funext d
  unfold loadDemandFl loadDemand
  simp only [id_applyItem, id_lspDetail]
  rfl

theorem id_routeDemands (env : Env) : routeDemandsFull id env = routeDemands env := by
  unfold routeDemandsFull routeDemands updateUtilizationFl updateUtilization
  rw [id_loadDemand]
  rfl

theorem id_makeCircuits (env : Env) (s : State) : makeCircuitsFl id env s =
    (match s.kind with
      | .perf => makeCircuitsPerf env
      | .flex => makeCircuitsFlex env) s := by
  unfold makeCircuitsFl
  rw [py_bind_ok (show (get : Py State) s = .ok s s from rfl)]
  cases hk : s.kind
  · unfold makeCircuitsPerf
    simp only []
    rw [py_bind_ok (show (get : Py State) s = .ok s s from rfl)]
    rfl
  · unfold makeCircuitsFlex
    simp only []
    rw [py_bind_ok (show (get : Py State) s = .ok s s from rfl)]
    rfl

theorem id_infoReserved (s : State) : s.infoReservedFl id = s.infoReserved := by
  funext info i
  exact id_sum _

theorem id_resSum (s : State) : s.resSumErrorFl id = s.resSumError := by
  funext info i
  unfold State.resSumErrorFl State.resSumError
  rw [id_infoReserved]
  rfl

theorem makeCircuits_kind {env : Env} {s u : State} (h : (match s.kind with
      | .perf => makeCircuitsPerf env
      | .flex => makeCircuitsFlex env) s = .ok () u) : u.kind = s.kind := by
  cases hk : s.kind
  · rw [hk] at h
    obtain ⟨⟨B, I, e⟩, -⟩ := of_wp_ok (makeCircuitsPerf_spec env s hk) h
    rw [e]; exact hk
  · rw [hk] at h
    obtain ⟨⟨B, I, e⟩, -⟩ := of_wp_ok (makeCircuitsFlex_spec env s hk) h
    rw [e]; exact hk

theorem id_validateWith {env : Env} {s : State} (m : Py Unit) (h : makeCircuitsFl id env s = m s)
    (hk : ∀ u, m s = .ok () u → u.kind = s.kind) :
    validateFl id env s = (m >>= fun _ => validateTail s.kind) s := by
  unfold validateFl
  cases hc : m s with
  | error e u =>
    show EStateM.bind _ _ _ = EStateM.bind _ _ _
    unfold EStateM.bind
    rw [h, hc]
  | ok a u =>
    rw [py_bind_ok hc, ← hk u hc]
    rw [← h] at hc
    rw [py_bind_ok hc]
    unfold validateTail
    rw [py_bind_ok (show (get : Py State) u = .ok u u from rfl),
      py_bind_ok (show (get : Py State) u = .ok u u from rfl)]
    simp only [id_resSum]
    rfl

theorem id_validate (env : Env) : validateFl id env = validate env := by
  funext s
  rw [validate_eq]
  exact id_validateWith _ (id_makeCircuits env s) fun u h => makeCircuits_kind h

/-- with exact arithmetic it is the exact simulation -/
theorem full_id (env : Env) : updateSimulationFull id env = updateSimulation env := by
  unfold updateSimulationFull updateSimulation
  rw [id_routeLsps, id_routeDemands, id_validate]

end NTM
