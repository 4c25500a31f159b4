import Verif.Proof.Pairing

/-!
# `validate_model`
-/

namespace NTM

open Spec

theorem mem_diEdges {s : State} {es : List ℕ} {i : ℕ} (h : i ∈ s.diEdges es) : i ∈ es := by
  induction es with
  | nil => cases h
  | cons e es ih =>
    unfold State.diEdges at h
    split at h
    · exact List.mem_cons_of_mem _ (ih h)
    · rcases List.mem_cons.1 h with rfl | h
      · simp
      · exact List.mem_cons_of_mem _ (ih h)

theorem diEdges_rep (s : State) {es : List ℕ} {i : ℕ} (h : i ∈ es) :
    ∃ j ∈ s.diEdges es, s.tail j = s.tail i ∧ s.head j = s.head i := by
  induction es generalizing i with
  | nil => cases h
  | cons e es ih =>
    unfold State.diEdges
    rcases List.mem_cons.1 h with rfl | h
    · split
      · next he =>
        obtain ⟨k, hk, h1, h2⟩ := hasEdge_iff.1 he
        obtain ⟨j, hj, h3, h4⟩ := ih hk
        exact ⟨j, hj, h3.trans h1, h4.trans h2⟩
      · exact ⟨i, by simp, rfl, rfl⟩
    · obtain ⟨j, hj, h3, h4⟩ := ih h
      split
      · exact ⟨j, hj, h3, h4⟩
      · exact ⟨j, by simp [hj], h3, h4⟩

theorem diEdges_single (s : State) {es : List ℕ} (hes : es ⊆ s.ifs) (hs : SingleLinks s) {i : ℕ}
    (h : i ∈ es) : i ∈ s.diEdges es := by
  obtain ⟨j, hj, h1, h2⟩ := diEdges_rep s h
  have := hs j (hes (mem_diEdges hj)) i (hes h) h1 h2
  rwa [← this]

/-- interfaces visible to circuit matching -/
def State.matchable (s : State) : List ℕ := s.considered true 0 false

theorem mem_matchable {s : State} {i : ℕ} :
    i ∈ s.matchable ↔ i ∈ s.ifs ∧ 0 ≤ s.reservable i := by
  unfold State.matchable
  rw [mem_considered]; simp

/-- `u` is `s` after its circuits have been built -/
structure Paired (s u : State) : Prop where
  eq : ∃ B I, u = s.withCkt u.circuits B I
  flexIds : s.kind = .flex → ∀ i, (u.ifc i).cktId = (s.ifc i).cktId
  ends : ∀ c ∈ u.circuits, c.1 ∈ s.ifs ∧ c.2 ∈ s.ifs ∧ s.tail c.1 = s.head c.2 ∧
    s.head c.1 = s.tail c.2
  apart : u.circuits.Pairwise Apart
  rev : ∀ i ∈ s.matchable, ∃ j ∈ s.matchable, s.tail j = s.head i ∧ s.head j = s.tail i
  sameId : CktIdsSet s → ∀ c ∈ u.circuits, (u.ifc c.1).cktId = (u.ifc c.2).cktId
  numIds : s.kind = .perf → (∀ c ∈ u.circuits, ∃ m, (u.ifc c.1).cktId = .num m) ∧
    (u.circuits.Pairwise fun c d => (u.ifc c.1).cktId ≠ (u.ifc d.1).cktId) ∧
    ∀ i, (∀ c ∈ u.circuits, ¬ IsEnd i c) → (u.ifc i).cktId = (s.ifc i).cktId
  found : s.kind = .flex → ∀ i ∈ s.matchable, FlexFound s i
  cover : (s.kind = .perf → SingleLinks s) → CktIdsSet s → ∀ i ∈ s.matchable,
    ∃ c ∈ u.circuits, IsEnd i c
  src : ∀ c ∈ u.circuits, ∃ e ∈ s.matchable, s.tail c.1 = s.tail e ∧ s.head c.1 = s.head e ∧
    (s.kind = .flex → (s.ifc e).cktId ≠ .none → c.1 = e)

theorem clearInCkt_eq (s : State) : s.clearInCkt = s.withCkt s.circuits
    (fun i => if i ∈ s.ifs then false else (s.ifc i).inCkt) (fun i => (s.ifc i).cktId) := by
  unfold State.clearInCkt State.withCkt
  congr 1
  funext i
  by_cases h : i ∈ s.ifs <;> simp [h]

theorem linkInv_init (s : State) :
    LinkInv s (fun i => if i ∈ s.ifs then false else (s.ifc i).inCkt) [] where
  ends := by simp
  marked := by simp
  mark := by intro i hi h; simp [hi] at h
  apart := List.Pairwise.nil

/-- an interface without an interface in the opposite direction -/
def Unmatched (s : State) : Prop :=
  ∃ i ∈ s.matchable, ¬ ∃ j ∈ s.matchable, s.tail j = s.head i ∧ s.head j = s.tail i

theorem makeCircuitsPerf_spec (env : Env) (s : State) (hk : s.kind = .perf) :
    wp (makeCircuitsPerf env) (fun _ u => Paired s u)
      (fun _ u => (∃ B I, u = s.withCkt u.circuits B I) ∧ u.circuits = s.circuits ∧ Unmatched s)
      s := by
  unfold makeCircuitsPerf
  simp only [wp_bind, wp_get, wp_set]
  change wp (pairPerf ((env.ordI (s.diEdges s.matchable)).filter fun e =>
    s.hasEdge s.matchable (s.head e) (s.tail e)) 1 []) _ _ _
  rw [clearInCkt_eq]
  have hperm := env.ordI_perm (s.diEdges s.matchable)
  refine wp_mono (pairPerf_spec (s := s) _ ?_ ?_ s.circuits _ _ 1 [] (linkInv_init s)
    ⟨by simp, by simp, fun _ _ => rfl⟩) ?_ (fun _ _ h => h.elim)
  · intro e he
    have := mem_diEdges (hperm.mem_iff.1 (List.mem_filter.1 he).1)
    exact (mem_matchable.1 this).1
  · intro e he
    obtain ⟨j, hj, h1, h2⟩ := hasEdge_iff.1 (List.mem_filter.1 he).2
    exact ⟨j, (mem_matchable.1 hj).1, h1, h2⟩
  · rintro r t ⟨B', I', k', rfl, hl, hn, -, hc, hsrc⟩
    split
    · next hany =>
      rw [wp_raise]
      refine ⟨⟨B', I', rfl⟩, rfl, ?_⟩
      rw [List.any_eq_true] at hany
      obtain ⟨e, he, h⟩ := hany
      refine ⟨e, mem_diEdges (hperm.mem_iff.1 he), ?_⟩
      rintro ⟨j, hj, h1, h2⟩
      have : s.hasEdge s.matchable (s.head e) (s.tail e) = true := hasEdge_iff.2 ⟨j, hj, h1, h2⟩
      have h' : (!s.hasEdge s.matchable (s.head e) (s.tail e)) = true := h
      rw [this] at h'; cases h'
    · next hall =>
      rw [wp_modify]
      have hall' : ∀ e ∈ s.diEdges s.matchable,
          s.hasEdge s.matchable (s.head e) (s.tail e) = true := by
        intro e he
        by_contra hne
        apply hall
        rw [List.any_eq_true]
        exact ⟨e, hperm.mem_iff.2 he, by
          show (!s.hasEdge s.matchable (s.head e) (s.tail e)) = true
          simpa using hne⟩
      have hrev : ∀ i ∈ s.matchable,
          ∃ j ∈ s.matchable, s.tail j = s.head i ∧ s.head j = s.tail i := by
        intro i hi
        obtain ⟨e, he, h1, h2⟩ := diEdges_rep s hi
        obtain ⟨j, hj, h3, h4⟩ := hasEdge_iff.1 (hall' e he)
        exact ⟨j, hj, h3.trans h2, h4.trans h1⟩
      refine
        { eq := ⟨B', I', rfl⟩
          flexIds := fun h => by rw [hk] at h; cases h
          ends := hl.ends
          apart := hl.apart
          rev := hrev
          sameId := ?_
          numIds := fun _ => ⟨?_, hn.distinct, hn.rest⟩
          found := fun h => by rw [hk] at h; cases h
          cover := ?_
          src := ?_ }
      rotate_left 3
      · intro c hcr
        rcases hsrc c hcr with h | ⟨e, he, h1, h2⟩
        · cases h
        · exact ⟨e, mem_diEdges (hperm.mem_iff.1 (List.mem_filter.1 he).1), h1, h2,
            fun h => by rw [hk] at h; cases h⟩
      · intro _ c hcr
        obtain ⟨m, -, h1, h2⟩ := hn.ids c hcr
        exact h1.trans h2.symm
      · intro c hcr
        obtain ⟨m, -, h1, -⟩ := hn.ids c hcr
        exact ⟨m, h1⟩
      · intro hs _ i hi
        refine hc (hs hk) i ?_
        rw [List.mem_filter]
        have hi' := diEdges_single s (fun _ h => (mem_matchable.1 h).1) (hs hk) hi
        exact ⟨hperm.mem_iff.2 hi', hall' i hi'⟩

theorem makeCircuitsFlex_spec (env : Env) (s : State) (hk : s.kind = .flex) :
    wp (makeCircuitsFlex env) (fun _ u => Paired s u)
      (fun _ u => (∃ B I, u = s.withCkt u.circuits B I) ∧ u.circuits = s.circuits ∧
        (∀ i, (u.ifc i).cktId = (s.ifc i).cktId) ∧
        (Unmatched s ∨ ∃ e ∈ s.matchable, ¬ FlexFound s e)) s := by
  unfold makeCircuitsFlex
  simp only [wp_bind, wp_get, wp_set]
  change wp (pairFlex ((env.ordI s.matchable).filter fun e =>
    s.hasEdge s.matchable (s.head e) (s.tail e)) []) _ _ _
  rw [clearInCkt_eq]
  have hperm := env.ordI_perm s.matchable
  refine wp_mono (pairFlex_spec (s := s) _ ?_ s.circuits _ [] (linkInv_init s) (by simp)) ?_ ?_
  · intro e he
    exact (mem_matchable.1 (hperm.mem_iff.1 (List.mem_filter.1 he).1)).1
  · rintro r t ⟨B', rfl, hl, -, hf, hc, hsrc⟩
    split
    · next hany =>
      rw [wp_raise]
      refine ⟨⟨B', _, rfl⟩, rfl, fun _ => rfl, .inl ?_⟩
      rw [List.any_eq_true] at hany
      obtain ⟨e, he, h⟩ := hany
      refine ⟨e, hperm.mem_iff.1 he, ?_⟩
      rintro ⟨j, hj, h1, h2⟩
      have : s.hasEdge s.matchable (s.head e) (s.tail e) = true := hasEdge_iff.2 ⟨j, hj, h1, h2⟩
      have h' : (!s.hasEdge s.matchable (s.head e) (s.tail e)) = true := h
      rw [this] at h'; cases h'
    · next hall =>
      rw [wp_modify]
      have hall' : ∀ e ∈ s.matchable,
          s.hasEdge s.matchable (s.head e) (s.tail e) = true := by
        intro e he
        by_contra hne
        apply hall
        rw [List.any_eq_true]
        exact ⟨e, hperm.mem_iff.2 he, by
          show (!s.hasEdge s.matchable (s.head e) (s.tail e)) = true
          simpa using hne⟩
      have hmem : ∀ e ∈ s.matchable, e ∈ (env.ordI s.matchable).filter fun e =>
          s.hasEdge s.matchable (s.head e) (s.tail e) := by
        intro e he
        rw [List.mem_filter]
        exact ⟨hperm.mem_iff.2 he, hall' e he⟩
      exact
        { eq := ⟨B', _, rfl⟩
          flexIds := fun _ _ => rfl
          ends := hl.ends
          apart := hl.apart
          rev := fun i hi => hasEdge_iff.1 (hall' i hi)
          sameId := fun h => (hc h hk).1
          numIds := fun h => by rw [hk] at h; cases h
          found := fun _ i hi => hf i (hmem i hi)
          cover := fun _ h i hi => (hc h hk).2 i (hmem i hi)
          src := fun c hcr => by
            rcases hsrc c hcr with h | ⟨e, he, h1, h2, h3⟩
            · cases h
            · exact ⟨e, hperm.mem_iff.1 (List.mem_filter.1 he).1, h1, h2, fun _ => h3⟩ }
  · rintro _ t ⟨⟨B', rfl⟩, e, he, h⟩
    exact ⟨⟨B', _, rfl⟩, rfl, fun _ => rfl, .inr ⟨e, hperm.mem_iff.1 (List.mem_filter.1 he).1, h⟩⟩

/-! ### Repairing failure states -/

/-- is `i` an end of a pair in `C` whose two ends disagree? -/
def State.misIn (s : State) (C : List (ℕ × ℕ)) (i : ℕ) : Bool :=
  C.any fun c => decide (IsEnd i c) && decide ((s.ifc c.1).failed ≠ (s.ifc c.2).failed)

/-- both ends of every pair in `C` whose ends disagree are failed -/
def State.repairOver (s : State) (C : List (ℕ × ℕ)) : State :=
  { s with ifc := fun i => if s.misIn C i then
      { s.ifc i with failed := true, reservedRaw := 0 } else s.ifc i }

/-- both ends of every circuit whose ends disagree are failed -/
def State.repair (s : State) : State := s.repairOver s.circuits

theorem misIn_iff {s : State} {C : List (ℕ × ℕ)} {i : ℕ} : s.misIn C i = true ↔
    ∃ c ∈ C, IsEnd i c ∧ (s.ifc c.1).failed ≠ (s.ifc c.2).failed := by
  unfold State.misIn
  simp

theorem matchFailed_step {s : State} {pre : List (ℕ × ℕ)} {c : ℕ × ℕ}
    (hp : ∀ d ∈ pre, Apart d c) :
    matchFailed c (s.repairOver pre) = .ok () (s.repairOver (pre ++ [c])) := by
  have hfree : ∀ i, IsEnd i c → s.misIn pre i = false := by
    intro i hi
    by_contra hm
    obtain ⟨d, hd, h1, -⟩ := misIn_iff.1 (by simpa using hm)
    exact (hp d hd).not_isEnd h1 hi
  have h0 : ∀ i, IsEnd i c → (s.repairOver pre).ifc i = s.ifc i := by
    intro i hi
    show (if s.misIn pre i then _ else _) = _
    rw [hfree i hi]; rfl
  have h1 := h0 c.1 (.inl rfl)
  have h2 := h0 c.2 (.inr rfl)
  unfold matchFailed
  show (if ((s.repairOver pre).ifc c.1).failed ≠ ((s.repairOver pre).ifc c.2).failed
    then _ else _ : Py Unit) (s.repairOver pre) = _
  rw [h1, h2]
  by_cases hne : (s.ifc c.1).failed ≠ (s.ifc c.2).failed
  · rw [if_pos hne]
    show EStateM.Result.ok () (((s.repairOver pre).downIfc c.1).downIfc c.2) = _
    congr 1
    unfold State.downIfc State.updIfc
    have : ∀ i, s.misIn (pre ++ [c]) i = (s.misIn pre i || decide (IsEnd i c)) := by
      intro i
      unfold State.misIn
      rw [List.any_append]
      simp [hne]
    unfold State.repairOver
    simp only [this]
    congr 1
    funext i
    by_cases hi : IsEnd i c
    · have hf := hfree i hi
      simp only [hf, hi, decide_true, Bool.or_true, if_true, Bool.false_eq_true, if_false]
      rcases hi with h | h
      · rw [if_pos h]
        split <;> rfl
      · rw [if_pos h]
        split <;> rfl
    · have e1 : i ≠ c.1 := fun h => hi (.inl h)
      have e2 : i ≠ c.2 := fun h => hi (.inr h)
      simp [e1, e2, hi]
  · rw [if_neg hne]
    show EStateM.Result.ok () (s.repairOver pre) = _
    congr 1
    unfold State.repairOver
    congr 1
    funext i
    have : s.misIn (pre ++ [c]) i = s.misIn pre i := by
      unfold State.misIn
      rw [List.any_append]
      simp [not_not.1 hne]
    rw [this]

theorem py_bind_ok {α β : Type} {x : Py α} {f : α → Py β} {s t : State} {a : α}
    (h : x s = .ok a t) : (x >>= f) s = f a t := by
  show EStateM.bind x f s = _
  unfold EStateM.bind
  rw [h]

theorem matchLoop_eq {s : State} (h : s.circuits.Pairwise Apart) :
    forEach s.circuits matchFailed s = .ok () s.repair := by
  have key : ∀ (C pre : List (ℕ × ℕ)), (pre ++ C).Pairwise Apart →
      forEach C matchFailed (s.repairOver pre) = .ok () (s.repairOver (pre ++ C)) := by
    intro C
    induction C with
    | nil => intro pre _; rw [List.append_nil]; rfl
    | cons c C ih =>
      intro pre hp
      have hs := matchFailed_step (s := s) (pre := pre) (c := c)
        (fun d hd => (List.pairwise_append.1 hp).2.2 d hd c (by simp))
      show (matchFailed c >>= fun _ => forEach C matchFailed) _ = _
      rw [py_bind_ok hs]
      have := ih (pre ++ [c]) (by simpa using hp)
      rw [this]; simp
  have h0 : s.repairOver [] = s := rfl
  have := key s.circuits [] (by simpa using h)
  rw [h0] at this
  exact this

/-! ### The checks -/

/-- the conditions checked by `validate_model` once circuits are built -/
structure ValidOk (u : State) : Prop where
  hops : ∃ info, u.lspHops = .ok info ∧ ∀ i ∈ u.ifs,
    pyRound 1 (u.reservedBw i) = pyRound 1 (u.infoReserved info i)
  cap : ∀ i ∈ u.ifs, u.reservedBw i ≤ (u.ifc i).capacity
  shortcuts : u.kind = .perf → NoShortcuts u
  capacity : ∀ c ∈ u.circuits, (u.ifc c.1).capacity = (u.ifc c.2).capacity
  links : u.kind = .perf → u.multipleLinks = []
  names : u.nodes.length = u.nodeNames.dedup.length

theorem dupNameReport_truthy (s : State) : State.dupNameReportTruthy s.dupNameReport = true := by
  unfold State.dupNameReport
  split
  · decide +kernel
  · rfl

/-- the part of `validate_model` after the circuits have been built -/
def validateTail (k : Kind) : Py Unit := do
  let s ← get
  let info ← liftE s.lspHops
  let e1 := if s.ifs.any s.resTooHigh then [VErr.resTooHigh] else []
  let e2 := if s.ifs.any (s.resSumError info) then [VErr.resSum] else []
  let e3 := if State.dupNameReportTruthy s.dupNameReport then [] else [VErr.dupIfcName]
  let e4 := if k = .perf ∧ s.nodes.any (fun n => (s.node n).shortcuts) then
    [VErr.shortcutNodes] else []
  forEach s.circuits matchFailed
  let s' ← get
  let e5 := if s'.circuits.any (fun c => decide ((s'.ifc c.1).capacity ≠ (s'.ifc c.2).capacity))
    then [VErr.capacityMismatch] else []
  let e6 := if k = .perf ∧ s'.multipleLinks ≠ [] then [VErr.multipleLinks] else []
  let e7 := if s'.nodes.length ≠ s'.nodeNames.dedup.length then [VErr.dupNodes] else []
  if e1 ++ e2 ++ e3 ++ e4 ++ e5 ++ e6 ++ e7 ≠ [] then
    raise (.model "network interface validation failed, see returned data")
  else pure ()

theorem validate_eq (env : Env) (s : State) : validate env s =
    ((match s.kind with
      | .perf => makeCircuitsPerf env
      | .flex => makeCircuitsFlex env) >>= fun _ => validateTail s.kind) s := by
  unfold validate
  rw [py_bind_ok (show (get : Py State) s = .ok s s from rfl)]
  cases s.kind <;> rfl

theorem repair_ifc (s : State) (i : ℕ) : (s.repair.ifc i).node = (s.ifc i).node ∧
    (s.repair.ifc i).remote = (s.ifc i).remote ∧ (s.repair.ifc i).capacity = (s.ifc i).capacity := by
  unfold State.repair State.repairOver
  simp only []
  split <;> exact ⟨rfl, rfl, rfl⟩

theorem multipleLinks_repair (s : State) : s.repair.multipleLinks = s.multipleLinks := by
  have h : (fun i => s.repair.tail i ++ "-" ++ s.repair.head i) =
      fun i => s.tail i ++ "-" ++ s.head i := by
    funext i
    unfold State.tail State.head
    rw [(repair_ifc s i).1, (repair_ifc s i).2.1]
    rfl
  unfold State.multipleLinks
  rw [h]
  rfl

theorem validateTail_spec {u : State} (h : u.circuits.Pairwise Apart) :
    wp (validateTail u.kind) (fun _ t => t = u.repair ∧ ValidOk u)
      (fun _ t => (t = u ∨ t = u.repair) ∧ ¬ ValidOk u) u := by
  unfold validateTail
  simp only [wp_bind, wp_get, wp_liftE]
  cases hh : u.lspHops with
  | error e =>
    refine ⟨.inl trivial, ?_⟩
    intro hv
    obtain ⟨info, h1, -⟩ := hv.hops
    rw [hh] at h1; cases h1
  | ok info =>
    simp only []
    rw [wp_ok (matchLoop_eq h)]
    simp only [dupNameReport_truthy, if_true, List.append_nil]
    have hA : ∀ (c : Prop) [Decidable c] (e : VErr), ((if c then [e] else []) = [] ↔ ¬ c) := by
      intro c _ e; split <;> simp_all
    have h5 : (u.repair.circuits.any fun c =>
        decide ((u.repair.ifc c.1).capacity ≠ (u.repair.ifc c.2).capacity)) =
        u.circuits.any fun c => decide ((u.ifc c.1).capacity ≠ (u.ifc c.2).capacity) := by
      have : (fun c : ℕ × ℕ => decide ((u.repair.ifc c.1).capacity ≠ (u.repair.ifc c.2).capacity)) =
          fun c => decide ((u.ifc c.1).capacity ≠ (u.ifc c.2).capacity) := by
        funext c
        rw [(repair_ifc u c.1).2.2, (repair_ifc u c.2).2.2]
      rw [this]; rfl
    rw [h5, multipleLinks_repair]
    have hiff : ((if u.ifs.any u.resTooHigh then [VErr.resTooHigh] else []) ++
        (if u.ifs.any (u.resSumError info) then [VErr.resSum] else []) ++
        (if u.kind = .perf ∧ u.nodes.any (fun n => (u.node n).shortcuts) then
          [VErr.shortcutNodes] else []) ++
        (if u.circuits.any fun c => decide ((u.ifc c.1).capacity ≠ (u.ifc c.2).capacity)
          then [VErr.capacityMismatch] else []) ++
        (if u.kind = .perf ∧ u.multipleLinks ≠ [] then [VErr.multipleLinks] else []) ++
        (if u.repair.nodes.length ≠ u.repair.nodeNames.dedup.length then [VErr.dupNodes] else [])
        = []) ↔ ValidOk u := by
      simp only [List.append_eq_nil_iff, hA]
      constructor
      · rintro ⟨⟨⟨⟨⟨a1, a2⟩, a4⟩, a5⟩, a6⟩, a7⟩
        refine ⟨⟨info, hh, ?_⟩, ?_, ?_, ?_, ?_, ?_⟩
        · intro i hi
          by_contra hne
          apply a2
          rw [List.any_eq_true]
          exact ⟨i, hi, by unfold State.resSumError; simpa using hne⟩
        · intro i hi
          by_contra hne
          apply a1
          rw [List.any_eq_true]
          exact ⟨i, hi, by unfold State.resTooHigh; simpa using hne⟩
        · intro hk n hn
          by_contra hne
          apply a4
          refine ⟨hk, ?_⟩
          rw [List.any_eq_true]
          exact ⟨n, hn, by simpa using hne⟩
        · intro c hc
          by_contra hne
          apply a5
          rw [List.any_eq_true]
          exact ⟨c, hc, by simpa using hne⟩
        · intro hk
          by_contra hne
          exact a6 ⟨hk, hne⟩
        · by_contra hne
          exact a7 hne
      · intro hv
        obtain ⟨info', b1, b2⟩ := hv.hops
        rw [hh] at b1; cases b1
        refine ⟨⟨⟨⟨⟨?_, ?_⟩, ?_⟩, ?_⟩, ?_⟩, ?_⟩
        · rw [List.any_eq_true]
          rintro ⟨i, hi, h⟩
          have := hv.cap i hi
          unfold State.resTooHigh at h
          simp only [decide_eq_true_eq] at h
          exact absurd h (not_lt.2 this)
        · rw [List.any_eq_true]
          rintro ⟨i, hi, h⟩
          unfold State.resSumError at h
          simp only [decide_eq_true_eq] at h
          exact h (b2 i hi)
        · rintro ⟨hk, h⟩
          rw [List.any_eq_true] at h
          obtain ⟨n, hn, h⟩ := h
          rw [hv.shortcuts hk n hn] at h; cases h
        · rw [List.any_eq_true]
          rintro ⟨c, hc, h⟩
          simp only [decide_eq_true_eq] at h
          exact h (hv.capacity c hc)
        · rintro ⟨hk, h⟩
          exact h (hv.links hk)
        · intro h
          exact h hv.names
    by_cases hv : ValidOk u
    · rw [if_neg (not_not.2 (hiff.2 hv))]
      exact ⟨rfl, hv⟩
    · rw [if_pos (fun h => hv (hiff.1 h))]
      exact ⟨.inr rfl, hv⟩

/-- `s` before a validation and `t` after it differ only in circuits, circuit ids, pairing
marks and repaired failure states -/
theorem validate_spec (env : Env) (s : State) :
    wp (validate env) (fun _ t => ∃ u, Paired s u ∧ t = u.repair ∧ ValidOk u)
      (fun _ t => ∃ B I, (∃ C, t = s.withCkt C B I ∧
          (s.kind = .flex → ∀ i, (t.ifc i).cktId = (s.ifc i).cktId) ∧
          ((s.kind = .perf ∧ Unmatched s) ∨
            (s.kind = .flex ∧ (Unmatched s ∨ ∃ e ∈ s.matchable, ¬ FlexFound s e)))) ∨
        ∃ u, Paired s u ∧ (t = u ∨ t = u.repair) ∧ ¬ ValidOk u) s := by
  have hE : ∀ {α : Type} (x y : Py α) (Q : α → State → Prop) (E : Exn → State → Prop),
      x s = y s → wp y Q E s → wp x Q E s := by
    intro α x y Q E hxy h; unfold wp at *; rw [hxy]; exact h
  refine hE _ _ _ _ (validate_eq env s) ?_
  rw [wp_bind]
  cases hk : s.kind with
  | perf =>
    simp only []
    refine wp_mono (makeCircuitsPerf_spec env s hk) ?_ ?_
    · intro _ u hu
      have huk : u.kind = .perf := by
        obtain ⟨B, I, h⟩ := hu.eq
        rw [h]; exact hk
      have := validateTail_spec hu.apart
      rw [huk] at this
      refine wp_mono this ?_ ?_
      · rintro _ t ⟨h1, h2⟩; exact ⟨u, hu, h1, h2⟩
      · rintro _ t ⟨h1, h2⟩
        exact ⟨fun _ => false, fun _ => .none, .inr ⟨u, hu, h1, h2⟩⟩
    · rintro _ u ⟨⟨B, I, h⟩, -, hun⟩
      exact ⟨B, I, .inl ⟨_, h, fun h => by (cases h), .inl ⟨trivial, hun⟩⟩⟩
  | flex =>
    simp only []
    refine wp_mono (makeCircuitsFlex_spec env s hk) ?_ ?_
    · intro _ u hu
      have huk : u.kind = .flex := by
        obtain ⟨B, I, h⟩ := hu.eq
        rw [h]; exact hk
      have := validateTail_spec hu.apart
      rw [huk] at this
      refine wp_mono this ?_ ?_
      · rintro _ t ⟨h1, h2⟩; exact ⟨u, hu, h1, h2⟩
      · rintro _ t ⟨h1, h2⟩
        exact ⟨fun _ => false, fun _ => .none, .inr ⟨u, hu, h1, h2⟩⟩
    · rintro _ u ⟨⟨B, I, h⟩, -, hid, hun⟩
      exact ⟨B, I, .inl ⟨_, h, fun _ => hid, .inr ⟨trivial, hun⟩⟩⟩

end NTM
