import Verif.Spec.Accept
import Verif.Props.Validation
import Verif.Proof.SimTotal

/-!
# C112: which models `validate_model()` accepts
-/

namespace NTM

open Spec

/-- the hops of LSP `l` with the bandwidth it holds -/
def hopsHeld (s : State) (l : ℕ) : List (ℕ × ℚ) :=
  match (s.lsp l).path, (s.lsp l).reserved with
  | .routed hops _ _, .val q => hops.map fun i => (i, pyRound 1 q)
  | _, _ => []

theorem lspHops_iff (s : State) (info : List (ℕ × ℚ)) :
    s.lspHops = .ok info ↔ (∀ l ∈ s.lsps, RouteFits s l) ∧ info = s.lsps.flatMap (hopsHeld s) := by
  have key : ∀ (L : List ℕ) (acc : List (ℕ × ℚ)),
      ((L.filter fun l => !(s.lsp l).path.saysUnrouted).foldlM (init := acc) fun acc l =>
        match (s.lsp l).path with
        | .routed ifs _ _ =>
          match ifs, (s.lsp l).reserved with
          | [], _ => Except.ok acc
          | _, .val q =>
            if ifs.all fun i => s.ifs.any fun j => s.ifcKey j = s.ifcKey i then
              .ok (acc ++ ifs.map fun i => (i, pyRound 1 q))
            else .error Exn.keyError
          | _, _ => .error Exn.typeError
        | _ => .error Exn.keyError) = .ok info ↔
      (∀ l ∈ L, RouteFits s l) ∧ info = acc ++ L.flatMap (hopsHeld s) := by
    intro L
    induction L with
    | nil =>
      intro acc
      simp only [List.filter_nil, List.foldlM_nil, List.flatMap_nil, List.append_nil]
      constructor
      · intro h; cases h; exact ⟨by simp, rfl⟩
      · rintro ⟨-, rfl⟩; rfl
    | cons l L ih =>
      intro acc
      simp only [List.forall_mem_cons, List.flatMap_cons]
      cases hp : (s.lsp l).path with
      | initial =>
        rw [List.filter_cons_of_neg (by simp [hp, LspPath.saysUnrouted]), ih]
        simp [RouteFits, hopsHeld, hp]
      | unrouted =>
        rw [List.filter_cons_of_neg (by simp [hp, LspPath.saysUnrouted]), ih]
        simp [RouteFits, hopsHeld, hp]
      | blank =>
        rw [List.filter_cons_of_pos (by simp [hp, LspPath.saysUnrouted]), List.foldlM_cons]
        simp only [hp]
        constructor
        · intro h; cases h
        · rintro ⟨⟨h, -⟩, -⟩; simp [RouteFits, hp] at h
      | routed hops c q0 =>
        rw [List.filter_cons_of_pos (by simp [hp, LspPath.saysUnrouted]), List.foldlM_cons]
        simp only [hp]
        cases hops with
        | nil =>
          show (List.foldlM _ acc _ = _) ↔ _
          rw [ih]
          have : hopsHeld s l = [] := by
            unfold hopsHeld; rw [hp]; cases (s.lsp l).reserved <;> rfl
          simp [RouteFits, hp, this]
        | cons a hops =>
          cases hr : (s.lsp l).reserved with
          | initial =>
            constructor
            · intro h; cases h
            · rintro ⟨⟨h, -⟩, -⟩; simp [RouteFits, hp, hr] at h
          | unrouted =>
            constructor
            · intro h; cases h
            · rintro ⟨⟨h, -⟩, -⟩; simp [RouteFits, hp, hr] at h
          | val q =>
            have hs : RouteFits s l ↔
                ((a :: hops).all fun i => s.ifs.any fun j => s.ifcKey j = s.ifcKey i) = true := by
              simp [RouteFits, hp, hr]
            have ho : hopsHeld s l = (a :: hops).map fun i => (i, pyRound 1 q) := by
              unfold hopsHeld; rw [hp, hr]
            by_cases hall : ((a :: hops).all fun i =>
                s.ifs.any fun j => s.ifcKey j = s.ifcKey i) = true
            · simp only [hall, if_true]
              show (List.foldlM _ (acc ++ (a :: hops).map fun i => (i, pyRound 1 q)) _ = _) ↔ _
              rw [ih, ho, hs]
              simp only [hall, true_and, List.append_assoc]
            · simp only [hall]
              constructor
              · intro h; cases h
              · rintro ⟨⟨h, -⟩, -⟩; exact absurd (hs.1 h) hall
  exact (key s.lsps []).trans (by simp)

theorem infoReserved_hops (s : State) (i : ℕ) :
    s.infoReserved (s.lsps.flatMap (hopsHeld s)) i = (s.lsps.map fun l => booked s l i).sum := by
  unfold State.infoReserved
  induction s.lsps with
  | nil => rfl
  | cons l L ih =>
    rw [List.flatMap_cons, List.filter_append, List.map_append, List.sum_append, ih, List.map_cons,
      List.sum_cons]
    congr 1
    unfold hopsHeld Spec.booked
    cases (s.lsp l).path with
    | routed hops c q0 =>
      cases (s.lsp l).reserved with
      | val q =>
        simp only []
        induction hops with
        | nil => simp
        | cons a hops ih =>
          by_cases h : s.ifcKey a = s.ifcKey i
          · rw [List.map_cons, List.filter_cons_of_pos (by simpa using h), List.map_cons,
              List.sum_cons, ih, List.countP_cons_of_pos (by simpa using h)]
            push_cast
            ring
          · rw [List.map_cons, List.filter_cons_of_neg (by simpa using h), ih,
              List.countP_cons_of_neg (by simpa using h)]
      | initial => rfl
      | unrouted => rfl
    | initial => rfl
    | unrouted => rfl
    | blank => rfl

theorem names_iff (s : State) : s.nodes.length = s.nodeNames.dedup.length ↔ s.nodeNames.Nodup := by
  have hl : s.nodes.length = s.nodeNames.length := by
    unfold State.nodeNames; rw [List.length_map]
  rw [hl]
  constructor
  · intro h
    have := (List.dedup_sublist s.nodeNames).eq_of_length h.symm
    rw [← this]
    exact List.nodup_dedup _
  · intro h; rw [h.dedup]

theorem links_of_multipleLinks {s : State} (h : s.multipleLinks = []) : ∀ i ∈ s.ifs, ∀ j ∈ s.ifs,
    s.tail i ++ "-" ++ s.head i = s.tail j ++ "-" ++ s.head j → i = j := by
  unfold State.multipleLinks at h
  simp only [List.filter_eq_nil_iff, decide_eq_true_eq] at h
  have hn : (s.ifs.map fun i => s.tail i ++ "-" ++ s.head i).Nodup := by
    rw [List.nodup_iff_count_le_one]
    intro c
    by_cases hc : c ∈ s.ifs.map fun i => s.tail i ++ "-" ++ s.head i
    · exact not_lt.1 (h c hc)
    · rw [List.count_eq_zero_of_not_mem hc]; exact Nat.zero_le _
  intro i hi j hj he
  exact List.inj_on_of_nodup_map hn hi hj he

theorem core_iff {s : State} (hn : s.ifs.Nodup) : ValidCore s ↔
    s.nodeNames.Nodup ∧ (∀ i ∈ s.ifs, s.reservedBw i ≤ (s.ifc i).capacity) ∧
    (∀ l ∈ s.lsps, RouteFits s l) ∧
    (∀ i ∈ s.ifs, s.reservedBw i = pyRound 1 (s.lsps.map fun l => booked s l i).sum) ∧
    (s.kind = .perf → NoShortcuts s) ∧
    (s.kind = .perf → ∀ i ∈ s.ifs, ∀ j ∈ s.ifs,
      s.tail i ++ "-" ++ s.head i = s.tail j ++ "-" ++ s.head j → i = j) := by
  have hrr : ∀ i, pyRound 1 (s.reservedBw i) = s.reservedBw i := fun i => by
    unfold State.reservedBw; exact pyRound_pyRound _ _
  constructor
  · intro h
    obtain ⟨info, h1, h2⟩ := h.hops
    obtain ⟨h3, rfl⟩ := (lspHops_iff s info).1 h1
    refine ⟨(names_iff s).1 h.names, h.cap, h3, fun i hi => ?_, h.shortcuts,
      fun hk => links_of_multipleLinks (h.links hk)⟩
    rw [← hrr, h2 i hi, infoReserved_hops]
  · rintro ⟨h1, h2, h3, h4, h5, h6⟩
    refine ⟨⟨_, (lspHops_iff s _).2 ⟨h3, rfl⟩, fun i hi => ?_⟩, h2, h5,
      fun hk => multipleLinks_nil hn (h6 hk), (names_iff s).2 h1⟩
    rw [hrr, infoReserved_hops, h4 i hi]

/-- **C112** `validate_model()` accepts exactly the models that follow the rules `Accepted`,
whatever order sets are iterated in. -/
theorem C112_accepted_iff {env : Env} {s : State} (hn : s.ifs.Nodup) (hset : CktIdsSet s) :
    (∃ t, validate env s = .ok () t) ↔ Accepted s := by
  constructor
  · rintro ⟨t, h⟩
    obtain ⟨u, hu, -, hv⟩ := validate_well hset h
    obtain ⟨B, I, he⟩ := hu.eq
    have hcap : ∀ i, (u.ifc i).capacity = (s.ifc i).capacity := by intro i; rw [he]; rfl
    obtain ⟨h1, h2, h3, h4, h5, h6⟩ := (core_iff hn).1 (hu.core.1 hv.core)
    refine ⟨h1, h2, h3, h4, h5, h6, ?_, ?_, ?_⟩
    · intro hk i hi hr j hj e1 e2 e3
      obtain ⟨⟨a, l, ha⟩, -⟩ := hu.found hk i (mem_matchable.2 ⟨hi, hr⟩)
      have := ((ifcsFromNodes_some ha).2.2.2 (hset hk i hi)).2
      rw [this i hi rfl rfl rfl, this j hj e1.symm e2.symm e3.symm]
    · intro i hi hr
      obtain ⟨j, hj, e1, e2⟩ := hu.rev i (mem_matchable.2 ⟨hi, hr⟩)
      exact ⟨j, (mem_matchable.1 hj).1, (mem_matchable.1 hj).2, e1, e2⟩
    · intro i hi hr
      have hm := mem_matchable.2 ⟨hi, hr⟩
      obtain ⟨c, hc, hic⟩ := hu.cover hu.single hset i hm
      have hend := hu.ends c hc
      have hop := hu.opposite hc
      have hcc := hv.capacity c hc
      rw [hcap, hcap] at hcc
      rcases hic with rfl | rfl
      · exact ⟨c.2, hend.2.1, hop, hcc, fun k hk ho => hu.unique hm hk hend.2.1 ho hop⟩
      · have hop := opposite_symm hop
        exact ⟨c.1, hend.1, hop, hcc.symm, fun k hk ho => hu.unique hm hk hend.1 ho hop⟩
  · intro ha
    have hcore : ValidCore s :=
      (core_iff hn).2 ⟨ha.names, ha.within, ha.signalled, ha.booked, ha.shortcuts, ha.links⟩
    have hsing : s.kind = .perf → SingleLinks s := fun hk => single_of_multipleLinks (hcore.links hk)
    obtain ⟨u, -, h⟩ := validate_complete env (s := s)
      (by
        rintro ⟨i, hi, hno⟩
        obtain ⟨j, hj, hr, e1, e2⟩ := ha.back i (mem_matchable.1 hi).1 (mem_matchable.1 hi).2
        exact hno ⟨j, mem_matchable.2 ⟨hj, hr⟩, e1, e2⟩)
      (by
        intro hk e he
        obtain ⟨hi, hr⟩ := mem_matchable.1 he
        obtain ⟨j, hj, ho, -, hu⟩ := ha.twin e hi hr
        have hne := hset hk e hi
        have found : ∀ (u v : String) (a : ℕ), a ∈ s.ifs → s.tail a = u → s.head a = v →
            (s.ifc a).cktId = (s.ifc e).cktId →
            (∀ b ∈ s.ifs, s.tail b = u → s.head b = v → (s.ifc b).cktId = (s.ifc e).cktId → b = a) →
            ∃ a l, s.ifcsFromNodes u v (s.ifc e).cktId = some (a :: l) := by
          intro u v a ha h1 h2 h3 h4
          have hf : (s.ifs.filter fun i => s.tail i = u && s.head i = v &&
              (s.ifc i).cktId = (s.ifc e).cktId) = [a] := by
            refine List.perm_singleton.1 ((List.perm_ext_iff_of_nodup (hn.filter _)
              (List.nodup_singleton a)).2 fun x => ?_)
            simp only [List.mem_filter, List.mem_singleton, Bool.and_eq_true, decide_eq_true_eq]
            constructor
            · rintro ⟨hx, ⟨e1, e2⟩, e3⟩; exact h4 x hx e1 e2 e3
            · rintro rfl; exact ⟨ha, ⟨h1, h2⟩, h3⟩
          refine ⟨a, [], ?_⟩
          unfold State.ifcsFromNodes
          split
          · exact absurd ‹_› hne
          · simp only [hf, List.length_singleton, lt_irrefl, if_false]
        refine ⟨found _ _ e hi rfl rfl rfl fun b hb e1 e2 e3 =>
          (ha.ids hk e hi hr b hb e1.symm e2.symm e3.symm).symm, ?_⟩
        exact found _ _ j hj ho.2.1.symm ho.1.symm (ho.2.2 hk).symm fun b hb e1 e2 e3 =>
          hu b hb ⟨e2.symm, e1.symm, fun _ => e3.symm⟩)
      (by
        intro u hu
        obtain ⟨B, I, he⟩ := hu.eq
        have hcap : ∀ i, (u.ifc i).capacity = (s.ifc i).capacity := by intro i; rw [he]; rfl
        refine ValidCore.ok (hu.core.2 hcore) ?_
        intro c hc
        have hw : PairedWell s u := { hu with single := hsing, set := hset }
        obtain ⟨hi, hr⟩ := mem_matchable.1 (hw.first hc)
        obtain ⟨j, hj, ho, e1, e2⟩ := ha.twin c.1 hi hr
        rw [hcap, hcap, e2 c.2 (hu.ends c hc).2.1 (hw.opposite hc)]
        exact e1)
    exact ⟨_, h⟩

/-- An LSP of 4 over the circuit A–B, whose interfaces have 10; C is cut off.  `res` is the
bandwidth reserved on A→B. -/
def Ex.bookkeeping (k : Kind) (res : ℚ) : State := Ex.mk k
  [{ name := "A" }, { name := "B" }, { name := "C" }]
  [{ name := "x", cost := 1, capacity := 10, node := 0, remote := 1, cktId := .num 1,
     reservedRaw := res },
   { name := "y", cost := 1, capacity := 10, node := 1, remote := 0, cktId := .num 1 }]
  [] [{ src := 0, dst := 1, name := "l", path := .routed [0] 1 10, reserved := .val 4 },
      { src := 0, dst := 2, name := "m", path := .unrouted, reserved := .unrouted }] []

example (k : Kind) : Accepted (Ex.bookkeeping k 4) ∧ ¬ Accepted (Ex.bookkeeping k 3) := by
  have h : ∀ res, (Ex.bookkeeping k res).ifs.Nodup ∧ CktIdsSet (Ex.bookkeeping k res) := by
    intro res
    refine ⟨by show [0, 1].Nodup; decide, fun _ i hi => ?_⟩
    have : i = 0 ∨ i = 1 := by
      have hi : i ∈ [0, 1] := hi
      simpa using hi
    rcases this with rfl | rfl <;> exact CktId.noConfusion
  refine ⟨(C112_accepted_iff (env := Env.default) (h 4).1 (h 4).2).1 ?_, fun ha => ?_⟩
  · exact ⟨_, ok_of_raised (by cases k <;> decide +kernel)⟩
  · obtain ⟨t, ht⟩ := (C112_accepted_iff (env := Env.default) (h 3).1 (h 3).2).2 ha
    have hr : raised (validate Env.default) (Ex.bookkeeping k 3) =
        some (.model "network interface validation failed, see returned data") := by
      cases k <;> decide +kernel
    unfold raised at hr
    rw [ht] at hr
    cases hr

/-- **C112** Whether a model is accepted does not depend on the order sets are iterated in. -/
theorem C112_order {env env' : Env} {s : State} (hn : s.ifs.Nodup) (hset : CktIdsSet s) :
    (∃ t, validate env s = .ok () t) ↔ ∃ t, validate env' s = .ok () t :=
  (C112_accepted_iff hn hset).trans (C112_accepted_iff hn hset).symm

/-- **C112** Read as a FlexModel, an accepted PerformanceModel is accepted when the two
directions of every circuit carry the same circuit id. -/
theorem C112_performance_as_flex {env env' : Env} {s t : State} (hn : s.ifs.Nodup)
    (hk : s.kind = .perf) (hids : ∀ i ∈ s.ifs, ∀ j ∈ s.ifs, Opposite s i j →
      (s.ifc i).cktId = (s.ifc j).cktId)
    (hset : ∀ i ∈ s.ifs, (s.ifc i).cktId ≠ .none) (h : validate env s = .ok () t) :
    ∃ t', validate env' { s with kind := .flex } = .ok () t' := by
  have ha := (C112_accepted_iff (env := env) hn (fun h => by rw [hk] at h; cases h)).1 ⟨t, h⟩
  refine (C112_accepted_iff (s := { s with kind := .flex }) hn (fun _ i hi => hset i hi)).2 ?_
  have hsing : ∀ i ∈ s.ifs, ∀ j ∈ s.ifs, s.tail i = s.tail j → s.head i = s.head j → i = j :=
    fun i hi j hj e1 e2 => ha.links hk i hi j hj (by rw [e1, e2])
  refine ⟨ha.names, ha.within, ha.signalled, ha.booked, fun h => (nomatch h), fun h => (nomatch h),
    fun _ i hi _ j hj e1 e2 _ => hsing i hi j hj e1 e2, ha.back, fun i hi hr => ?_⟩
  obtain ⟨j, hj, ho, hc, -⟩ := ha.twin i hi hr
  refine ⟨j, hj, ⟨ho.1, ho.2.1, fun _ => hids i hi j hj ho⟩, hc, fun k hkm hok => ?_⟩
  exact hsing k hkm j hj (hok.2.1.symm.trans ho.2.1) (hok.1.symm.trans ho.1)

example : (∀ i ∈ (Ex.square .perf).ifs, ∀ j ∈ (Ex.square .perf).ifs, Opposite (Ex.square .perf) i j →
      ((Ex.square .perf).ifc i).cktId = ((Ex.square .perf).ifc j).cktId) ∧
    (∀ i ∈ (Ex.square .perf).ifs, ((Ex.square .perf).ifc i).cktId ≠ .none) ∧
    raised (validate Env.default) (Ex.square .perf) = none := by
  refine ⟨?_, by decide +kernel, by decide +kernel⟩
  unfold Opposite
  decide +kernel

/-- The circuit A–B with IGP shortcuts enabled on A. -/
def Ex.shortcutOn (k : Kind) : State := Ex.mk k
  [{ name := "A", shortcuts := true }, { name := "B" }] (Ex.link "p" 0 1 10 100 1) [] [] []

/-- **C112** The documentation says a PerformanceModel ignores `igp_shortcuts_enabled`; it rejects
the model instead. -/
theorem C112_shortcuts_ignored_false :
    raised (validate Env.default) (Ex.shortcutOn .perf) =
      some (.model "network interface validation failed, see returned data") ∧
    raised (validate Env.default) (Ex.shortcutOn .flex) = none :=
  ⟨by decide +kernel, by decide +kernel⟩

end NTM
