import Std.Data.String.ToInt
import Verif.Proof.Blind
import Verif.Proof.ShortcutLsps
import Verif.Props.Objects
import Verif.Props.Weather
import Verif.Props.Registry

/-!
# C86 and C87: what the map page highlights and reports
-/

namespace NTM

open Spec

/-! ## Lemmas -/

theorem shownHops_ok {s : State} {l : ℕ} (h : IsRouted s l) :
    ∃ is, lspHops s l = .ok is ∧ ∀ i, i ∈ is ↔ OnPath s l i := by
  obtain ⟨is, c, hd, e⟩ := h
  refine ⟨is, by unfold lspHops; rw [e], fun i => ⟨fun hi => ⟨is, c, hd, e, hi⟩, ?_⟩⟩
  rintro ⟨is', c', hd', e', hi⟩
  rw [e] at e'
  cases e'
  exact hi

theorem litHops_ok {s : State} (p : List Item) (h : ∀ l, Item.lsp l ∈ p → IsRouted s l) :
    ∃ r, litHops s p = .ok r ∧
      (∀ x, x ∈ r.1 ↔ ∃ i, x = .ifc i ∧ (Item.ifc i ∈ p ∨ ∃ l, Item.lsp l ∈ p ∧ OnPath s l i)) ∧
      ∀ l, l ∈ r.2 ↔ Item.lsp l ∈ p := by
  induction p with
  | nil => exact ⟨_, rfl, by simp, by simp⟩
  | cons a p ih =>
    obtain ⟨r, hr, h1, h2⟩ := ih fun l hl => h l (List.mem_cons_of_mem _ hl)
    cases a with
    | ifc j =>
      refine ⟨_, by unfold litHops; rw [hr]; rfl, ?_, ?_⟩
      · intro x
        simp only [List.mem_cons, h1]
        constructor
        · rintro (rfl | ⟨i, rfl, hi⟩)
          · exact ⟨j, rfl, .inl (.inl rfl)⟩
          · refine ⟨i, rfl, ?_⟩
            rcases hi with hi | ⟨l, hl, ho⟩
            · exact .inl (.inr hi)
            · exact .inr ⟨l, .inr hl, ho⟩
        · rintro ⟨i, rfl, hi⟩
          rcases hi with (hi | hi) | ⟨l, hl | hl, ho⟩
          · cases hi; exact .inl rfl
          · exact .inr ⟨i, rfl, .inl hi⟩
          · cases hl
          · exact .inr ⟨i, rfl, .inr ⟨l, hl, ho⟩⟩
      · intro l
        simp [h2]
    | lsp k =>
      obtain ⟨is, hk, hon⟩ := shownHops_ok (h k (by simp))
      refine ⟨_, by unfold litHops; rw [hk, hr]; rfl, ?_, ?_⟩
      · intro x
        simp only [List.mem_append, List.mem_map, List.mem_cons, h1]
        constructor
        · rintro (⟨i, hi, rfl⟩ | ⟨i, rfl, hi⟩)
          · exact ⟨i, rfl, .inr ⟨k, .inl rfl, (hon i).1 hi⟩⟩
          · refine ⟨i, rfl, ?_⟩
            rcases hi with hi | ⟨l, hl, ho⟩
            · exact .inl (.inr hi)
            · exact .inr ⟨l, .inr hl, ho⟩
        · rintro ⟨i, rfl, hi⟩
          rcases hi with (hi | hi) | ⟨l, hl | hl, ho⟩
          · cases hi
          · exact .inr ⟨i, rfl, .inl hi⟩
          · cases hl; exact .inl ⟨i, (hon i).2 ho, rfl⟩
          · exact .inr ⟨i, rfl, .inr ⟨l, hl, ho⟩⟩
      · intro l
        simp [h2]

theorem litPaths_ok {s : State} (ps : List (List Item))
    (h : ∀ p ∈ ps, ∀ l, Item.lsp l ∈ p → IsRouted s l) :
    ∃ r, litPaths s ps = .ok r ∧
      (∀ x, x ∈ r.1 ↔ ∃ i, x = .ifc i ∧
        ∃ p ∈ ps, Item.ifc i ∈ p ∨ ∃ l, Item.lsp l ∈ p ∧ OnPath s l i) ∧
      ∀ l, l ∈ r.2 ↔ ∃ p ∈ ps, Item.lsp l ∈ p := by
  induction ps with
  | nil => exact ⟨_, rfl, by simp, by simp⟩
  | cons p ps ih =>
    obtain ⟨r, hr, h1, h2⟩ := litHops_ok p (h p (by simp))
    obtain ⟨q, hq, h3, h4⟩ := ih fun p hp => h p (List.mem_cons_of_mem _ hp)
    refine ⟨_, by unfold litPaths; rw [hr, hq]; rfl, ?_, ?_⟩
    · intro x
      simp only [List.mem_append, h1, h3, List.mem_cons, exists_eq_or_imp]
      constructor
      · rintro (⟨i, rfl, hi⟩ | ⟨i, rfl, hi⟩)
        · exact ⟨i, rfl, .inl hi⟩
        · exact ⟨i, rfl, .inr hi⟩
      · rintro ⟨i, rfl, hi | hi⟩
        · exact .inl ⟨i, rfl, hi⟩
        · exact .inr ⟨i, rfl, hi⟩
    · intro l
      simp [h2, h4]

/-- every demand of the list is routed, and so is every LSP it rides -/
def AllRouted (s : State) (ds : List ℕ) : Prop :=
  ∀ d ∈ ds, ∃ ps, (s.dmd d).path = some ps ∧ ∀ p ∈ ps, ∀ l, Item.lsp l ∈ p → IsRouted s l

theorem findLit_ok {s : State} (ds : List ℕ) (h : AllRouted s ds) :
    ∃ r, findLit s ds = .ok r ∧ (∀ x, x ∈ r.1 ↔ ∃ i, x = .ifc i ∧ ∃ d ∈ ds, Crosses s d i) ∧
      ∀ l, l ∈ r.2 ↔ ∃ d ∈ ds, RidesThe s d l := by
  induction ds with
  | nil => exact ⟨_, rfl, by simp, by simp⟩
  | cons d ds ih =>
    obtain ⟨ps, hps, hl⟩ := h d (by simp)
    obtain ⟨r, hr, h1, h2⟩ := litPaths_ok ps hl
    obtain ⟨q, hq, h3, h4⟩ := ih fun p hp => h p (List.mem_cons_of_mem _ hp)
    have hc : ∀ i, Crosses s d i ↔
        ∃ p ∈ ps, Item.ifc i ∈ p ∨ ∃ l, Item.lsp l ∈ p ∧ OnPath s l i := by
      intro i
      unfold Crosses
      constructor
      · rintro ⟨ps', e, hx⟩
        rw [hps] at e; cases e; exact hx
      · intro hx; exact ⟨ps, hps, hx⟩
    have hrd : ∀ l, RidesThe s d l ↔ ∃ p ∈ ps, Item.lsp l ∈ p := by
      intro l
      unfold RidesThe
      constructor
      · rintro ⟨ps', p, e, hp, hx⟩
        rw [hps] at e; cases e; exact ⟨p, hp, hx⟩
      · rintro ⟨p, hp, hx⟩; exact ⟨ps, p, hps, hp, hx⟩
    refine ⟨_, by unfold findLit; rw [hps]; simp only []; rw [hr, hq]; rfl, ?_, ?_⟩
    · intro x
      simp only [List.mem_append, h1, h3, List.mem_cons, exists_eq_or_imp, hc]
      constructor
      · rintro (⟨i, rfl, hi⟩ | ⟨i, rfl, hi⟩)
        · exact ⟨i, rfl, .inl hi⟩
        · exact ⟨i, rfl, .inr hi⟩
      · rintro ⟨i, rfl, hi | hi⟩
        · exact .inl ⟨i, rfl, hi⟩
        · exact .inr ⟨i, rfl, hi⟩
    · intro l
      simp only [List.mem_append, h2, h4, List.mem_cons, exists_eq_or_imp, hrd]

theorem litEntries_ok {α : Type} {f : ℕ → List α} (ls : List Lit) (h : ∀ x ∈ ls, ∃ i, x = .ifc i) :
    ∃ sel, litEntries f ls = .ok sel ∧ ∀ x, x ∈ sel ↔ ∃ i, Lit.ifc i ∈ ls ∧ x ∈ f i := by
  induction ls with
  | nil => exact ⟨_, rfl, by simp⟩
  | cons a ls ih =>
    obtain ⟨sel, hs, h1⟩ := ih fun x hx => h x (List.mem_cons_of_mem _ hx)
    obtain ⟨j, rfl⟩ := h a (by simp)
    refine ⟨_, by unfold litEntries; rw [hs]; rfl, fun x => ?_⟩
    simp only [List.mem_append, h1, List.mem_cons]
    constructor
    · rintro (hx | ⟨i, hi, hx⟩)
      · exact ⟨j, .inl rfl, hx⟩
      · exact ⟨i, .inr hi, hx⟩
    · rintro ⟨i, hi | hi, hx⟩
      · cases hi; exact .inl hx
      · exact .inr ⟨i, hi, hx⟩

/-- after a simulation a routed demand rides routed LSPs -/
theorem SimResult.ridden_routed {env : Env} {s s1 s' : State} {Δ : ℕ → ℕ → ℚ} (ht : Tidy s)
    (h : SimResult env s s1 s' Δ) {d : ℕ} (hd : d ∈ s.dmds) {ps : List (List Item)}
    (hp : (s'.dmd d).path = some ps) {p : List Item} (hpm : p ∈ ps) {l : ℕ}
    (hl : Item.lsp l ∈ p) : IsRouted s' l := by
  obtain ⟨hls, hsay⟩ := h.lsp_mem hd hp hpm hl
  rcases h.basic ht hls with e | ⟨is, c, hd', -, e, -⟩
  · rw [e] at hsay; cases hsay
  · exact ⟨is, c, hd', e⟩

theorem getDemand_key {s : State} (hk : (s.dmds.map fun d => (s.dmdSrc d, s.dmdDst d, (s.dmd d).name)).Nodup)
    {d : ℕ} (hd : d ∈ s.dmds) : s.getDemand (s.dmdSrc d) (s.dmdDst d) (s.dmd d).name = .ok d := by
  unfold State.getDemand
  cases hf : s.dmds.find? fun e => s.dmdKey e = (s.dmdSrc d, s.dmdDst d, (s.dmd d).name) with
  | none =>
    have := List.find?_eq_none.1 hf d hd
    exact absurd (by simp [State.dmdKey, State.dmdSrc, State.dmdDst]) this
  | some e =>
    have h1 := List.mem_of_find?_eq_some hf
    have h2 := List.find?_some hf
    rw [decide_eq_true_eq] at h2
    simp only []
    rw [List.inj_on_of_nodup_map hk h1 hd h2]

theorem getLsp_key {s : State} (hk : (s.lsps.map fun d => (s.lspSrc d, s.lspDst d, (s.lsp d).name)).Nodup)
    {d : ℕ} (hd : d ∈ s.lsps) : s.getLsp (s.lspSrc d) (s.lspDst d) (s.lsp d).name = .ok d := by
  unfold State.getLsp
  cases hf : s.lsps.find? fun e => s.lspKey e = (s.lspSrc d, s.lspDst d, (s.lsp d).name) with
  | none =>
    have := List.find?_eq_none.1 hf d hd
    exact absurd (by simp [State.lspKey, State.lspSrc, State.lspDst]) this
  | some e =>
    have h1 := List.mem_of_find?_eq_some hf
    have h2 := List.find?_some hf
    rw [decide_eq_true_eq] at h2
    simp only []
    rw [List.inj_on_of_nodup_map hk h1 hd h2]

/-! ## C86: highlighting -/

/-- an edge of the map is highlighted by one of the selectors -/
def Spec.Highlighted (sel : List Selector) (e : MapEdge) : Prop := ∃ x ∈ sel, x.selects e = true

/-- **C86** `find_demand_interfaces_and_lsps` on demands that are routed, over LSPs that are routed,
returns exactly the interfaces the demands cross, directly or inside an LSP, and the LSPs
they ride. -/
theorem C86_find_interfaces_partial {s : State} {ds : List ℕ} (h : AllRouted s ds) :
    ∃ ifs lsps, findLit s ds = .ok (ifs, lsps) ∧
      (∀ x, x ∈ ifs ↔ ∃ i, x = .ifc i ∧ ∃ d ∈ ds, Crosses s d i) ∧
      ∀ l, l ∈ lsps ↔ ∃ d ∈ ds, RidesThe s d l := by
  obtain ⟨r, h1, h2, h3⟩ := findLit_ok ds h
  exact ⟨r.1, r.2, h1, h2, h3⟩

/-- after a simulation every routed demand meets the hypothesis of C86_find_interfaces_partial -/
theorem allRouted_of_sim {env : Env} {s s' : State} (ht : Tidy s)
    (hrun : updateSimulation env s = .ok () s') {ds : List ℕ}
    (hds : ∀ d ∈ ds, d ∈ s.dmds ∧ (s'.dmd d).path ≠ none) : AllRouted s' ds := by
  obtain ⟨s1, Δ, h⟩ := sim_spec ht.dmds ht.ends ht.ckts hrun
  intro d hd
  obtain ⟨hdm, hne⟩ := hds d hd
  cases hp : (s'.dmd d).path with
  | none => exact absurd hp hne
  | some ps => exact ⟨ps, rfl, fun p hpm l hl => h.ridden_routed ht hdm hp hpm hl⟩

theorem demandEntries_ok {α : Type} {f : ℕ → List α} {env env' : Env} {s s' : State} (ht : Tidy s)
    (hk : UniqueKeys s) (hkd : KeysDistinct s) (hrun : updateSimulation env s = .ok () s') {d : ℕ}
    (hd : d ∈ s.dmds) :
    ∃ sel, demandEntries f env' s' ⟨s.dmdSrc d, s.dmdDst d, (s.dmd d).name⟩ = .ok sel ∧
      ∀ x, x ∈ sel ↔ ∃ i, Crosses s' d i ∧ x ∈ f i := by
  obtain ⟨s1, Δ, h⟩ := sim_spec ht.dmds ht.ends ht.ckts hrun
  have hc := h.cfg
  have hname : ∀ d, (s'.dmd d).name = (s.dmd d).name := by intro d; rw [hc.dmd d]
  have hget : s'.getDemand (s.dmdSrc d) (s.dmdDst d) (s.dmd d).name = .ok d := by
    rw [← hc.dmdSrc, ← hc.dmdDst, ← hname]
    refine getDemand_key ?_ (by rw [hc.dmds]; exact hd)
    have := hk.dmds
    rw [hc.dmds]
    simpa only [hc.dmdSrc, hc.dmdDst, hname] using this
  unfold demandEntries
  simp only [hget]
  cases hp : (s'.dmd d).path with
  | none =>
    refine ⟨[], by show (match (s'.dmd d).path with | none => _ | some _ => _) = _; rw [hp], ?_⟩
    intro x
    constructor
    · intro hx; cases hx
    · rintro ⟨i, ⟨ps, e, -⟩, -⟩
      rw [hp] at e; cases e
  | some ps =>
    have hg := C50_demand_groups_partial (env := env') (hc.keysDistinct hkd)
    obtain ⟨g, hgm, hgk, hgo, -⟩ := hg.one d (by rw [hc.dmds]; exact hd)
    have hgk' : g.1 = pairKey (s.dmdSrc d) (s.dmdDst d) := by
      rw [hgk, hc.dmdSrc, hc.dmdDst]; rfl
    have hdict : dictGet (s'.demandGroups env') (pairKey (s.dmdSrc d) (s.dmdDst d)) = some g.2 := by
      rw [← hgk']; exact dictGet_of_mem hg.keys hgm
    have hsame : ∀ e ∈ g.2, e ∈ s.dmds ∧ (s'.dmd e).path = (s'.dmd d).path := by
      intro e he
      obtain ⟨h1, h2, h3⟩ := (hgo e).1 he
      rw [hc.dmds] at h1
      rw [hc.dmdSrc, hc.dmdSrc] at h2
      rw [hc.dmdDst, hc.dmdDst] at h3
      have a := h.place e h1
      rw [h2, h3] at a
      exact ⟨h1, a.unique (h.place d hd)⟩
    have hall : AllRouted s' g.2 := allRouted_of_sim ht hrun fun e he =>
      ⟨(hsame e he).1, by rw [(hsame e he).2, hp]; simp⟩
    obtain ⟨r, hr, h1, -⟩ := findLit_ok g.2 hall
    obtain ⟨sel, hsel, h2⟩ := litEntries_ok (f := f) r.1 fun x hx => by
      obtain ⟨i, hi, -⟩ := (h1 x).1 hx; exact ⟨i, hi⟩
    refine ⟨sel, ?_, fun x => ?_⟩
    · show (match (s'.dmd d).path with | none => _ | some _ => _) = _
      rw [hp]
      simp only [hdict, hr]
      exact hsel
    · rw [h2]
      refine exists_congr fun i => and_congr_left fun _ => ?_
      rw [h1]
      constructor
      · rintro ⟨j, e, f, hf, hcr⟩
        cases e
        obtain ⟨ps', e, hx⟩ := hcr
        rw [(hsame f hf).2] at e
        exact ⟨ps', e, hx⟩
      · intro hcr
        exact ⟨i, rfl, d, (hgo d).2 ⟨by rw [hc.dmds]; exact hd, rfl, rfl⟩, hcr⟩

theorem CktId.text_num {m n : ℤ} (h : (CktId.num m).text = (CktId.num n).text) : m = n :=
  Int.repr_injective h

/-- in a PerformanceModel circuit ids on a node read differently after a simulation -/
theorem perf_textIds {env : Env} {s s' : State} (ht : Tidy s)
    (hrun : updateSimulation env s = .ok () s') (hk : s'.kind = .perf)
    (hres : ∀ i ∈ s'.ifs, 0 ≤ s'.reservable i) : TextIdsUnique s' := by
  obtain ⟨s1, Δ, h⟩ := sim_spec ht.dmds ht.ends ht.ckts hrun
  obtain ⟨s3, hpair, hset, hkd, hifs, htl, hhd, hrs⟩ := h.ckt
  have hk3 : s3.kind = .perf := by rw [hkd]; exact hk
  have hsingle : SingleLinks s' := h.cfg.singleLinks_iff.2 (h.single (by rw [← h.cfg.kind]; exact hk))
  have hsingle3 : s3.kind = .perf → SingleLinks s3 := by
    intro _
    unfold SingleLinks at hsingle ⊢
    rw [hifs, htl, hhd]
    exact hsingle
  have hin : ∀ i ∈ s'.ifs, ∃ c ∈ s'.circuits, IsEnd i c ∧
      (s'.ifc i).cktId = (s'.ifc c.1).cktId ∧ s'.tail c.1 = s'.head c.2 ∧
      s'.head c.1 = s'.tail c.2 := by
    intro i hi
    obtain ⟨c, hc, hend⟩ := hpair.cover hsingle3 hset i (by
      rw [mem_matchable, hifs, hrs]; exact ⟨hi, hres i hi⟩)
    obtain ⟨-, -, e1, e2⟩ := hpair.ends c hc
    rw [htl, hhd] at e1 e2
    refine ⟨c, hc, hend, ?_, e1, e2⟩
    rcases hend with rfl | rfl
    · rfl
    · exact (hpair.sameId hset c hc).symm
  intro i hi j hj htail htext
  obtain ⟨c, hc, hci, hcid, ho1, ho2⟩ := hin i hi
  obtain ⟨d, hd, hdj, hdid, -, -⟩ := hin j hj
  obtain ⟨hnum, hpw, -⟩ := hpair.numIds hk3
  obtain ⟨m, hm⟩ := hnum c hc
  obtain ⟨n, hn⟩ := hnum d hd
  have hcd : c = d := by
    by_contra hne
    have : Std.Symm fun c d : ℕ × ℕ => (s'.ifc c.1).cktId ≠ (s'.ifc d.1).cktId :=
      ⟨fun _ _ h => h.symm⟩
    refine hpw.forall hc hd hne ?_
    rw [hcid, hm, hdid, hn] at htext
    rw [hm, hn, CktId.text_num htext]
  subst hcd
  rcases hci with e1 | e1 <;> rcases hdj with e2 | e2
  · rw [e1, e2]
  · rw [← e1, ← e2] at ho1 ho2
    exact hsingle i hi j hj htail (by rw [ho2, ← htail, ho1])
  · rw [← e1, ← e2] at ho1 ho2
    exact hsingle i hi j hj htail (by rw [← ho1, ← htail, ho2])
  · rw [e1, e2]

/-- circuit ids that are numbers read differently -/
theorem num_textIds {s : State} (hu : IdsUniquePerNode s)
    (hnum : ∀ i ∈ s.ifs, ∃ m, (s.ifc i).cktId = .num m) : TextIdsUnique s := by
  intro i hi j hj ht he
  obtain ⟨m, hm⟩ := hnum i hi
  obtain ⟨n, hn⟩ := hnum j hj
  rw [hm, hn] at he
  exact hu i hi j hj ht (by rw [hm, hn, CktId.text_num he])

/-- the selectors of a set `P` of interfaces of the model highlight exactly the edges of these
interfaces and of their remote interfaces -/
theorem highlighted_iff {env : Env} {s s' : State} (ht : Tidy s)
    (hrun : updateSimulation env s = .ok () s') (hres : ∀ i ∈ s'.ifs, 0 ≤ s'.reservable i)
    (htext : s.kind = .flex → TextIdsUnique s') {P : ℕ → Prop} (hP : ∀ i, P i → i ∈ s'.ifs) {sel : List Selector}
    (hsel : ∀ x, x ∈ sel ↔ ∃ i, P i ∧ x ∈ ifcSelectors s' i) {i : ℕ} (hi : i ∈ s'.ifs)
    {e : MapEdge} (he : Shows s' i e) :
    Highlighted sel e ↔ P i ∨ ∃ j, P j ∧ Opposite s' i j := by
  obtain ⟨s1, Δ, h⟩ := sim_spec ht.dmds ht.ends ht.ckts hrun
  obtain ⟨s3, hpair, hset, hkd, hifs, htl, hhd, hrs⟩ := h.ckt
  have htext : TextIdsUnique s' := by
    cases hk : s.kind with
    | flex => exact htext hk
    | perf => exact perf_textIds ht hrun (by rw [h.cfg.kind]; exact hk) hres
  have hsingle : s'.kind = .perf → SingleLinks s' := fun hk =>
    h.cfg.singleLinks_iff.2 (h.single (by rw [← h.cfg.kind]; exact hk))
  have hsingle3 : s3.kind = .perf → SingleLinks s3 := by
    intro hk
    have := hsingle (by rw [← hkd]; exact hk)
    unfold SingleLinks at this ⊢
    rw [hifs, htl, hhd]
    exact this
  -- every interface has a partner with the same id
  have partner : ∀ j ∈ s'.ifs, ∃ k ∈ s'.ifs, s'.tail k = s'.head j ∧ s'.head k = s'.tail j ∧
      (s'.ifc k).cktId = (s'.ifc j).cktId := by
    intro j hj
    obtain ⟨c, hc, hend⟩ := hpair.cover hsingle3 hset j (by
      rw [mem_matchable, hifs, hrs]; exact ⟨hj, hres j hj⟩)
    obtain ⟨a, b, e1, e2⟩ := hpair.ends c hc
    rw [hifs] at a b
    rw [htl, hhd] at e1 e2
    have e3 := hpair.sameId hset c hc
    rcases hend with rfl | rfl
    · exact ⟨c.2, b, e2.symm, e1.symm, e3.symm⟩
    · exact ⟨c.1, a, e1, e2, e3⟩
  have opp_id : ∀ j ∈ s'.ifs, Opposite s' i j → (s'.ifc i).cktId = (s'.ifc j).cktId := by
    intro j hj ho
    cases hk : s'.kind with
    | flex => exact ho.2.2 hk
    | perf =>
      obtain ⟨k, hkm, k1, k2, k3⟩ := partner j hj
      rw [← k3]
      rw [hsingle hk i hi k hkm (by rw [ho.1, k1]) (by rw [ho.2.1, k2])]
  unfold Highlighted
  constructor
  · rintro ⟨x, hx, hs⟩
    obtain ⟨j, hj, hxj⟩ := (hsel x).1 hx
    unfold Selector.selects at hs
    rw [Bool.and_eq_true, decide_eq_true_eq, decide_eq_true_eq, he.cktId, he.source] at hs
    unfold ifcSelectors at hxj
    simp only [List.mem_cons, List.not_mem_nil, or_false] at hxj
    rcases hxj with rfl | rfl
    · rw [htext i hi j (hP j hj) hs.2 hs.1]
      exact .inl hj
    · right
      obtain ⟨k, hkm, k1, k2, k3⟩ := partner j (hP j hj)
      have : i = k := htext i hi k hkm (by rw [hs.2, k1]) (by rw [hs.1, k3])
      subst this
      exact ⟨j, hj, k1, k2, fun _ => k3⟩
  · have sel_own : ∀ j, P j → s'.tail i = s'.tail j ∨ s'.tail i = s'.head j →
        (s'.ifc i).cktId = (s'.ifc j).cktId → ∃ x ∈ sel, x.selects e = true := by
      intro j hj hend hid
      rcases hend with hend | hend
      · refine ⟨⟨(s'.ifc j).cktId.text, s'.tail j⟩, (hsel _).2 ⟨j, hj, by simp [ifcSelectors]⟩, ?_⟩
        unfold Selector.selects
        rw [Bool.and_eq_true, decide_eq_true_eq, decide_eq_true_eq, he.cktId, he.source, hid]
        exact ⟨rfl, hend⟩
      · refine ⟨⟨(s'.ifc j).cktId.text, s'.head j⟩, (hsel _).2 ⟨j, hj, by simp [ifcSelectors]⟩, ?_⟩
        unfold Selector.selects
        rw [Bool.and_eq_true, decide_eq_true_eq, decide_eq_true_eq, he.cktId, he.source, hid]
        exact ⟨rfl, hend⟩
    rintro (hi' | ⟨j, hj, ho⟩)
    · exact sel_own i hi' (.inl rfl) rfl
    · exact sel_own j hj (.inr ho.1) (opp_id j (hP j hj) ho)

/-- **C86** (part: the circuit ids of a FlexModel on a node read differently, the names of pairs do
not collide, no interface has negative reservable bandwidth) After a simulation, selecting a demand highlights exactly the
edges of the interfaces that this demand crosses and the edges back; nothing if it is
unrouted. -/
theorem C86_demand_edges_partial {env env' : Env} {s s' : State} (ht : Tidy s) (hk : UniqueKeys s)
    (hkd : KeysDistinct s) (hrun : updateSimulation env s = .ok () s')
    (hres : ∀ i ∈ s'.ifs, 0 ≤ s'.reservable i) (htext : s.kind = .flex → TextIdsUnique s') {d : ℕ}
    (hd : d ∈ s.dmds) :
    ∃ sel, demandSelectors env' s' ⟨s.dmdSrc d, s.dmdDst d, (s.dmd d).name⟩ = .ok sel ∧
      ∀ i ∈ s'.ifs, ∀ e, Shows s' i e →
        (Highlighted sel e ↔ Crosses s' d i ∨ ∃ j, Crosses s' d j ∧ Opposite s' i j) := by
  obtain ⟨sel, h1, h2⟩ := demandEntries_ok (f := ifcSelectors s') (env' := env') ht hk hkd hrun hd
  refine ⟨sel, h1, fun i hi e he => highlighted_iff ht hrun hres htext ?_ h2 hi he⟩
  obtain ⟨s1, Δ, h⟩ := sim_spec ht.dmds ht.ends ht.ckts hrun
  rintro j ⟨ps, hp, p, hpm, hj | ⟨l, hl, is, c, hd', e, hj⟩⟩
  · exact (demand_not_failed ht hrun (by rw [h.cfg.dmds]; exact hd) hp hpm hj).1
  · rcases h.basic ht (h.lsp_mem hd hp hpm hl).1 with e' | ⟨p', c', hd', b, e', -, -, -, hsub⟩
    · rw [e'] at e; cases e
    · rw [e'] at e; cases e; exact hsub j hj

theorem lspStyles_ok {env : Env} {s s' : State} (ht : Tidy s) (hk : UniqueKeys s)
    (hrun : updateSimulation env s = .ok () s') {l : ℕ} (hl : l ∈ s.lsps) :
    ∃ sel, lspStyles s' ⟨s.lspSrc l, s.lspDst l, (s.lsp l).name⟩ = .ok sel ∧
      (∀ x, x ∈ sel.1 ↔ ∃ i, OnPath s' l i ∧ x ∈ ifcSelectors s' i) ∧
      (∀ u, u ∈ sel.2 ↔ ∃ i, OnPath s' l i ∧ (u = s'.tail i ∨ u = s'.head i)) ∧
      ∀ i, OnPath s' l i → i ∈ s'.ifs := by
  obtain ⟨s1, Δ, h⟩ := sim_spec ht.dmds ht.ends ht.ckts hrun
  have hc := h.cfg
  have hname : ∀ d, (s'.lsp d).name = (s.lsp d).name := by intro d; rw [hc.lsp d]
  have hget : s'.getLsp (s.lspSrc l) (s.lspDst l) (s.lsp l).name = .ok l := by
    rw [← hc.lspSrc, ← hc.lspDst, ← hname]
    refine getLsp_key ?_ (by rw [hc.lsps]; exact hl)
    have := hk.lsps
    rw [hc.lsps]
    simpa only [hc.lspSrc, hc.lspDst, hname] using this
  unfold lspStyles lspData
  simp only [hget]
  rcases h.basic ht hl with e | ⟨is, c, hd, b, e, -, -, -, hsub⟩
  · have hno : ∀ i, ¬ OnPath s' l i := by
      rintro i ⟨is, c, hd, e', -⟩
      rw [e] at e'; cases e'
    refine ⟨([], []), ?_, fun x => ?_, fun u => ?_, fun i hi => absurd hi (hno i)⟩
    · show (match (s'.lsp l).path with | .unrouted => _ | _ => _) = _
      rw [e]
    · exact ⟨fun hx => (List.not_mem_nil hx).elim, fun ⟨i, hi, _⟩ => absurd hi (hno i)⟩
    · exact ⟨fun hx => (List.not_mem_nil hx).elim, fun ⟨i, hi, _⟩ => absurd hi (hno i)⟩
  · have hon : ∀ i, OnPath s' l i ↔ i ∈ is := by
      intro i
      constructor
      · rintro ⟨is', c', hd', e', hi⟩
        rw [e] at e'; cases e'; exact hi
      · intro hi; exact ⟨is, c, hd, e, hi⟩
    refine ⟨(is.flatMap (ifcSelectors s'), (is.flatMap fun i => [s'.tail i, s'.head i]).dedup),
      ?_, fun x => ?_, fun u => ?_, fun i hi => hsub i ((hon i).1 hi)⟩
    · show (match (s'.lsp l).path with | .unrouted => _ | _ => _) = _
      rw [e]
      have hh : lspHops s' l = .ok is := by unfold lspHops; rw [e]
      simp only [bind, Except.bind, hh]
    · simp only [List.mem_flatMap, hon]
    · simp only [List.mem_dedup, List.mem_flatMap, hon, List.mem_cons, List.not_mem_nil, or_false]

/-- **C86** (part: as before) After a simulation, selecting an LSP highlights exactly the edges of
the interfaces on its path and the edges back; nothing if it is unrouted. -/
theorem C86_lsp_edges_partial {env : Env} {s s' : State} (ht : Tidy s) (hk : UniqueKeys s)
    (hrun : updateSimulation env s = .ok () s')
    (hres : ∀ i ∈ s'.ifs, 0 ≤ s'.reservable i) (htext : s.kind = .flex → TextIdsUnique s') {l : ℕ}
    (hl : l ∈ s.lsps) :
    ∃ sel, lspStyles s' ⟨s.lspSrc l, s.lspDst l, (s.lsp l).name⟩ = .ok sel ∧
      ∀ i ∈ s'.ifs, ∀ e, Shows s' i e →
        (Highlighted sel.1 e ↔ OnPath s' l i ∨ ∃ j, OnPath s' l j ∧ Opposite s' i j) := by
  obtain ⟨sel, h1, h2, -, h3⟩ := lspStyles_ok ht hk hrun hl
  exact ⟨sel, h1, fun i hi e he => highlighted_iff ht hrun hres htext h3 h2 hi he⟩

/-- **C86** (part: the names of pairs do not collide) After a simulation, selecting a demand
highlights exactly the nodes at either end of an interface it crosses. -/
theorem C86_demand_nodes_partial {env env' : Env} {s s' : State} (ht : Tidy s) (hk : UniqueKeys s)
    (hkd : KeysDistinct s) (hrun : updateSimulation env s = .ok () s') {d : ℕ} (hd : d ∈ s.dmds) :
    ∃ ids, demandNodeIds env' s' ⟨s.dmdSrc d, s.dmdDst d, (s.dmd d).name⟩ = .ok ids ∧
      ∀ u, u ∈ ids ↔ ∃ i, Crosses s' d i ∧ (u = s'.tail i ∨ u = s'.head i) := by
  obtain ⟨ids, h1, h2⟩ := demandEntries_ok (f := fun i => [s'.tail i, s'.head i]) (env' := env')
    ht hk hkd hrun hd
  exact ⟨ids, h1, fun u => by simpa using h2 u⟩

/-- **C86** After a simulation, selecting an LSP highlights exactly the nodes at either end of an
interface on its path: its source, its destination and the nodes it transits; none if it is
unrouted. -/
theorem C86_lsp_nodes {env : Env} {s s' : State} (ht : Tidy s) (hk : UniqueKeys s)
    (hrun : updateSimulation env s = .ok () s') {l : ℕ} (hl : l ∈ s.lsps) :
    ∃ sel, lspStyles s' ⟨s.lspSrc l, s.lspDst l, (s.lsp l).name⟩ = .ok sel ∧
      ∀ u, u ∈ sel.2 ↔ ∃ i, OnPath s' l i ∧ (u = s'.tail i ∨ u = s'.head i) := by
  obtain ⟨sel, h1, -, h2, -⟩ := lspStyles_ok ht hk hrun hl
  exact ⟨sel, h1, h2⟩

/-- a FlexModel in which the demand rides an LSP and then an interface -/
example : Tidy Ex.hitch ∧ UniqueKeys Ex.hitch ∧ KeysDistinct Ex.hitch ∧
    updateSimulation Env.default Ex.hitch =
      .ok () (finalState (updateSimulation Env.default) Ex.hitch) ∧
    (∀ i ∈ (finalState (updateSimulation Env.default) Ex.hitch).ifs,
      0 ≤ (finalState (updateSimulation Env.default) Ex.hitch).reservable i) ∧
    TextIdsUnique (finalState (updateSimulation Env.default) Ex.hitch) ∧
    demandSelectors Env.default (finalState (updateSimulation Env.default) Ex.hitch)
      ⟨"A", "C", "x"⟩ = .ok [⟨"1", "A"⟩, ⟨"1", "B"⟩, ⟨"2", "B"⟩, ⟨"2", "C"⟩] ∧
    demandNodeIds Env.default (finalState (updateSimulation Env.default) Ex.hitch)
      ⟨"A", "C", "x"⟩ = .ok ["A", "B", "B", "C"] ∧
    lspStyles (finalState (updateSimulation Env.default) Ex.hitch)
      ⟨"A", "B", "l"⟩ = .ok ([⟨"1", "A"⟩, ⟨"1", "B"⟩], ["A", "B"]) := by
  refine ⟨by decide +kernel,
    ⟨by decide +kernel, by decide +kernel, by decide +kernel, by decide +kernel, by decide +kernel⟩,
    by decide +kernel, ok_of_raised (by decide +kernel),
    by decide +kernel, by unfold TextIdsUnique; decide +kernel, by decide +kernel,
    by decide +kernel, by decide +kernel⟩

/-- **C86** is false of `find_demand_interfaces_and_lsps` for an unrouted demand: instead of
nothing it returns the characters of the word `Unrouted`. -/
theorem C86_unrouted_false {s : State} {d : ℕ} (h : (s.dmd d).path = none) :
    findLit s [d] = .ok ([.char 'U', .char 'n', .char 'r', .char 'o', .char 'u', .char 't',
      .char 'e', .char 'd'], []) := by
  unfold findLit
  rw [h]
  rfl

/-- **C86** is false before the first simulation: selecting an LSP raises `TypeError`. -/
theorem C86_unsignalled_false {s : State} {a b n : String} {l : ℕ} (hl : s.getLsp a b n = .ok l)
    (h : (s.lsp l).path = .initial) : lspStyles s ⟨a, b, n⟩ = .error .typeError := by
  unfold lspStyles lspData
  simp only [hl, bind, Except.bind, h, lspHops]

example : (Ex.hitch.getLsp "A" "B" "l" = .ok 0) ∧ (Ex.hitch.lsp 0).path = .initial := by
  decide +kernel

/-- two parallel circuits A–B, the first with the number 1 for a circuit id and the second, more
expensive, with the string `"1"` -/
def Ex.sameText : State :=
  let s := Ex.mk .flex [{ name := "A" }, { name := "B" }]
    (Ex.link "p" 0 1 10 100 1 ++ Ex.link "q" 0 1 20 100 2)
    [{ src := 0, dst := 1, traffic := 6, name := "x" }] [] []
  (s.updIfc 2 fun x => { x with cktId := .str "1" }).updIfc 3 fun x => { x with cktId := .str "1" }

/-- **C86** is false when two circuit ids of a node read the same: the edge of an interface that
the demand does not cross, in either direction, is highlighted. -/
theorem C86_same_text_false : Tidy Ex.sameText ∧ UniqueKeys Ex.sameText ∧ KeysDistinct Ex.sameText ∧
    updateSimulation Env.default Ex.sameText =
      .ok () (finalState (updateSimulation Env.default) Ex.sameText) ∧
    ((finalState (updateSimulation Env.default) Ex.sameText).dmd 0).path = some [[.ifc 0]] ∧
    ∃ sel e, demandSelectors Env.default (finalState (updateSimulation Env.default) Ex.sameText)
        ⟨"A", "B", "x"⟩ = .ok sel ∧
      e ∈ ((finalState (updateSimulation Env.default) Ex.sameText).mapElements true).2 ∧
      Shows (finalState (updateSimulation Env.default) Ex.sameText) 2 e ∧ Highlighted sel e := by
  refine ⟨by decide +kernel,
    ⟨by decide +kernel, by decide +kernel, by decide +kernel, by decide +kernel, by decide +kernel⟩,
    by decide +kernel, ok_of_raised (by decide +kernel),
    by decide +kernel, [⟨"1", "A"⟩, ⟨"1", "B"⟩],
    (finalState (updateSimulation Env.default) Ex.sameText).drawnEdge true (2, 3) 2,
    by decide +kernel, by decide +kernel, ⟨rfl, rfl, rfl, rfl, rfl, rfl⟩,
    ⟨"1", "A"⟩, by decide +kernel, by decide +kernel⟩

/-! ## C87: clicking an edge -/

theorem clicked_circuit {s : State} {c : ℕ × ℕ} (hckt : s.tail c.1 = s.head c.2 ∧ s.head c.1 = s.tail c.2)
    (hne : s.tail c.1 ≠ s.tail c.2) (a : '-' ∉ (s.tail c.1).toList) (b : '-' ∉ (s.tail c.2).toList) :
    clickedDest (s.drawnEdge true c c.1) = .ok (s.head c.1) ∧
    clickedDest (s.drawnEdge true c c.2) = .ok (s.head c.2) := by
  have hlab : splitDash (s.midLabel true c) = ["midpoint", s.tail c.1, s.tail c.2] := by
    have : s.midLabel true c = "midpoint" ++ "-" ++ (s.tail c.1 ++ "-" ++ s.tail c.2) := by
      unfold State.midLabel
      simp only [if_true, ← String.append_assoc]
      rfl
    rw [this, splitDash_cons (by decide), splitDash_cons a, splitDash_single b]
  have h1 : ∀ i, (s.drawnEdge true c i).target = s.midLabel true c := fun i => rfl
  have h2 : ∀ i, (s.drawnEdge true c i).source = s.tail i := fun i => rfl
  constructor
  · unfold clickedDest
    rw [h1, h2, hlab, hckt.2]
    simp [hne.symm]
  · unfold clickedDest
    rw [h1, h2, hlab, ← hckt.1]
    simp [hne]

/-- **C87** (part: no hyphens in node names, no circuit from a node to itself) After a successful
validation the destination shown for a clicked edge is the node at the other end of the
interface that the edge shows. -/
theorem C87_clicked_edge_partial {env : Env} {s t : State} (hset : CktIdsSet s)
    (h : validate env s = .ok () t) (hkeys : UniqueIfcKeys t) (hself : NoSelfLinks t)
    (hhy : ∀ i ∈ t.ifs, '-' ∉ (t.tail i).toList) {i : ℕ} (hi : i ∈ t.ifs) {e : MapEdge}
    (he : e ∈ (t.mapElements true).2) (hs : Shows t i e) : clickedDest e = .ok (t.head i) := by
  obtain ⟨-, h2, -⟩ := C28_circuits_pair hset h
  simp only [State.mapElements, List.mem_flatMap, List.mem_cons, List.not_mem_nil, or_false] at he
  obtain ⟨c, hc, he⟩ := he
  obtain ⟨a, b, e1, e2, -⟩ := h2 c hc
  have hcl := clicked_circuit ⟨e1, e2⟩ (by rw [← e2]; exact hself c.1 a) (hhy _ a) (hhy _ b)
  have key : ∀ j ∈ t.ifs, e = t.drawnEdge true c j → i = j := by
    rintro j hj rfl
    refine hkeys i hi j hj ?_
    have h3 := hs.source
    have h4 := hs.name
    unfold State.ifcKey
    exact Prod.ext h4.symm h3.symm
  rcases he with rfl | rfl
  · rw [key c.1 a rfl]; exact hcl.1
  · rw [key c.2 b rfl]; exact hcl.2

example (k : Kind) : CktIdsSet (Ex.square k) ∧
    validate Env.default (Ex.square k) = .ok () (finalState (validate Env.default) (Ex.square k)) ∧
    UniqueIfcKeys (finalState (validate Env.default) (Ex.square k)) ∧
    NoSelfLinks (finalState (validate Env.default) (Ex.square k)) ∧
    (∀ i ∈ (finalState (validate Env.default) (Ex.square k)).ifs,
      '-' ∉ ((finalState (validate Env.default) (Ex.square k)).tail i).toList) ∧
    ((finalState (validate Env.default) (Ex.square k)).mapElements true).2.map (clickedDest ·) =
      ((finalState (validate Env.default) (Ex.square k)).circuits.flatMap fun c =>
        [.ok ((finalState (validate Env.default) (Ex.square k)).head c.1),
         .ok ((finalState (validate Env.default) (Ex.square k)).head c.2)]) := by
  cases k <;> exact ⟨by decide +kernel, ok_of_raised (by decide +kernel), by decide +kernel,
    by unfold NoSelfLinks; decide +kernel, by decide +kernel, by decide +kernel⟩

/-- one circuit between nodes with the names `a` and `b` -/
def Ex.pairOf (k : Kind) (a b : String) : State := Ex.mk k [{ name := a }, { name := b }]
  (Ex.link "p" 0 1 10 100 1) [] [] []

/-- **C87** is false with a hyphen in a node name: the destination shown for the edge from `A-1`
to `B` is `A`, which is not a node of the model. -/
theorem C87_hyphen_false (k : Kind) :
    raised (validate Env.default) (Ex.pairOf k "A-1" "B") = none ∧
    ∃ e ∈ ((finalState (validate Env.default) (Ex.pairOf k "A-1" "B")).mapElements true).2,
      Shows (finalState (validate Env.default) (Ex.pairOf k "A-1" "B")) 0 e ∧
      (finalState (validate Env.default) (Ex.pairOf k "A-1" "B")).head 0 = "B" ∧
      clickedDest e = .ok "A" := by
  cases k
  · exact ⟨by decide +kernel,
      (finalState (validate Env.default) (Ex.pairOf .perf "A-1" "B")).drawnEdge true (0, 1) 0,
      by decide +kernel, ⟨rfl, rfl, rfl, rfl, rfl, rfl⟩, by decide +kernel, by decide +kernel⟩
  · exact ⟨by decide +kernel,
      (finalState (validate Env.default) (Ex.pairOf .flex "A-1" "B")).drawnEdge true (0, 1) 0,
      by decide +kernel, ⟨rfl, rfl, rfl, rfl, rfl, rfl⟩, by decide +kernel, by decide +kernel⟩

/-- **C87** is false for a circuit from a node to itself: clicking its edge raises `IndexError`. -/
theorem C87_self_circuit_false {s : State} {c : ℕ × ℕ} (h : s.tail c.1 = s.tail c.2)
    (hhy : '-' ∉ (s.tail c.1).toList) :
    clickedDest (s.drawnEdge true c c.1) = .error .indexError := by
  have hlab : splitDash (s.midLabel true c) = ["midpoint", s.tail c.1, s.tail c.2] := by
    have : s.midLabel true c = "midpoint" ++ "-" ++ (s.tail c.1 ++ "-" ++ s.tail c.2) := by
      unfold State.midLabel
      simp only [if_true, ← String.append_assoc]
      rfl
    rw [this, splitDash_cons (by decide), splitDash_cons hhy, splitDash_single (h ▸ hhy)]
  have h1 : (s.drawnEdge true c c.1).target = s.midLabel true c := rfl
  have h2 : (s.drawnEdge true c c.1).source = s.tail c.1 := rfl
  unfold clickedDest
  rw [h1, h2, hlab, ← h]
  simp

/-- a node with an interface to itself -/
def Ex.ouroboros : State := Ex.mk .perf [{ name := "A" }] ((Ex.link "p" 0 0 10 100 1).take 1) [] [] []

example : raised (validate Env.default) Ex.ouroboros = none ∧
    (finalState (validate Env.default) Ex.ouroboros).circuits ≠ [] ∧
    (∀ c ∈ (finalState (validate Env.default) Ex.ouroboros).circuits,
      (finalState (validate Env.default) Ex.ouroboros).tail c.1 =
        (finalState (validate Env.default) Ex.ouroboros).tail c.2 ∧
      '-' ∉ ((finalState (validate Env.default) Ex.ouroboros).tail c.1).toList) := by
  exact ⟨by decide +kernel, by decide +kernel, by decide +kernel⟩

end NTM
