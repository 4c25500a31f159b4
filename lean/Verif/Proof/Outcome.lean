import Verif.Proof.Ledger
import Verif.Proof.Simulation

/-!
# What a completed simulation establishes, in terms of the final state
-/

namespace NTM

open Spec

/-- final and initial state of a simulation differ only in results -/
structure Cfg (s t : State) : Prop where
  kind : t.kind = s.kind
  node : t.node = s.node
  srlg : t.srlg = s.srlg
  nodes : t.nodes = s.nodes
  ifs : t.ifs = s.ifs
  dmds : t.dmds = s.dmds
  lsps : t.lsps = s.lsps
  srlgs : t.srlgs = s.srlgs
  next : t.next = s.next
  ifc : ∀ i, t.ifc i = { s.ifc i with
    reservedRaw := (t.ifc i).reservedRaw, traffic := (t.ifc i).traffic
    inCkt := (t.ifc i).inCkt, cktId := (t.ifc i).cktId }
  lsp : ∀ l, t.lsp l = { s.lsp l with
    path := (t.lsp l).path, reserved := (t.lsp l).reserved, setup := (t.lsp l).setup }
  dmd : ∀ d, t.dmd d = { s.dmd d with path := (t.dmd d).path, detail := (t.dmd d).detail }

theorem Cfg.tail {s t : State} (h : Cfg s t) (i : ℕ) : t.tail i = s.tail i := by
  unfold State.tail; rw [h.ifc i, h.node]

theorem Cfg.head {s t : State} (h : Cfg s t) (i : ℕ) : t.head i = s.head i := by
  unfold State.head; rw [h.ifc i, h.node]

theorem Cfg.lspSrc {s t : State} (h : Cfg s t) (l : ℕ) : t.lspSrc l = s.lspSrc l := by
  unfold State.lspSrc; rw [h.lsp l, h.node]

theorem Cfg.lspDst {s t : State} (h : Cfg s t) (l : ℕ) : t.lspDst l = s.lspDst l := by
  unfold State.lspDst; rw [h.lsp l, h.node]

theorem Cfg.dmdSrc {s t : State} (h : Cfg s t) (d : ℕ) : t.dmdSrc d = s.dmdSrc d := by
  unfold State.dmdSrc; rw [h.dmd d, h.node]

theorem Cfg.dmdDst {s t : State} (h : Cfg s t) (d : ℕ) : t.dmdDst d = s.dmdDst d := by
  unfold State.dmdDst; rw [h.dmd d, h.node]

theorem Cfg.sane {s t : State} (h : Cfg s t) (hs : Sane s) : Sane t where
  nodup := by rw [h.ifs]; exact hs.nodup
  costs := by
    intro i hi; rw [h.ifc i]; exact hs.costs i (h.ifs ▸ hi)
  single := by
    intro hk i hi j hj e1 e2
    rw [h.tail, h.tail] at e1
    rw [h.head, h.head] at e2
    exact hs.single (h.kind ▸ hk) i (h.ifs ▸ hi) j (h.ifs ▸ hj) e1 e2

theorem Cfg.single {s t : State} (h : Cfg s t) (hs : SingleLinks t) : SingleLinks s := by
  intro i hi j hj e1 e2
  rw [← h.tail, ← h.tail] at e1
  rw [← h.head, ← h.head] at e2
  exact hs i (h.ifs ▸ hi) j (h.ifs ▸ hj) e1 e2

theorem Cfg.singleLinks_iff {s t : State} (h : Cfg s t) : SingleLinks t ↔ SingleLinks s := by
  refine ⟨h.single, fun hs i hi j hj e1 e2 => ?_⟩
  rw [h.tail, h.tail] at e1
  rw [h.head, h.head] at e2
  exact hs i (h.ifs ▸ hi) j (h.ifs ▸ hj) e1 e2

section
variable {env : Env} {s s1 s' : State} {Δ : ℕ → ℕ → ℚ}

theorem resetSim_lsp (s : State) (l : ℕ) :
    s.resetSim.lsp l = { s.lsp l with path := (s.resetSim.lsp l).path } := by
  unfold State.resetSim
  simp only []
  by_cases h : l ∈ s.lsps <;> simp [h]

theorem resetSim_dmd (s : State) (d : ℕ) :
    s.resetSim.dmd d = { s.dmd d with path := (s.resetSim.dmd d).path } := by
  unfold State.resetSim
  simp only []
  by_cases h : d ∈ s.dmds <;> simp [h]

theorem cfg_resetSim (s : State) : Cfg s s.resetSim where
  kind := rfl
  node := rfl
  srlg := rfl
  nodes := rfl
  ifs := rfl
  dmds := rfl
  lsps := rfl
  srlgs := rfl
  next := rfl
  ifc i := by
    unfold State.resetSim
    simp only []
    by_cases h : i ∈ s.ifs <;> simp [h]
  lsp l := by
    unfold State.resetSim
    simp only []
    by_cases h : l ∈ s.lsps <;> simp [h]
  dmd d := by
    unfold State.resetSim
    simp only []
    by_cases h : d ∈ s.dmds <;> simp [h]

theorem Cfg.refl (s : State) : Cfg s s :=
  ⟨rfl, rfl, rfl, rfl, rfl, rfl, rfl, rfl, rfl, fun _ => rfl, fun _ => rfl, fun _ => rfl⟩

theorem Cfg.trans {s t u : State} (h : Cfg s t) (g : Cfg t u) : Cfg s u where
  kind := g.kind.trans h.kind
  node := g.node.trans h.node
  srlg := g.srlg.trans h.srlg
  nodes := g.nodes.trans h.nodes
  ifs := g.ifs.trans h.ifs
  dmds := g.dmds.trans h.dmds
  lsps := g.lsps.trans h.lsps
  srlgs := g.srlgs.trans h.srlgs
  next := g.next.trans h.next
  ifc i := by rw [g.ifc i, h.ifc i]
  lsp i := by rw [g.lsp i, h.lsp i]
  dmd i := by rw [g.dmd i, h.dmd i]

theorem LspFrame.cfg {s t : State} (h : LspFrame s t) : Cfg s t where
  kind := h.kind
  node := h.node
  srlg := h.srlg
  nodes := h.nodes
  ifs := h.ifs
  dmds := h.dmds
  lsps := h.lsps
  srlgs := h.srlgs
  next := h.next
  ifc i := by rw [h.ifc i]
  lsp i := h.lsp i
  dmd i := by rw [h.dmd]

theorem cfg_over (s : State) (D : ℕ → Dmd) (T : ℕ → Traffic) (C : List (ℕ × ℕ)) (B : ℕ → Bool)
    (I : ℕ → CktId) (hD : ∀ d, D d = { s.dmd d with path := (D d).path, detail := (D d).detail }) :
    Cfg s (s.over D T C B I) :=
  ⟨rfl, rfl, rfl, rfl, rfl, rfl, rfl, rfl, rfl, fun _ => rfl, fun _ => rfl, hD⟩

theorem SimResult.cfg1 (h : SimResult env s s1 s' Δ) : Cfg s s1 := by
  refine (cfg_resetSim s).trans ?_
  have h1 : Cfg s.resetSim
      { s.resetSim with groups := buildGroups env s.lsps s.lspSrc s.lspDst } :=
    ⟨rfl, rfl, rfl, rfl, rfl, rfl, rfl, rfl, rfl, fun _ => rfl, fun _ => rfl, fun _ => rfl⟩
  exact h1.trans h.frame.cfg

theorem SimResult.cfg (h : SimResult env s s1 s' Δ) : Cfg s s' := by
  have h1 := h.cfg1
  obtain ⟨D, T, C, B, I, hov⟩ := h.over
  have h2 : Cfg s1 s' := by
    subst hov
    refine cfg_over s1 D T C B I fun d => ?_
    have e1 := h.dcfg d
    have e2 := h1.dmd d
    change D d = { s.dmd d with path := (D d).path, detail := (D d).detail } at e1
    rw [e1, e2]
  exact h1.trans h2

theorem SimResult.cfg1' (h : SimResult env s s1 s' Δ) : Cfg s1 s' := by
  have h1 := h.cfg1
  obtain ⟨D, T, C, B, I, hov⟩ := h.over
  subst hov
  refine cfg_over s1 D T C B I fun d => ?_
  have e1 := h.dcfg d
  have e2 := h1.dmd d
  change D d = { s.dmd d with path := (D d).path, detail := (D d).detail } at e1
  rw [e1, e2]

theorem SimResult.single (h : SimResult env s s1 s' Δ) (hk : s.kind = .perf) : SingleLinks s :=
  h.cfg.single (single_of_multipleLinks (h.valid.links (h.cfg.kind.trans hk)))

theorem SimResult.sane0 (h : SimResult env s s1 s' Δ) (ht : Tidy s) : Sane s :=
  ⟨ht.ifs, ht.costs, h.single⟩

theorem SimResult.sane1 (h : SimResult env s s1 s' Δ) (ht : Tidy s) : Sane s1 :=
  h.cfg1.sane (h.sane0 ht)

theorem SimResult.sane (h : SimResult env s s1 s' Δ) (ht : Tidy s) : Sane s' :=
  h.cfg.sane (h.sane0 ht)

/-- network attributes of the state after the LSP phase that survive to the end -/
theorem SimResult.net (h : SimResult env s s1 s' Δ) :
    s'.reservable = s1.reservable ∧ s'.reservedBw = s1.reservedBw ∧ s'.lsp = s1.lsp ∧
      s'.groups = s1.groups ∧ s'.tail = s1.tail ∧ s'.head = s1.head ∧
      (∀ i, (s'.ifc i).failed = (s1.ifc i).failed) ∧ (∀ i, (s'.ifc i).cost = (s1.ifc i).cost) ∧
      s'.ifs = s1.ifs ∧ s'.igpEdges = s1.igpEdges ∧ s'.effMetric = s1.effMetric := by
  obtain ⟨D, T, C, B, I, rfl⟩ := h.over
  exact ⟨rfl, rfl, rfl, rfl, rfl, rfl, fun _ => rfl, fun _ => rfl, rfl, rfl, rfl⟩

theorem cheapestOver_igp {s : State} {a b : String} {p : List ℕ} :
    CheapestOver s (· ∈ s.igpEdges) a p b ↔ CheapestOver s (Usable s 0) a p b :=
  CheapestOver.congr fun _ => mem_considered_usable

theorem reachable_igp {s : State} {a b : String} :
    Reachable s.tail s.head (· ∈ s.igpEdges) a b ↔ Reachable s.tail s.head (Usable s 0) a b :=
  exists_congr fun _ => Route.congr fun _ => mem_considered_usable

theorem nodup_igpEdges {s : State} (h : s.ifs.Nodup) : s.igpEdges.Nodup := h.filter _

/-- how each demand is placed, in terms of the final state -/
theorem SimResult.placed (ht : Tidy s) (hsc : s.kind = .flex → NoShortcuts s)
    (h : SimResult env s s1 s' Δ) {d : ℕ} (hd : d ∈ s.dmds) :
    (∃ ls, ls ≠ [] ∧ RidingOf s' (pairKey (s.dmdSrc d) (s.dmdDst d)) ls ∧
      (s'.dmd d).path = some (ls.map fun l => [Item.lsp l])) ∨
    (RidingOf s' (pairKey (s.dmdSrc d) (s.dmdDst d)) [] ∧
      (((s'.dmd d).path = none ∧
        ¬ Reachable s'.tail s'.head (Usable s' 0) (s.dmdSrc d) (s.dmdDst d)) ∨
      ∃ l, (s'.dmd d).path = some (l.map fun q => q.map Item.ifc) ∧ l ≠ [] ∧ l.Nodup ∧
        ∀ q, q ∈ l ↔ CheapestOver s' (Usable s' 0) (s.dmdSrc d) q (s.dmdDst d))) := by
  have hpl := h.place d hd
  have hs1 := h.sane1 ht
  have hc1 := h.cfg1
  obtain ⟨D, T, C, B, I, hov⟩ := h.over
  rcases hpl with ⟨ls, h1, h2, h3⟩ | ⟨h1, D', h2⟩
  · refine .inl ⟨ls, h1, ?_, h3⟩
    rw [hov, RidingOf.over]; exact h2
  · refine .inr ⟨by rw [hov, RidingOf.over]; exact h1, ?_⟩
    have hsaneD : Sane { s1 with dmd := D' } := ⟨hs1.nodup, hs1.costs, hs1.single⟩
    have hspec := igpPaths_spec (s := { s1 with dmd := D' }) hsaneD (es := s1.igpEdges)
      (considered_sub s1 _ _ _) (nodup_igpEdges hs1.nodup) (by
        intro hk
        have : NoShortcuts s1 := by
          intro n hn
          rw [hc1.node]
          exact hsc (hc1.kind ▸ hk) n (hc1.nodes ▸ hn)
        exact this) h2
    rcases hspec with ⟨e1, e2⟩ | ⟨l, e1, e2, e3, e4⟩
    · refine .inl ⟨e1, fun hr => e2 ?_⟩
      rw [hov] at hr
      exact reachable_igp.2 hr
    · refine .inr ⟨l, e1, e2, e3, fun q => ?_⟩
      rw [e4 q, hov]
      exact cheapestOver_igp

/-- a demand has no path exactly when the graph has none -/
theorem igpPaths_none {s t : State} {g : NxG} {es : List ℕ} {a b : String}
    {p : Option (List (List Item))} (h : igpPaths env g es a b s = .ok p t) :
    (p = none ∧ g.allShortestPaths a b = .error .noPath) ∨
    (p ≠ none ∧ ∃ ps, g.allShortestPaths a b = .ok ps) := by
  unfold igpPaths at h
  obtain ⟨s0, s0', hg, h⟩ := py_bind_inv h
  cases hg
  cases hr : g.allShortestPaths a b with
  | error e =>
    rw [hr] at h
    cases e <;> first
      | (left; cases h; exact ⟨rfl, rfl⟩)
      | (cases h)
  | ok ps =>
    rw [hr] at h
    right
    refine ⟨?_, ps, rfl⟩
    simp only [] at h
    cases hk : s.kind with
    | perf =>
      rw [hk] at h
      simp only [] at h
      cases ha : allSome (ps.map fun p => (s.convertPerf p).toOption) with
      | some l => rw [ha] at h; cases h; simp
      | none => rw [ha] at h; cases h
    | flex =>
      rw [hk] at h
      simp only [] at h
      obtain ⟨x, u, -, h⟩ := py_bind_inv h
      cases h; simp

/-- placement, for C03: with or without IGP shortcuts -/
theorem SimResult.routed_iff (ht : Tidy s) (h : SimResult env s s1 s' Δ) {d : ℕ}
    (hd : d ∈ s.dmds) :
    (s'.dmd d).path = none ↔ RidingOf s' (pairKey (s.dmdSrc d) (s.dmdDst d)) [] ∧
      ¬ Reachable s'.tail s'.head (Usable s' 0) (s.dmdSrc d) (s.dmdDst d) := by
  have hpl := h.place d hd
  have hs1 := h.sane1 ht
  obtain ⟨D, T, C, B, I, hov⟩ := h.over
  rcases hpl with ⟨ls, h1, h2, h3⟩ | ⟨h1, D', h2⟩
  · rw [h3]
    refine ⟨fun h => (by cases h), fun hr => ?_⟩
    rw [hov, RidingOf.over] at hr
    exact absurd (h2.unique hr.1) h1
  · have hsaneD : Sane { s1 with dmd := D' } := ⟨hs1.nodup, hs1.costs, hs1.single⟩
    have hr : RidingOf s' (pairKey (s.dmdSrc d) (s.dmdDst d)) [] := by
      rw [hov, RidingOf.over]; exact h1
    have hre : Reachable s'.tail s'.head (Usable s' 0) (s.dmdSrc d) (s.dmdDst d) ↔
        Reachable s1.tail s1.head (· ∈ s1.igpEdges) (s.dmdSrc d) (s.dmdDst d) := by
      rw [hov]; exact reachable_igp.symm
    rw [hre]
    rcases igpPaths_none h2 with ⟨e1, e2⟩ | ⟨e1, ps, e2⟩
    · refine ⟨fun _ => ⟨hr, ?_⟩, fun _ => e1⟩
      exact noPath_iff hsaneD (considered_sub s1 _ _ _) e2
    · refine ⟨fun e => absurd e e1, fun hn => absurd ?_ hn.2⟩
      exact ok_reachable hsaneD (considered_sub s1 _ _ _) e2

/-! ### LSPs at the end of a simulation -/

/-- an invariant of the LSP phase, at the end of the simulation -/
theorem SimResult.lspInv (ht : Tidy s) (h : SimResult env s s1 s' Δ)
    {Inv : List ℕ → State → Prop} (R : LspRule env s.resetSim Inv) :
    ∃ done, GroupInv env s.resetSim Inv done s1 ∧
      ∀ l, l ∈ done ↔ ∃ g ∈ buildGroups env s.lsps s.lspSrc s.lspDst, l ∈ g.2 := by
  have hs0 : Sane s.resetSim := (cfg_resetSim s).sane (h.sane0 ht)
  have := of_wp_ok (routeLsps_inv hs0 (show s.resetSim.lsps.Nodup from ht.lsps) rfl R) h.lspRun
  rw [resetSim_lspSrc, resetSim_lspDst] at this
  exact this

theorem SimResult.basic (ht : Tidy s) (h : SimResult env s s1 s' Δ) {l : ℕ} (hl : l ∈ s.lsps) :
    (s'.lsp l).path = .unrouted ∨
    ∃ p c hd b, (s'.lsp l).path = .routed p c hd ∧ (s'.lsp l).reserved = .val b ∧ p ≠ [] ∧
      p.Nodup ∧ ∀ i ∈ p, i ∈ s'.ifs := by
  have hs0 : Sane s.resetSim := (cfg_resetSim s).sane (h.sane0 ht)
  obtain ⟨done, hg, -⟩ := h.lspInv ht (basic_rule env hs0)
  rw [h.net.2.2.1, h.net.2.2.2.2.2.2.2.2.1]
  by_cases hd : l ∈ done
  · rcases hg.inv.placed l hd with h1 | h1
    · exact .inl h1.1
    · exact .inr h1
  · left
    rw [hg.rest l hd]
    unfold State.resetSim
    simp [hl]

theorem SimResult.isRouted_iff (ht : Tidy s) (h : SimResult env s s1 s' Δ) {l : ℕ}
    (hl : l ∈ s.lsps) : (s'.lsp l).path.saysUnrouted = false ↔ IsRouted s' l := by
  rcases h.basic ht hl with h1 | ⟨p, c, hd, b, h1, -⟩
  · rw [h1]
    constructor
    · intro h; cases h
    · rintro ⟨_, _, _, h⟩; rw [h1] at h; cases h
  · rw [h1]; exact ⟨fun _ => ⟨_, _, _, h1⟩, fun _ => rfl⟩

/-- under unambiguous keys, the LSPs found for a demand are those between its end points -/
theorem SimResult.routedGroup_eq (hk : KeysDistinct s) (h : SimResult env s s1 s' Δ)
    {a b : String} (ha : a ∈ endNames s) (hb : b ∈ endNames s) :
    s'.routedGroup (pairKey a b) =
      (between s.lsps s.lspSrc s.lspDst a b).filter fun l => !(s'.lsp l).path.saysUnrouted := by
  have hg : s'.groups = buildGroups env s.lsps s.lspSrc s.lspDst := by
    rw [h.net.2.2.2.1, h.frame.groups]
  unfold State.routedGroup
  rw [hg, dictGet_buildGroups]
  · by_cases hn : between s.lsps s.lspSrc s.lspDst a b = []
    · rw [if_pos hn, hn]; rfl
    · rw [if_neg hn]; rfl
  · intro a' ha' b' hb' e
    refine hk a' ?_ b' ?_ a ha b hb e
    · unfold endNames; simp only [List.mem_append]; exact .inl (.inl (.inl ha'))
    · unfold endNames; simp only [List.mem_append]; exact .inl (.inl (.inr hb'))

theorem dmd_endNames {d : ℕ} (hd : d ∈ s.dmds) :
    s.dmdSrc d ∈ endNames s ∧ s.dmdDst d ∈ endNames s := by
  unfold endNames
  simp only [List.mem_append]
  exact ⟨.inl (.inr (List.mem_map.2 ⟨d, hd, rfl⟩)), .inr (List.mem_map.2 ⟨d, hd, rfl⟩)⟩

theorem lsp_endNames {l : ℕ} (hl : l ∈ s.lsps) :
    s.lspSrc l ∈ endNames s ∧ s.lspDst l ∈ endNames s := by
  unfold endNames
  simp only [List.mem_append]
  exact ⟨.inl (.inl (.inl (List.mem_map.2 ⟨l, hl, rfl⟩))),
    .inl (.inl (.inr (List.mem_map.2 ⟨l, hl, rfl⟩)))⟩

/-- under unambiguous keys every LSP is in some group -/
theorem mem_groups_all {env : Env} (hk : KeysDistinct s) {l : ℕ} (hl : l ∈ s.lsps) :
    ∃ g ∈ buildGroups env s.lsps s.lspSrc s.lspDst, l ∈ g.2 := by
  have hm : l ∈ between s.lsps s.lspSrc s.lspDst (s.lspSrc l) (s.lspDst l) :=
    mem_between.2 ⟨hl, rfl, rfl⟩
  have hne : between s.lsps s.lspSrc s.lspDst (s.lspSrc l) (s.lspDst l) ≠ [] := by
    intro e; rw [e] at hm; cases hm
  have hg : dictGet (buildGroups env s.lsps s.lspSrc s.lspDst)
      (pairKey (s.lspSrc l) (s.lspDst l)) =
        some (between s.lsps s.lspSrc s.lspDst (s.lspSrc l) (s.lspDst l)) := by
    rw [dictGet_buildGroups, if_neg hne]
    intro a' ha' b' hb' e
    refine hk a' ?_ b' ?_ _ (lsp_endNames hl).1 _ (lsp_endNames hl).2 e
    · unfold endNames; simp only [List.mem_append]; exact .inl (.inl (.inl ha'))
    · unfold endNames; simp only [List.mem_append]; exact .inl (.inl (.inr hb'))
  exact ⟨_, mem_of_dictGet hg, hm⟩

theorem ridingOf_nil {s : State} {key : String} : RidingOf s key [] ↔ s.routedGroup key = [] :=
  ⟨fun h => h.nil_iff.1 rfl, fun h => .inl ⟨h, rfl⟩⟩

theorem mem_of_buildGroups {env : Env} {objs : List ℕ} {src dst : ℕ → String}
    {g : String × List ℕ} (hg : g ∈ buildGroups env objs src dst) {l : ℕ} (hl : l ∈ g.2) :
    l ∈ objs := by
  obtain ⟨k, ls⟩ := g
  obtain ⟨a, b, -, -, -, rfl, -⟩ :=
    dictGet_buildGroups_some (dictGet_of_mem (nodup_buildGroups env objs src dst) hg)
  exact (mem_between.1 hl).1

/-- hyphen-free names never collide -/
theorem keysDistinct_of_noHyphen (h : ∀ a ∈ endNames s, '-' ∉ a.toList) : KeysDistinct s :=
  fun a ha _ _ a' ha' _ _ e => pairKey_inj (h a ha) (h a' ha') e

end

end NTM
