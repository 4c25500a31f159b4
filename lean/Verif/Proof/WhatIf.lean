import Verif.Proof.Recfg
import Verif.Proof.RestoreNode

/-!
# What histories of failures, repairs and simulations leave alone
-/

namespace NTM

open Spec

theorem Recfg.swap {s t : State} (h : Recfg s t) (a : ℕ → Node) (b : ℕ → Srlg) :
    Recfg { s with node := a, srlg := b } { t with node := a, srlg := b } where
  rest := by
    have := h.rest
    obtain ⟨k, nd, I, D, L, G, ns, is, ds, ls, gs, cs, grp, nx, rp⟩ := t
    simp only [State.mk.injEq, true_and, and_true] at this ⊢
    tauto
  ifc := h.ifc
  ids := h.ids
  dmd := h.dmd
  lsp := h.lsp
  outIfc := h.outIfc
  outDmd := h.outDmd
  outLsp := h.outLsp

theorem Recfg.symm {s t : State} (h : Recfg s t) : Recfg t s where
  rest := by
    have := h.rest
    obtain ⟨k, nd, I, D, L, G, ns, is, ds, ls, gs, cs, grp, nx, rp⟩ := t
    simp only [State.mk.injEq, true_and, and_true] at this
    obtain ⟨k', nd', I', D', L', G', ns', is', ds', ls', gs', cs', grp', nx', rp'⟩ := s
    simp only [State.mk.injEq, true_and, and_true] at this ⊢
    tauto
  ifc i := by rw [h.ifc i]
  ids hk i := (h.ids (by rw [← h.kind]; exact hk) i).symm
  dmd i := by rw [h.dmd i]
  lsp i := by rw [h.lsp i]
  outIfc i hi := by
    obtain ⟨a, b⟩ := h.outIfc i (by rw [h.ifs] at hi; exact hi)
    exact ⟨a.symm, b.symm⟩
  outDmd i hi := (h.outDmd i (by rw [h.dmds] at hi; exact hi)).symm
  outLsp i hi := (h.outLsp i (by rw [h.lsps] at hi; exact hi)).symm

/-- `t` has the configuration of `s`, failed states apart, and the same results on objects outside
the model -/
structure Loose (s t : State) : Prop where
  core : Recfg { s with node := t.node, srlg := t.srlg } t
  node : ∀ n, t.node n = { s.node n with failed := (t.node n).failed }
  srlg : ∀ g, t.srlg g = { s.srlg g with failed := (t.srlg g).failed }
  outIfc : ∀ i, i ∉ s.ifs → (t.ifc i).failed = (s.ifc i).failed
  outNode : ∀ n, n ∉ s.nodes → (t.node n).failed = (s.node n).failed
  outSrlg : ∀ g, g ∉ s.srlgs → (t.srlg g).failed = (s.srlg g).failed

namespace Loose

variable {s t u : State}

theorem refl (s : State) : Loose s s := ⟨Recfg.refl s, fun _ => rfl, fun _ => rfl,
  fun _ _ => rfl, fun _ _ => rfl, fun _ _ => rfl⟩

theorem trans (h : Loose s t) (g : Loose t u) : Loose s u where
  core := (h.core.swap u.node u.srlg).trans g.core
  node n := by
    have e1 := h.node n
    have e2 := g.node n
    rw [e1] at e2
    exact e2
  srlg n := by
    have e1 := h.srlg n
    have e2 := g.srlg n
    rw [e1] at e2
    exact e2
  outIfc i hi := (g.outIfc i (by rw [h.core.ifs]; exact hi)).trans (h.outIfc i hi)
  outNode i hi := (g.outNode i (by rw [h.core.nodes]; exact hi)).trans (h.outNode i hi)
  outSrlg i hi := (g.outSrlg i (by rw [h.core.srlgs]; exact hi)).trans (h.outSrlg i hi)

theorem of (h : Recfg s t) (ho : ∀ i, i ∉ s.ifs → (t.ifc i).failed = (s.ifc i).failed) :
    Loose s t where
  core := by
    have := h
    rw [show ({ s with node := t.node, srlg := t.srlg } : State) = s by rw [h.node, h.srlg]]
    exact this
  node n := by rw [h.node]
  srlg n := by rw [h.srlg]
  outIfc := ho
  outNode n _ := by rw [h.node]
  outSrlg n _ := by rw [h.srlg]

theorem updNode {n : ℕ} (hn : n ∈ s.nodes) (b : Bool) :
    Loose s (s.updNode n fun x => { x with failed := b }) where
  core := Recfg.refl (s.updNode n fun x => { x with failed := b })
  node k := by unfold State.updNode; simp only []; split <;> rfl
  srlg _ := rfl
  outIfc _ _ := rfl
  outNode k hk := by
    have : k ≠ n := by rintro rfl; exact hk hn
    unfold State.updNode; simp [this]
  outSrlg _ _ := rfl

theorem setSrlg {g : ℕ} (hg : g ∈ s.srlgs) (b : Bool) : Loose s (s.setSrlg g b) where
  core := Recfg.refl (s.setSrlg g b)
  node _ := rfl
  srlg k := by unfold State.setSrlg State.updSrlg; simp only []; split <;> rfl
  outIfc _ _ := rfl
  outNode _ _ := rfl
  outSrlg k hk := by
    have : k ≠ g := by rintro rfl; exact hk hg
    unfold State.setSrlg State.updSrlg; simp [this]

theorem fell {F N : ℕ → Bool} (hF : ∀ i, F i = true → i ∈ s.ifs)
    (hN : ∀ n, N n = true → n ∈ s.nodes) : Loose s (s.fell F N) where
  core := Recfg.fell (s := { s with node := (s.fell F N).node }) hF
  node k := by unfold State.fell; simp only []; split <;> rfl
  srlg _ := rfl
  outIfc k hk := by
    have : F k = false := by
      cases h : F k
      · rfl
      · exact absurd (hF k h) hk
    rw [fell_failed, this, Bool.false_or]
  outNode k hk := by
    have : N k = false := by
      cases h : N k
      · rfl
      · exact absurd (hN k h) hk
    rw [fell_nodeFailed, this, Bool.false_or]
  outSrlg _ _ := rfl

theorem down {i : ℕ} (hi : i ∈ s.ifs) : Loose s (s.downIfc i) := by
  rw [downIfc_fell]
  refine fell (fun k hk => ?_) (fun k hk => by simp at hk)
  rw [decide_eq_true_eq] at hk
  rw [hk]; exact hi

theorem up {i : ℕ} (hi : i ∈ s.ifs) : Loose s (s.upIfc i) :=
  of Recfg.upIfc fun k hk => by
    rw [upIfc_failed, if_neg (by rintro rfl; exact hk hi)]

theorem checked (he : EndsAgree s) (h : Checked s t) : Loose s t :=
  of (Recfg.checked h) fun k _ => h.failed he k

theorem ifs (h : Loose s t) : t.ifs = s.ifs := h.core.ifs
theorem kind (h : Loose s t) : t.kind = s.kind := h.core.kind

theorem tidy (h : Loose s t) (hs : Tidy s) (he : EndsAgree t) : Tidy t where
  nodes := by rw [h.core.nodes]; exact hs.nodes
  ifs := by rw [h.ifs]; exact hs.ifs
  dmds := by rw [h.core.dmds]; exact hs.dmds
  lsps := by rw [h.core.lsps]; exact hs.lsps
  costs := fun i hi => by rw [h.core.ifc i]; exact hs.costs i (h.ifs ▸ hi)
  ends := he
  ckts := fun hk i hi => by
    rw [h.core.ids (h.kind ▸ hk) i]; exact hs.ckts (h.kind ▸ hk) i (h.ifs ▸ hi)

theorem symm (h : Loose s t) : Loose t s where
  core := by
    have := (h.core.swap s.node s.srlg).symm
    exact this
  node n := by rw [h.node n]
  srlg n := by rw [h.srlg n]
  outIfc i hi := (h.outIfc i (by rw [h.core.ifs] at hi; exact hi)).symm
  outNode i hi := (h.outNode i (by rw [h.core.nodes] at hi; exact hi)).symm
  outSrlg i hi := (h.outSrlg i (by rw [h.core.srlgs] at hi; exact hi)).symm

/-- with the failed states back, only results differ -/
theorem same (h : Loose s t) (hi : ∀ i ∈ s.ifs, (t.ifc i).failed = (s.ifc i).failed)
    (hn : ∀ n ∈ s.nodes, (t.node n).failed = (s.node n).failed) :
    SameConfig s { t with rngPos := s.rngPos } := by
  have e1 : t.node = s.node := funext fun n => by
    by_cases hm : n ∈ s.nodes
    · rw [h.node n, hn n hm]
    · rw [h.node n, h.outNode n hm]
  have := h.core
  rw [show ({ s with node := t.node, srlg := t.srlg } : State) = { s with srlg := t.srlg } by
    rw [e1]] at this
  have hs := this.same fun i => by
    by_cases hm : i ∈ s.ifs
    · exact hi i hm
    · exact h.outIfc i hm
  exact ⟨hs.rest, hs.ifc, hs.ids, hs.dmd, hs.lsp, hs.outside⟩

end Loose

theorem looseInv (w : State) : FailInv (fun t => EndsInv t ∧ Loose w t) where
  wired s h := h.1.1
  zero s i h hi := ⟨endsInv.zero s i h.1 hi, h.2.trans (.of (Recfg.setReserved hi 0) fun k _ =>
    updIfc_field s i k (fun x => { x with reservedRaw := 0 }) (·.failed) fun _ => rfl)⟩
  valid env s h := by
    have a := wp_and (endsInv.valid env s h.1) (validate_checked env h.1.1.ids)
    refine wp_mono a ?_ ?_
    all_goals
      rintro _ t ⟨hb, hc⟩
      exact ⟨hb, h.2.trans (.checked h.1.2.1 hc)⟩
  held s i h hi hh := ⟨endsInv.held s i h.1 hi hh, h.2.trans (.down hi)⟩
  bring s i j h hi hj hij h1 h2 h3 := by
    have hb := endsInv.bring s i j h.1 hi hj hij h1 h2 h3
    have hl : Loose s (s.upIfc i) := .up hi
    split
    · next hh =>
      rw [if_pos hh] at hb
      exact ⟨hb, h.2.trans (hl.trans (.down (s := s.upIfc i) hj))⟩
    · next hh =>
      rw [if_neg hh] at hb
      exact ⟨hb, h.2.trans (hl.trans (.up (s := s.upIfc i) hj))⟩
  nodeUp s n h hn hh := ⟨endsInv.nodeUp s n h.1 hn hh, h.2.trans (.updNode hn false)⟩
  nodeHeld s n h hn hh := ⟨endsInv.nodeHeld s n h.1 hn hh, h.2.trans (.updNode hn true)⟩
  fell s F N h hF hN := ⟨endsInv.fell s F N h.1 hF hN, h.2.trans (.fell hF.inside hN.inside)⟩
  srlgUp s g h hg := ⟨endsInv.srlgUp s g h.1 hg, h.2.trans (.setSrlg hg false)⟩
  srlgDown s g h hg := ⟨endsInv.srlgDown s g h.1 hg,
    h.2.trans ((Loose.fell (srlgReach_closed h.1.1 g).inside
      (srlgReach_nodeClosed s g).inside).trans (.setSrlg (s := s.fell _ _) hg true))⟩

end NTM
