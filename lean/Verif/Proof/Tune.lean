import Verif.Spec.Tune
import Verif.Proof.WhatIf

/-!
# What assignments to settings change
-/

namespace NTM

open Spec

/-- a change of the settings of an interface -/
structure IfcSet (f : Ifc → Ifc) : Prop where
  keep : ∀ x, f x = { x with
    cost := (f x).cost, capacity := (f x).capacity, rsvpEnabled := (f x).rsvpEnabled
    pct := (f x).pct }
  comm : ∀ x a b c d e,
    f { x with traffic := a, reservedRaw := b, cktId := c, inCkt := d, failed := e } =
      { f x with traffic := a, reservedRaw := b, cktId := c, inCkt := d, failed := e }

/-- a change of the settings of an LSP -/
structure LspSet (f : Lsp → Lsp) : Prop where
  keep : ∀ x, f x = { x with
    configured := (f x).configured, manual := (f x).manual, initialMetric := (f x).initialMetric }
  comm : ∀ x a b c, f { x with path := a, reserved := b, setup := c } =
      { f x with path := a, reserved := b, setup := c }

namespace Loose

variable {v t : State}

theorem bothIfc (h : Loose v t) (i : ℕ) {f : Ifc → Ifc} (hf : IfcSet f) :
    Loose (v.updIfc i f) (t.updIfc i f) where
  core :=
    { rest := by
        have := h.core.rest
        obtain ⟨k, nd, I, D, L, G, ns, is, ds, ls, gs, cs, grp, nx, rp⟩ := t
        simp only [State.mk.injEq, true_and, and_true, State.updIfc] at this ⊢
        tauto
      ifc := fun k => by
        have e := h.core.ifc k
        unfold State.updIfc
        dsimp only
        split
        · have e1 : f (t.ifc k) = _ := (congrArg f e).trans (hf.comm _ _ _ _ _ _)
          rw [e1]
        · exact e
      ids := fun hk k => by
        have e := h.core.ids hk k
        unfold State.updIfc
        dsimp only
        split
        · rw [hf.keep (t.ifc k), hf.keep (v.ifc k)]; exact e
        · exact e
      dmd := h.core.dmd
      lsp := h.core.lsp
      outIfc := fun k hk => by
        have e := h.core.outIfc k hk
        unfold State.updIfc
        dsimp only
        split
        · rw [hf.keep (t.ifc k), hf.keep (v.ifc k)]; exact e
        · exact e
      outDmd := h.core.outDmd
      outLsp := h.core.outLsp }
  node := h.node
  srlg := h.srlg
  outIfc k hk := by
    have e := h.outIfc k hk
    unfold State.updIfc
    dsimp only
    split
    · rw [hf.keep (t.ifc k), hf.keep (v.ifc k)]; exact e
    · exact e
  outNode := h.outNode
  outSrlg := h.outSrlg

theorem bothLsp (h : Loose v t) (i : ℕ) {f : Lsp → Lsp} (hf : LspSet f) :
    Loose (v.updLsp i f) (t.updLsp i f) where
  core :=
    { rest := by
        have := h.core.rest
        obtain ⟨k, nd, I, D, L, G, ns, is, ds, ls, gs, cs, grp, nx, rp⟩ := t
        simp only [State.mk.injEq, true_and, and_true, State.updLsp] at this ⊢
        tauto
      ifc := h.core.ifc
      ids := h.core.ids
      dmd := h.core.dmd
      lsp := fun k => by
        have e := h.core.lsp k
        unfold State.updLsp
        dsimp only
        split
        · have e1 : f (t.lsp k) = _ := (congrArg f e).trans (hf.comm _ _ _ _)
          rw [e1]
        · exact e
      outIfc := h.core.outIfc
      outDmd := h.core.outDmd
      outLsp := fun k hk => by
        have e := h.core.outLsp k hk
        unfold State.updLsp
        dsimp only
        split
        · rw [hf.keep (t.lsp k), hf.keep (v.lsp k)]; exact e
        · exact e }
  node := h.node
  srlg := h.srlg
  outIfc := h.outIfc
  outNode := h.outNode
  outSrlg := h.outSrlg

theorem bothDmd (h : Loose v t) (i : ℕ) (q : ℚ) :
    Loose (v.updDmd i fun x => { x with traffic := q })
      (t.updDmd i fun x => { x with traffic := q }) where
  core :=
    { rest := by
        have := h.core.rest
        obtain ⟨k, nd, I, D, L, G, ns, is, ds, ls, gs, cs, grp, nx, rp⟩ := t
        simp only [State.mk.injEq, true_and, and_true, State.updDmd] at this ⊢
        tauto
      ifc := h.core.ifc
      ids := h.core.ids
      dmd := fun k => by
        have e := h.core.dmd k
        unfold State.updDmd
        dsimp only
        split
        · rw [e]
        · exact e
      lsp := h.core.lsp
      outIfc := h.core.outIfc
      outDmd := fun k hk => by
        have e := h.core.outDmd k hk
        unfold State.updDmd
        dsimp only
        split
        · exact e
        · exact e
      outLsp := h.core.outLsp }
  node := h.node
  srlg := h.srlg
  outIfc := h.outIfc
  outNode := h.outNode
  outSrlg := h.outSrlg

theorem bothNode (h : Loose v t) (i : ℕ) (b : Bool) :
    Loose (v.updNode i fun x => { x with shortcuts := b })
      (t.updNode i fun x => { x with shortcuts := b }) where
  core := h.core.swap (t.updNode i fun x => { x with shortcuts := b }).node t.srlg
  node k := by
    have e := h.node k
    unfold State.updNode
    dsimp only
    split
    · rw [e]
    · exact e
  srlg := h.srlg
  outIfc := h.outIfc
  outNode k hk := by
    have e := h.outNode k hk
    unfold State.updNode
    dsimp only
    split
    · exact e
    · exact e
  outSrlg := h.outSrlg

end Loose

/-- `v` is `w` with other settings of objects of the model -/
structure Retuned (w v : State) : Prop where
  rest : v = { w with node := v.node, ifc := v.ifc, dmd := v.dmd, lsp := v.lsp }
  node : ∀ n, v.node n = { w.node n with shortcuts := (v.node n).shortcuts }
  ifc : ∀ i, v.ifc i = { w.ifc i with
    cost := (v.ifc i).cost, capacity := (v.ifc i).capacity
    rsvpEnabled := (v.ifc i).rsvpEnabled, pct := (v.ifc i).pct }
  dmd : ∀ d, v.dmd d = { w.dmd d with traffic := (v.dmd d).traffic }
  lsp : ∀ l, v.lsp l = { w.lsp l with
    configured := (v.lsp l).configured, manual := (v.lsp l).manual
    initialMetric := (v.lsp l).initialMetric }
  outNode : ∀ n, n ∉ w.nodes → v.node n = w.node n
  outIfc : ∀ i, i ∉ w.ifs → v.ifc i = w.ifc i
  outDmd : ∀ d, d ∉ w.dmds → v.dmd d = w.dmd d
  outLsp : ∀ l, l ∉ w.lsps → v.lsp l = w.lsp l

namespace Retuned

variable {w v u t : State}

theorem refl (w : State) : Retuned w w :=
  ⟨rfl, fun _ => rfl, fun _ => rfl, fun _ => rfl, fun _ => rfl, fun _ _ => rfl, fun _ _ => rfl,
    fun _ _ => rfl, fun _ _ => rfl⟩

theorem nodes (h : Retuned w v) : v.nodes = w.nodes := by rw [h.rest]
theorem ifs (h : Retuned w v) : v.ifs = w.ifs := by rw [h.rest]
theorem dmds (h : Retuned w v) : v.dmds = w.dmds := by rw [h.rest]
theorem lsps (h : Retuned w v) : v.lsps = w.lsps := by rw [h.rest]

theorem trans (h : Retuned w v) (g : Retuned v u) : Retuned w u where
  rest := by rw [g.rest, h.rest]
  node i := by
    have e1 := h.node i
    have e2 := g.node i
    rw [e1] at e2
    exact e2
  ifc i := by
    have e1 := h.ifc i
    have e2 := g.ifc i
    rw [e1] at e2
    exact e2
  dmd i := by
    have e1 := h.dmd i
    have e2 := g.dmd i
    rw [e1] at e2
    exact e2
  lsp i := by
    have e1 := h.lsp i
    have e2 := g.lsp i
    rw [e1] at e2
    exact e2
  outNode i hi := (g.outNode i (by rw [h.nodes]; exact hi)).trans (h.outNode i hi)
  outIfc i hi := (g.outIfc i (by rw [h.ifs]; exact hi)).trans (h.outIfc i hi)
  outDmd i hi := (g.outDmd i (by rw [h.dmds]; exact hi)).trans (h.outDmd i hi)
  outLsp i hi := (g.outLsp i (by rw [h.lsps]; exact hi)).trans (h.outLsp i hi)

theorem updIfc {i : ℕ} (hi : i ∈ w.ifs) {f : Ifc → Ifc} (hf : IfcSet f) :
    Retuned w (w.updIfc i f) where
  rest := rfl
  node _ := rfl
  ifc k := by unfold State.updIfc; dsimp only; split; exacts [hf.keep _, rfl]
  dmd _ := rfl
  lsp _ := rfl
  outNode _ _ := rfl
  outIfc k hk := by
    have : k ≠ i := by rintro rfl; exact hk hi
    unfold State.updIfc; simp [this]
  outDmd _ _ := rfl
  outLsp _ _ := rfl

theorem updLsp {i : ℕ} (hi : i ∈ w.lsps) {f : Lsp → Lsp} (hf : LspSet f) :
    Retuned w (w.updLsp i f) where
  rest := rfl
  node _ := rfl
  ifc _ := rfl
  dmd _ := rfl
  lsp k := by unfold State.updLsp; dsimp only; split; exacts [hf.keep _, rfl]
  outNode _ _ := rfl
  outIfc _ _ := rfl
  outDmd _ _ := rfl
  outLsp k hk := by
    have : k ≠ i := by rintro rfl; exact hk hi
    unfold State.updLsp; simp [this]

theorem updDmd {i : ℕ} (hi : i ∈ w.dmds) (q : ℚ) :
    Retuned w (w.updDmd i fun x => { x with traffic := q }) where
  rest := rfl
  node _ := rfl
  ifc _ := rfl
  dmd k := by unfold State.updDmd; dsimp only; split <;> rfl
  lsp _ := rfl
  outNode _ _ := rfl
  outIfc _ _ := rfl
  outDmd k hk := by
    have : k ≠ i := by rintro rfl; exact hk hi
    unfold State.updDmd; simp [this]
  outLsp _ _ := rfl

theorem updNode {i : ℕ} (hi : i ∈ w.nodes) (b : Bool) :
    Retuned w (w.updNode i fun x => { x with shortcuts := b }) where
  rest := rfl
  node k := by unfold State.updNode; dsimp only; split <;> rfl
  ifc _ := rfl
  dmd _ := rfl
  lsp _ := rfl
  outNode k hk := by
    have : k ≠ i := by rintro rfl; exact hk hi
    unfold State.updNode; simp [this]
  outIfc _ _ := rfl
  outDmd _ _ := rfl
  outLsp _ _ := rfl

theorem net (h : Retuned w v) : SameNet w v where
  kind := by rw [h.rest]
  nodes := h.nodes
  ifs := h.ifs
  srlgs := by rw [h.rest]
  next := by rw [h.rest]
  name n := by rw [h.node n]
  ifcName i := by rw [h.ifc i]
  node i := by rw [h.ifc i]
  remote i := by rw [h.ifc i]
  flexId _ i := by rw [h.ifc i]
  srlgName g := by rw [h.rest]

theorem ends (h : Retuned w v) (hw : EndsInv w) : EndsInv v := by
  have e : v.srlg = w.srlg := by rw [h.rest]
  refine ⟨hw.1.congr h.net, endsAgree_congr hw.2.1 h.net (fun i _ => by rw [h.ifc i]),
    ifcsDown_mono hw.2.2.1 h.ifs ?_ ?_, srlgsMatch_congr hw.2.2.2 h.net fun i => by rw [h.ifc i]⟩
  · intro n g hg hf; rw [h.ifc n] at hg; rw [e] at hf; exact ⟨hg, hf⟩
  · intro n _ hf; rw [h.ifc n]; exact hf

theorem tidy (h : Retuned w v) (hw : Tidy w) (hc : PosCosts v) : Tidy v where
  nodes := by rw [h.nodes]; exact hw.nodes
  ifs := by rw [h.ifs]; exact hw.ifs
  dmds := by rw [h.dmds]; exact hw.dmds
  lsps := by rw [h.lsps]; exact hw.lsps
  costs := hc
  ends := endsAgree_congr hw.ends h.net fun i _ => by rw [h.ifc i]
  ckts := fun hk i hi => by
    rw [h.ifc i]; exact hw.ckts (h.net.kind ▸ hk) i (h.ifs ▸ hi)

/-- with the same settings they are the same -/
theorem eq (h : Retuned w v) (g : Retuned w u) (hs : SameSettings v u) : v = u := by
  have e1 : v.node = u.node := funext fun n => by
    by_cases hn : n ∈ w.nodes
    · rw [h.node n, g.node n, hs.nodes n (by rw [h.nodes]; exact hn)]
    · rw [h.outNode n hn, g.outNode n hn]
  have e2 : v.ifc = u.ifc := funext fun n => by
    by_cases hn : n ∈ w.ifs
    · obtain ⟨a, b, c, d⟩ := hs.ifcs n (by rw [h.ifs]; exact hn)
      rw [h.ifc n, g.ifc n, a, b, c, d]
    · rw [h.outIfc n hn, g.outIfc n hn]
  have e3 : v.dmd = u.dmd := funext fun n => by
    by_cases hn : n ∈ w.dmds
    · rw [h.dmd n, g.dmd n, hs.dmds n (by rw [h.dmds]; exact hn)]
    · rw [h.outDmd n hn, g.outDmd n hn]
  have e4 : v.lsp = u.lsp := funext fun n => by
    by_cases hn : n ∈ w.lsps
    · obtain ⟨a, b, c⟩ := hs.lsps n (by rw [h.lsps]; exact hn)
      rw [h.lsp n, g.lsp n, a, b, c]
    · rw [h.outLsp n hn, g.outLsp n hn]
  rw [h.rest, g.rest, e1, e2, e3, e4]

end Retuned

theorem Loose.settings {v t : State} (h : Loose v t) : SameSettings v t where
  ifcs i _ := by rw [h.core.ifc i]; exact ⟨rfl, rfl, rfl, rfl⟩
  dmds d _ := by rw [h.core.dmd d]
  lsps l _ := by rw [h.core.lsp l]; exact ⟨rfl, rfl, rfl⟩
  nodes n _ := by rw [h.node n]

/-- the settings and the failed states apart, `t` has the configuration of `w` -/
def Tuned (w t : State) : Prop := ∃ v, Retuned w v ∧ Loose v t

/-- what a session keeps -/
def TuneInv (w t : State) : Prop := EndsInv t ∧ Tidy t ∧ Tuned w t

theorem tuneInv_ifc {w t : State} {i : ℕ} (hi : i ∈ t.ifs) {f : Ifc → Ifc} (hf : IfcSet f)
    (hc : ∀ x, 0 < x.cost → 0 < (f x).cost) (h : TuneInv w t) : TuneInv w (t.updIfc i f) := by
  obtain ⟨he, ht, v, hv, hl⟩ := h
  have r : Retuned t (t.updIfc i f) := .updIfc hi hf
  refine ⟨r.ends he, r.tidy ht fun k hk => ?_, v.updIfc i f,
    hv.trans (.updIfc (by rw [← hl.ifs]; exact hi) hf), hl.bothIfc i hf⟩
  have := ht.costs k hk
  unfold State.updIfc
  dsimp only
  split
  · exact hc _ this
  · exact this

theorem tuneInv_lsp {w t : State} {l : ℕ} (hi : l ∈ t.lsps) {f : Lsp → Lsp} (hf : LspSet f)
    (h : TuneInv w t) : TuneInv w (t.updLsp l f) := by
  obtain ⟨he, ht, v, hv, hl⟩ := h
  have r : Retuned t (t.updLsp l f) := .updLsp hi hf
  exact ⟨r.ends he, r.tidy ht ht.costs, v.updLsp l f,
    hv.trans (.updLsp (by rw [← hl.core.lsps]; exact hi) hf), hl.bothLsp l hf⟩

theorem tuneInv_set {w t : State} (x : Setting) (hx : x.OnModel t) (h : TuneInv w t) :
    TuneInv w (finalState x.assign t) := by
  cases x with
  | cost i c =>
    unfold finalState Setting.assign setCost
    dsimp only
    by_cases hc : c < 1
    · rw [if_pos hc]; exact h
    · rw [if_neg hc]
      exact tuneInv_ifc (f := fun x => { x with cost := c.toNat }) hx
        ⟨fun _ => rfl, fun _ _ _ _ _ _ => rfl⟩ (fun _ _ => by dsimp only; omega) h
  | capacity i q =>
    unfold finalState Setting.assign setCapacity
    dsimp only
    by_cases hc : 0 < q
    · rw [if_neg (not_not.2 hc)]
      exact tuneInv_ifc (f := fun x => { x with capacity := q }) hx
        ⟨fun _ => rfl, fun _ _ _ _ _ _ => rfl⟩ (fun _ h => h) h
    · rw [if_pos hc]; exact h
  | rsvp i b =>
    exact tuneInv_ifc (f := fun x => { x with rsvpEnabled := b }) hx
        ⟨fun _ => rfl, fun _ _ _ _ _ _ => rfl⟩ (fun _ h => h) h
  | percent i b =>
    exact tuneInv_ifc (f := fun x => { x with pct := b }) hx
        ⟨fun _ => rfl, fun _ _ _ _ _ _ => rfl⟩ (fun _ h => h) h
  | traffic d q =>
    obtain ⟨he, ht, v, hv, hl⟩ := h
    have r := Retuned.updDmd (w := t) hx q
    exact ⟨r.ends he, r.tidy ht ht.costs, _,
      hv.trans (.updDmd (by rw [← hl.core.dmds]; exact hx) q), hl.bothDmd d q⟩
  | configured l q =>
    exact tuneInv_lsp (f := fun x => { x with configured := q }) hx
        ⟨fun _ => rfl, fun _ _ _ _ => rfl⟩ h
  | metric l m =>
    obtain ⟨hl, hp⟩ := hx
    have key : ∀ y, (t.lsp l).assignMetric m = .ok y →
        TuneInv w (t.updLsp l fun _ => y) := by
      intro y hy
      obtain ⟨r, hr⟩ : ∃ r, y = { t.lsp l with initialMetric := none, manual := r } := by
        unfold Lsp.assignMetric at hy
        rcases hp with hp | hp <;> rw [hp] at hy <;> dsimp only at hy
        · split at hy
          · cases hy; exact ⟨_, rfl⟩
          · split at hy <;> cases hy
            exact ⟨_, rfl⟩
        · rw [if_neg (by simp)] at hy
          split at hy
          · cases hy; exact ⟨_, rfl⟩
          · split at hy <;> cases hy
            exact ⟨_, rfl⟩
      have : (t.updLsp l fun _ => y) =
          t.updLsp l fun x => { x with initialMetric := none, manual := r } := by
        unfold State.updLsp
        congr 1
        funext k
        dsimp only
        split
        · next e => rw [hr, e]
        · rfl
      rw [this]
      exact tuneInv_lsp hl ⟨fun _ => rfl, fun _ _ _ _ => rfl⟩ h
    unfold finalState Setting.assign
    dsimp only
    cases hm : (t.lsp l).assignMetric m with
    | ok y => exact key y hm
    | error e => exact h
  | shortcuts n b =>
    obtain ⟨he, ht, v, hv, hl⟩ := h
    have r := Retuned.updNode (w := t) hx b
    exact ⟨r.ends he, r.tidy ht ht.costs, _,
      hv.trans (.updNode (by rw [← hl.core.nodes]; exact hx) b), hl.bothNode n b⟩

end NTM
