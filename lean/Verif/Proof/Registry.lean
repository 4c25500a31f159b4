import Verif.Proof.Membership
import Verif.Spec.Registry

/-!
# Adding objects: keys stay unique
-/

namespace NTM

open Spec

/-- SRLGs have unique names and allocated references -/
def SrlgOk (s : State) : Prop := UniqueSrlgNames s ∧ ∀ g ∈ s.srlgs, g < s.next

/-- same nodes, interfaces, demands and LSPs with the same identities and ends -/
structure SameKeys (s t : State) : Prop where
  kind : t.kind = s.kind
  nodes : t.nodes = s.nodes
  ifs : t.ifs = s.ifs
  dmds : t.dmds = s.dmds
  lsps : t.lsps = s.lsps
  next : s.next ≤ t.next
  name : ∀ n, (t.node n).name = (s.node n).name
  ifc : ∀ i, (t.ifc i).name = (s.ifc i).name ∧ (t.ifc i).node = (s.ifc i).node ∧
    (t.ifc i).remote = (s.ifc i).remote
  dmd : ∀ d, (t.dmd d).name = (s.dmd d).name ∧ (t.dmd d).src = (s.dmd d).src ∧
    (t.dmd d).dst = (s.dmd d).dst
  lsp : ∀ l, (t.lsp l).name = (s.lsp l).name ∧ (t.lsp l).src = (s.lsp l).src ∧
    (t.lsp l).dst = (s.lsp l).dst
  srlgs : SrlgOk s → SrlgOk t

theorem SameKeys.frame : Frame SameKeys where
  refl _ := ⟨rfl, rfl, rfl, rfl, rfl, le_rfl, fun _ => rfl, fun _ => ⟨rfl, rfl, rfl⟩,
    fun _ => ⟨rfl, rfl, rfl⟩, fun _ => ⟨rfl, rfl, rfl⟩, id⟩
  trans h g :=
    { kind := g.kind.trans h.kind, nodes := g.nodes.trans h.nodes, ifs := g.ifs.trans h.ifs
      dmds := g.dmds.trans h.dmds, lsps := g.lsps.trans h.lsps, next := h.next.trans g.next
      name := fun n => (g.name n).trans (h.name n)
      ifc := fun i => ⟨(g.ifc i).1.trans (h.ifc i).1, (g.ifc i).2.1.trans (h.ifc i).2.1,
        (g.ifc i).2.2.trans (h.ifc i).2.2⟩
      dmd := fun i => ⟨(g.dmd i).1.trans (h.dmd i).1, (g.dmd i).2.1.trans (h.dmd i).2.1,
        (g.dmd i).2.2.trans (h.dmd i).2.2⟩
      lsp := fun i => ⟨(g.lsp i).1.trans (h.lsp i).1, (g.lsp i).2.1.trans (h.lsp i).2.1,
        (g.lsp i).2.2.trans (h.lsp i).2.2⟩
      srlgs := fun hs => g.srlgs (h.srlgs hs) }

theorem SameKeys.updIfc (s : State) (i : ℕ) {f : Ifc → Ifc}
    (hf : ∀ x, (f x).name = x.name ∧ (f x).node = x.node ∧ (f x).remote = x.remote) :
    SameKeys s (s.updIfc i f) :=
  { SameKeys.frame.refl s with
    ifc := fun k => by
      unfold State.updIfc
      simp only []
      split
      · exact hf _
      · exact ⟨rfl, rfl, rfl⟩
    srlgs := id }

theorem SameKeys.updNode (s : State) (i : ℕ) {f : Node → Node}
    (hf : ∀ x, (f x).name = x.name) : SameKeys s (s.updNode i f) :=
  { SameKeys.frame.refl s with
    name := fun k => by
      unfold State.updNode
      simp only []
      split
      · exact hf _
      · rfl
    srlgs := id }

theorem SameKeys.updSrlg (s : State) (i : ℕ) {f : Srlg → Srlg}
    (hf : ∀ x, (f x).name = x.name) : SameKeys s (s.updSrlg i f) :=
  { SameKeys.frame.refl s with
    srlgs := by
      have hn : ∀ k, ((s.updSrlg i f).srlg k).name = (s.srlg k).name := by
        intro k
        unfold State.updSrlg
        simp only []
        split
        · exact hf _
        · rfl
      rintro ⟨⟨h1, h2⟩, h3⟩
      refine ⟨⟨h1, ?_⟩, h3⟩
      intro g hg h hh he
      rw [hn, hn] at he
      exact h2 g hg h hh he }

theorem SameCfg.sameKeys {s t : State} (h : SameCfg s t) : SameKeys s t where
  kind := h.kind
  nodes := h.nodes
  ifs := h.ifs
  dmds := h.dmds
  lsps := h.lsps
  next := h.next.ge
  name n := by rw [h.node]
  ifc i := by rw [h.ifc]; exact ⟨rfl, rfl, rfl⟩
  dmd i := by rw [h.dmd]; exact ⟨rfl, rfl, rfl⟩
  lsp i := by rw [h.lsp]; exact ⟨rfl, rfl, rfl⟩
  srlgs := by
    unfold SrlgOk UniqueSrlgNames
    rw [h.srlgs, h.srlg, h.next]
    exact id

theorem SameKeys.withCkt (s : State) (C : List (ℕ × ℕ)) (B : ℕ → Bool) (I : ℕ → CktId) :
    SameKeys s (s.withCkt C B I) :=
  { SameKeys.frame.refl s with ifc := fun _ => ⟨rfl, rfl, rfl⟩, srlgs := id }

theorem SameKeys.fell (s : State) (F N : ℕ → Bool) : SameKeys s (s.fell F N) :=
  { SameKeys.frame.refl s with
    name := fun n => (fell_sameNet s F N).name n
    ifc := fun i => ⟨(fell_sameNet s F N).ifcName i, (fell_sameNet s F N).node i,
      (fell_sameNet s F N).remote i⟩
    srlgs := id }

section
variable {α : Type}

theorem Keeps.modify {R : State → State → Prop} {f : State → State} (hf : ∀ s, R s (f s)) :
    Keeps R (modify f : Py Unit) := fun s => hf s

theorem Keeps.get_bind {R : State → State → Prop} {f : State → Py α}
    (hf : ∀ s, wp (f s) (fun _ t => R s t) (fun _ t => R s t) s) : Keeps R (MonadState.get >>= f) := fun s => hf s

theorem Keeps.ignore {R : State → State → Prop} {x : Py Unit} (h : Keeps R x) :
    Keeps R (ignoreModelExn x) := by
  intro s
  have := h s
  unfold ignoreModelExn pyTry wp at *
  cases hx : x s with
  | ok a t => simp only [hx] at this ⊢; exact this
  | error e t =>
    simp only [hx] at this ⊢
    cases e <;> exact this
end

/-- `Keeps` for computations made of steps with a `Keeps` lemma -/
macro "keeps" : tactic => `(tactic|
  repeat' (first
    | assumption
    | exact Keeps.pure SameKeys.frame _
    | exact Keeps.get SameKeys.frame
    | exact Keeps.raise SameKeys.frame _
    | exact Keeps.liftE SameKeys.frame _
    | (with_reducible refine Keeps.bind SameKeys.frame ?_ (fun _ => ?_))
    | (refine Keeps.forEach SameKeys.frame _ (fun _ => ?_) _)
    | (refine Keeps.ignore ?_)
    | split))

theorem keys_validate (env : Env) : Keeps SameKeys (validate env) := by
  intro s
  refine wp_mono (validate_spec env s) ?_ ?_
  · rintro _ t ⟨u, h1, rfl, -⟩
    obtain ⟨B, I, hu⟩ := h1.eq
    have h : SameKeys s u := by rw [hu]; exact SameKeys.withCkt s _ B I
    rw [repair_fell]
    exact SameKeys.frame.trans h (SameKeys.fell _ _ _)
  · rintro _ t ⟨B, I, ⟨C, rfl, -⟩ | ⟨u, h1, ht, -⟩⟩
    · exact SameKeys.withCkt s C B I
    · obtain ⟨B, I, hu⟩ := h1.eq
      have h : SameKeys s u := by rw [hu]; exact SameKeys.withCkt s _ B I
      rcases ht with rfl | rfl
      · exact h
      · rw [repair_fell]
        exact SameKeys.frame.trans h (SameKeys.fell _ _ _)

theorem keys_simulate (env : Env) : Keeps SameKeys (updateSimulation env) := fun s =>
  stays_simBody env (SameKeys s) (fun _ _ h c => SameKeys.frame.trans h c.sameKeys)
    (fun t h => wp_mono (keys_validate env t) (fun _ _ g => SameKeys.frame.trans h g)
      (fun _ _ g => SameKeys.frame.trans h g)) s (SameKeys.frame.refl s)

theorem keys_setIfcFailed (i : ℕ) (b : Bool) : Keeps SameKeys (setIfcFailed i b) := by
  intro s
  unfold wp
  cases b with
  | true => rw [setIfcFailed_true]; exact SameKeys.updIfc s i fun _ => ⟨rfl, rfl, rfl⟩
  | false =>
    rw [setIfcFailed_false]
    by_cases h1 : s.ifcHeld i = true
    · rw [if_pos h1]
      exact SameKeys.updIfc s i fun _ => ⟨rfl, rfl, rfl⟩
    · rw [if_neg h1]
      by_cases h2 : (s.node (s.ifc i).node).failed = false ∧ (s.node (s.ifc i).remote).failed = false
      · rw [if_pos h2]
        exact SameKeys.updIfc s i fun _ => ⟨rfl, rfl, rfl⟩
      · rw [if_neg h2]
        exact SameKeys.updIfc s i fun _ => ⟨rfl, rfl, rfl⟩

theorem keys_setNodeFailed (i : ℕ) (b : Bool) : Keeps SameKeys (setNodeFailed i b) := by
  intro s
  unfold wp
  cases b with
  | true => exact SameKeys.updNode s i fun _ => rfl
  | false =>
    rw [setNodeFailed_false]
    by_cases h1 : s.nodeHeld i = true
    · rw [if_pos h1]
      exact SameKeys.updNode s i fun _ => rfl
    · rw [if_neg h1]
      exact SameKeys.updNode s i fun _ => rfl

theorem keys_setReserved (i : ℕ) (v : ℚ) :
    Keeps SameKeys (modify fun s => s.setReserved i v : Py Unit) :=
  Keeps.modify fun s => SameKeys.updIfc s i fun _ => ⟨rfl, rfl, rfl⟩

theorem keys_failInterface (a b : String) : Keeps SameKeys (failInterface a b) := by
  unfold failInterface
  have h := keys_setIfcFailed
  keeps <;> exact h _ _

theorem keys_unfailInterface (env : Env) (a b : String) (e : Bool) :
    Keeps SameKeys (unfailInterface env a b e) := by
  unfold unfailInterface
  have h := keys_setIfcFailed
  have h' := keys_setReserved
  have h'' := keys_validate env
  refine Keeps.bind SameKeys.frame (Keeps.get SameKeys.frame) fun s => ?_
  refine Keeps.bind SameKeys.frame (Keeps.liftE SameKeys.frame _) fun i => ?_
  refine Keeps.bind SameKeys.frame (Keeps.liftE SameKeys.frame _) fun r => ?_
  refine Keeps.bind SameKeys.frame (Keeps.liftE SameKeys.frame _) fun n => ?_
  simp only []
  keeps <;> first | exact h _ _ | exact h' _ _

theorem keys_failNode (a : String) : Keeps SameKeys (failNode a) := by
  unfold failNode
  have h := keys_setNodeFailed
  have h' := keys_failInterface
  keeps <;> first | exact h _ _ | exact h' _ _

theorem keys_unfailNode (env : Env) (a : String) : Keeps SameKeys (unfailNode env a) := by
  unfold unfailNode
  have h := keys_setNodeFailed
  have h' := keys_unfailInterface env
  keeps <;> first | exact h _ _ | exact h' _ _ _

theorem keys_failSrlg (a : String) : Keeps SameKeys (failSrlg a) := by
  unfold failSrlg
  have h := keys_failNode
  have h' := keys_failInterface
  keeps
  · exact h _
  · exact h' _ _
  · exact Keeps.modify fun s => SameKeys.updSrlg s _ fun _ => rfl

theorem keys_unfailSrlg (env : Env) (a : String) : Keeps SameKeys (unfailSrlg env a) := by
  unfold unfailSrlg
  have h := keys_unfailNode env
  have h' := keys_unfailInterface env
  keeps
  · exact Keeps.modify fun s => SameKeys.updSrlg s _ fun _ => rfl
  · exact h _
  · exact h' _ _ _

theorem keys_newSrlg (a : String) : Keeps SameKeys (newSrlg a) := by
  unfold newSrlg
  refine Keeps.get_bind fun s => ?_
  refine wp_ite (fun h => SameKeys.frame.refl s) (fun h => ?_)
  simp only [wp_bind, wp_set]
  refine { SameKeys.frame.refl s with next := Nat.le_succ _, srlgs := ?_ }
  rintro ⟨⟨h1, h2⟩, h3⟩
  have hne : ∀ g ∈ s.srlgs, g ≠ s.next := fun g hg e => absurd (h3 g hg) (by omega)
  have hnm : ∀ g ∈ s.srlgs, (s.srlg g).name ≠ a := by
    intro g hg e
    exact h (List.any_eq_true.2 ⟨g, hg, by simpa using e⟩)
  refine ⟨⟨?_, ?_⟩, ?_⟩
  · exact List.nodup_append.2 ⟨h1, by simp, by
      rintro x hx y hy rfl
      rw [List.mem_singleton] at hy
      exact hne x hx hy⟩
  · intro g hg k hk
    simp only [List.mem_append, List.mem_singleton] at hg hk
    rcases hg with hg | rfl <;> rcases hk with hk | rfl
    · simp only [hne g hg, hne k hk, if_false]
      exact h2 g hg k hk
    · simp only [hne g hg, if_false, if_true]
      exact fun e => absurd e (hnm g hg)
    · simp only [hne k hk, if_false, if_true]
      exact fun e => absurd e.symm (hnm k hk)
    · exact fun _ => rfl
  · intro g hg
    simp only [List.mem_append, List.mem_singleton] at hg
    rcases hg with hg | rfl
    · exact Nat.lt_succ_of_lt (h3 g hg)
    · exact Nat.lt_succ_self _

theorem keys_addSrlg (a : String) : Keeps SameKeys (addSrlg a) := by
  unfold addSrlg
  have h := keys_newSrlg
  keeps
  exact h _

theorem keys_ifcFail (i : ℕ) : Keeps SameKeys (ifcFail i) := by
  unfold ifcFail
  have h := keys_setIfcFailed
  keeps <;> exact h _ _

theorem keys_ifcUnfail (i : ℕ) : Keeps SameKeys (ifcUnfail i) := by
  unfold ifcUnfail
  have h := keys_setIfcFailed
  keeps <;> exact h _ _

theorem keys_joinIfc (i : ℕ) (a : String) (c : Bool) : Keeps SameKeys (ifcAddToSrlg i a c) := by
  unfold ifcAddToSrlg
  have h := keys_newSrlg
  have h' : ∀ g j, Keeps SameKeys (modify fun s => s.ifcJoin j g : Py Unit) := fun g j =>
    Keeps.modify fun s => SameKeys.updIfc s j fun _ => ⟨rfl, rfl, rfl⟩
  keeps <;> first | exact h _ | exact h' _ _

theorem keys_joinNode (i : ℕ) (a : String) (c : Bool) : Keeps SameKeys (nodeAddToSrlg i a c) := by
  unfold nodeAddToSrlg
  have h := keys_newSrlg
  have h' : ∀ g j, Keeps SameKeys (modify fun s => s.nodeJoin j g : Py Unit) := fun g j =>
    Keeps.modify fun s => SameKeys.updNode s j fun _ => rfl
  keeps <;> first | exact h _ | exact h' _ _

theorem keys_leaveNode (i : ℕ) (a : String) : Keeps SameKeys (nodeRemoveFromSrlg i a) := by
  unfold nodeRemoveFromSrlg
  refine Keeps.get_bind fun s => ?_
  cases s.getSrlg a with
  | error e => exact SameKeys.frame.refl s
  | ok g =>
    simp only []
    have hend : ∀ t, SameKeys s t → wp (setNodeFailed i false) (fun _ t => SameKeys s t)
        (fun _ t => SameKeys s t) t := fun t ht =>
      wp_mono (keys_setNodeFailed i false t) (fun _ _ h => SameKeys.frame.trans ht h)
        (fun _ _ h => SameKeys.frame.trans ht h)
    split
    · split
      · exact hend _ (SameKeys.updNode s i fun _ => rfl)
      · exact SameKeys.frame.refl s
    · exact SameKeys.frame.refl s

theorem keys_leaveIfc (i : ℕ) (a : String) : Keeps SameKeys (ifcRemoveFromSrlg i a) := by
  unfold ifcRemoveFromSrlg
  refine Keeps.get_bind fun s => ?_
  cases s.getSrlg a with
  | error e => exact SameKeys.frame.refl s
  | ok g =>
    simp only []
    have hend : ∀ t, SameKeys s t → wp (setIfcFailed i false) (fun _ t => SameKeys s t)
        (fun _ t => SameKeys s t) t := fun t ht =>
      wp_mono (keys_setIfcFailed i false t) (fun _ _ h => SameKeys.frame.trans ht h)
        (fun _ _ h => SameKeys.frame.trans ht h)
    have h1 : SameKeys s (s.ifcLeave i g) := SameKeys.updIfc s i fun _ => ⟨rfl, rfl, rfl⟩
    split
    · split
      · simp only [wp_bind, wp_set, wp_get, wp_liftE]
        cases (s.ifcLeave i g).remoteIfc i with
        | error e => exact h1
        | ok r =>
          simp only []
          split
          · split
            · exact hend _ (SameKeys.frame.trans h1 (SameKeys.updIfc _ r fun _ => ⟨rfl, rfl, rfl⟩))
            · exact h1
          · exact h1
      · exact SameKeys.frame.refl s
    · exact SameKeys.frame.refl s

theorem keys_call (env : Env) (c : Call) : Keeps SameKeys (c.run env) := by
  cases c with
  | failInterface a b => exact keys_failInterface a b
  | unfailInterface a b e => exact keys_unfailInterface env a b e
  | interfaceFail i => exact keys_ifcFail i
  | interfaceUnfail i => exact keys_ifcUnfail i
  | failNode a => exact keys_failNode a
  | unfailNode a => exact keys_unfailNode env a
  | failSrlg a => exact keys_failSrlg a
  | unfailSrlg a => exact keys_unfailSrlg env a
  | addSrlg a => exact keys_addSrlg a
  | validate => exact keys_validate env
  | simulate => exact keys_simulate env
  | joinIfc i a c => exact keys_joinIfc i a c
  | leaveIfc i a => exact keys_leaveIfc i a
  | joinNode n a c => exact keys_joinNode n a c
  | leaveNode n a => exact keys_leaveNode n a

/-- the invariant of building a model -/
def Keyed (s : State) : Prop := UniqueKeys s ∧ Grounded s

theorem SameKeys.tail {s t : State} (h : SameKeys s t) (i : ℕ) : t.tail i = s.tail i := by
  unfold State.tail
  rw [(h.ifc i).2.1, h.name]

theorem SameKeys.dmdEnds {s t : State} (h : SameKeys s t) (d : ℕ) :
    t.dmdSrc d = s.dmdSrc d ∧ t.dmdDst d = s.dmdDst d := by
  unfold State.dmdSrc State.dmdDst
  rw [(h.dmd d).2.1, (h.dmd d).2.2, h.name, h.name]
  exact ⟨rfl, rfl⟩

theorem SameKeys.lspEnds {s t : State} (h : SameKeys s t) (d : ℕ) :
    t.lspSrc d = s.lspSrc d ∧ t.lspDst d = s.lspDst d := by
  unfold State.lspSrc State.lspDst
  rw [(h.lsp d).2.1, (h.lsp d).2.2, h.name, h.name]
  exact ⟨rfl, rfl⟩

theorem nodup_map_iff {α β : Type} {f : α → β} {l : List α} :
    (l.map f).Nodup ↔ l.Nodup ∧ ∀ a ∈ l, ∀ b ∈ l, f a = f b → a = b := by
  constructor
  · intro h
    exact ⟨h.of_map, fun a ha b hb e => List.inj_on_of_nodup_map h ha hb e⟩
  · rintro ⟨h1, h2⟩
    exact List.Nodup.map_on h2 h1

theorem Keyed.srlgOk {s : State} (h : Keyed s) : SrlgOk s :=
  ⟨nodup_map_iff.1 h.1.srlgs, h.2.srlgs⟩

theorem Keyed.congr {s t : State} (h : Keyed s) (c : SameKeys s t) : Keyed t := by
  have hs := c.srlgs h.srlgOk
  refine ⟨⟨?_, ?_, ?_, ?_, nodup_map_iff.2 hs.1⟩, ⟨?_, ?_, ?_, ?_, hs.2⟩⟩
  · have := h.1.nodes
    unfold State.nodeNames at *
    rw [c.nodes]
    simpa only [c.name] using this
  · have := h.1.ifs
    rw [c.ifs]
    simpa only [c.tail, (c.ifc _).1] using this
  · have := h.1.dmds
    rw [c.dmds]
    simpa only [(c.dmdEnds _).1, (c.dmdEnds _).2, (c.dmd _).1] using this
  · have := h.1.lsps
    rw [c.lsps]
    simpa only [(c.lspEnds _).1, (c.lspEnds _).2, (c.lsp _).1] using this
  · rw [c.nodes]; exact fun n hn => (h.2.nodes n hn).trans_le c.next
  · rw [c.ifs, c.nodes]
    intro i hi
    rw [(c.ifc i).2.1, (c.ifc i).2.2]
    exact ⟨(h.2.ifs i hi).1.trans_le c.next, (h.2.ifs i hi).2⟩
  · rw [c.dmds, c.nodes]
    intro i hi
    rw [(c.dmd i).2.1, (c.dmd i).2.2]
    exact ⟨(h.2.dmds i hi).1.trans_le c.next, (h.2.dmds i hi).2⟩
  · rw [c.lsps, c.nodes]
    intro i hi
    rw [(c.lsp i).2.1, (c.lsp i).2.2]
    exact ⟨(h.2.lsps i hi).1.trans_le c.next, (h.2.lsps i hi).2⟩

theorem keyed_validate (env : Env) : Stays Keyed (validate env) :=
  (keys_validate env).stays fun _ _ h c => h.congr c

/-- a new object changes nothing that belongs to the model -/
theorem Keyed.alloc {s t : State} (h : Keyed s) (hnodes : t.nodes = s.nodes) (hifs : t.ifs = s.ifs)
    (hdmds : t.dmds = s.dmds) (hlsps : t.lsps = s.lsps) (hsrlgs : t.srlgs = s.srlgs)
    (hnext : s.next ≤ t.next) (hnode : ∀ r, r < s.next → t.node r = s.node r)
    (hifc : ∀ r, r < s.next → t.ifc r = s.ifc r) (hdmd : ∀ r, r < s.next → t.dmd r = s.dmd r)
    (hlsp : ∀ r, r < s.next → t.lsp r = s.lsp r) (hsrlg : ∀ r, r < s.next → t.srlg r = s.srlg r) :
    Keyed t := by
  have hnm : ∀ n ∈ s.nodes, t.node n = s.node n := fun n hn => hnode n (h.2.nodes n hn)
  have e1 : t.nodeNames = s.nodeNames := by
    unfold State.nodeNames
    rw [hnodes]
    exact List.map_congr_left fun n hn => by rw [hnm n hn]
  have e2 : (t.ifs.map fun i => ((t.ifc i).name, t.tail i)) =
      s.ifs.map fun i => ((s.ifc i).name, s.tail i) := by
    rw [hifs]
    refine List.map_congr_left fun i hi => ?_
    unfold State.tail
    rw [hifc i (h.2.ifs i hi).1, hnm _ (h.2.ifs i hi).2.1]
  have e3 : (t.dmds.map fun d => (t.dmdSrc d, t.dmdDst d, (t.dmd d).name)) =
      s.dmds.map fun d => (s.dmdSrc d, s.dmdDst d, (s.dmd d).name) := by
    rw [hdmds]
    refine List.map_congr_left fun i hi => ?_
    unfold State.dmdSrc State.dmdDst
    rw [hdmd i (h.2.dmds i hi).1, hnm _ (h.2.dmds i hi).2.1, hnm _ (h.2.dmds i hi).2.2]
  have e4 : (t.lsps.map fun d => (t.lspSrc d, t.lspDst d, (t.lsp d).name)) =
      s.lsps.map fun d => (s.lspSrc d, s.lspDst d, (s.lsp d).name) := by
    rw [hlsps]
    refine List.map_congr_left fun i hi => ?_
    unfold State.lspSrc State.lspDst
    rw [hlsp i (h.2.lsps i hi).1, hnm _ (h.2.lsps i hi).2.1, hnm _ (h.2.lsps i hi).2.2]
  have e5 : (t.srlgs.map fun g => (t.srlg g).name) = s.srlgs.map fun g => (s.srlg g).name := by
    rw [hsrlgs]
    exact List.map_congr_left fun g hg => by rw [hsrlg g (h.2.srlgs g hg)]
  refine ⟨⟨?_, ?_, ?_, ?_, ?_⟩, ⟨?_, ?_, ?_, ?_, ?_⟩⟩
  · rw [e1]; exact h.1.nodes
  · rw [e2]; exact h.1.ifs
  · rw [e3]; exact h.1.dmds
  · rw [e4]; exact h.1.lsps
  · rw [e5]; exact h.1.srlgs
  · rw [hnodes]; exact fun n hn => (h.2.nodes n hn).trans_le hnext
  · rw [hifs, hnodes]
    intro i hi
    rw [hifc i (h.2.ifs i hi).1]
    exact ⟨(h.2.ifs i hi).1.trans_le hnext, (h.2.ifs i hi).2⟩
  · rw [hdmds, hnodes]
    intro i hi
    rw [hdmd i (h.2.dmds i hi).1]
    exact ⟨(h.2.dmds i hi).1.trans_le hnext, (h.2.dmds i hi).2⟩
  · rw [hlsps, hnodes]
    intro i hi
    rw [hlsp i (h.2.lsps i hi).1]
    exact ⟨(h.2.lsps i hi).1.trans_le hnext, (h.2.lsps i hi).2⟩
  · rw [hsrlgs]; exact fun g hg => (h.2.srlgs g hg).trans_le hnext

theorem nodup_append_one {α : Type} {l : List α} {x : α} (h : l.Nodup) (hx : x ∉ l) :
    (l ++ [x]).Nodup :=
  List.nodup_append.2 ⟨h, by simp, by
    rintro a ha b hb rfl
    rw [List.mem_singleton] at hb
    subst hb
    exact hx ha⟩

theorem Keyed.addDmd {s : State} (h : Keyed s) {d : ℕ} (hd : d < s.next)
    (h1 : (s.dmd d).src ∈ s.nodes) (h2 : (s.dmd d).dst ∈ s.nodes)
    (hk : ∀ e ∈ s.dmds, s.dmdKey e ≠ s.dmdKey d) : Keyed { s with dmds := s.dmds ++ [d] } := by
  refine ⟨{ h.1 with dmds := ?_ }, { h.2 with dmds := ?_ }⟩
  · change ((s.dmds ++ [d]).map s.dmdKey).Nodup
    rw [List.map_append]
    refine nodup_append_one h.1.dmds ?_
    intro hm
    obtain ⟨e, he, hke⟩ := List.mem_map.1 hm
    exact hk e he hke
  · intro e he
    rcases List.mem_append.1 he with he | he
    · exact h.2.dmds e he
    · rw [List.mem_singleton] at he; subst he; exact ⟨hd, h1, h2⟩

theorem Keyed.addLsp {s : State} (h : Keyed s) {d : ℕ} (hd : d < s.next)
    (h1 : (s.lsp d).src ∈ s.nodes) (h2 : (s.lsp d).dst ∈ s.nodes)
    (hk : ∀ e ∈ s.lsps, s.lspKey e ≠ s.lspKey d) : Keyed { s with lsps := s.lsps ++ [d] } := by
  refine ⟨{ h.1 with lsps := ?_ }, { h.2 with lsps := ?_ }⟩
  · change ((s.lsps ++ [d]).map s.lspKey).Nodup
    rw [List.map_append]
    refine nodup_append_one h.1.lsps ?_
    intro hm
    obtain ⟨e, he, hke⟩ := List.mem_map.1 hm
    exact hk e he hke
  · intro e he
    rcases List.mem_append.1 he with he | he
    · exact h.2.lsps e he
    · rw [List.mem_singleton] at he; subst he; exact ⟨hd, h1, h2⟩

theorem Keyed.addIfc {s : State} (h : Keyed s) {d : ℕ} (hd : d < s.next)
    (h1 : (s.ifc d).node ∈ s.nodes) (h2 : (s.ifc d).remote ∈ s.nodes)
    (hk : ∀ e ∈ s.ifs, s.ifcKey e ≠ s.ifcKey d) : Keyed { s with ifs := s.ifs ++ [d] } := by
  refine ⟨{ h.1 with ifs := ?_ }, { h.2 with ifs := ?_ }⟩
  · change ((s.ifs ++ [d]).map s.ifcKey).Nodup
    rw [List.map_append]
    refine nodup_append_one h.1.ifs ?_
    intro hm
    obtain ⟨e, he, hke⟩ := List.mem_map.1 hm
    exact hk e he hke
  · intro e he
    rcases List.mem_append.1 he with he | he
    · exact h.2.ifs e he
    · rw [List.mem_singleton] at he; subst he; exact ⟨hd, h1, h2⟩

theorem Keyed.addNode {s : State} (h : Keyed s) {n : ℕ} (hn : n < s.next)
    (hk : (s.node n).name ∉ s.nodeNames) : Keyed { s with nodes := s.nodes ++ [n] } := by
  refine ⟨{ h.1 with nodes := ?_ }, ⟨?_, ?_, ?_, ?_, h.2.srlgs⟩⟩
  · change ((s.nodes ++ [n]).map fun n => (s.node n).name).Nodup
    rw [List.map_append]
    exact nodup_append_one h.1.nodes hk
  · intro m hm
    rcases List.mem_append.1 hm with hm | hm
    · exact h.2.nodes m hm
    · rw [List.mem_singleton] at hm; subst hm; exact hn
  · exact fun i hi => ⟨(h.2.ifs i hi).1, List.mem_append_left _ (h.2.ifs i hi).2.1,
      List.mem_append_left _ (h.2.ifs i hi).2.2⟩
  · exact fun i hi => ⟨(h.2.dmds i hi).1, List.mem_append_left _ (h.2.dmds i hi).2.1,
      List.mem_append_left _ (h.2.dmds i hi).2.2⟩
  · exact fun i hi => ⟨(h.2.lsps i hi).1, List.mem_append_left _ (h.2.lsps i hi).2.1,
      List.mem_append_left _ (h.2.lsps i hi).2.2⟩

/-- the state after a demand object has been created -/
def State.withDmd (s : State) (d : Dmd) : State :=
  { s with dmd := fun j => if j = s.next then d else s.dmd j, next := s.next + 1 }
/-- the state after an LSP object has been created -/
def State.withLsp (s : State) (d : Lsp) : State :=
  { s with lsp := fun j => if j = s.next then d else s.lsp j, next := s.next + 1 }
/-- the state after an interface object has been created -/
def State.withIfc (s : State) (d : Ifc) : State :=
  { s with ifc := fun j => if j = s.next then d else s.ifc j, next := s.next + 1 }
/-- the state after a node object has been created -/
def State.withNode (s : State) (d : Node) : State :=
  { s with node := fun j => if j = s.next then d else s.node j, next := s.next + 1 }

theorem sameModel_withDmd (s : State) (d : Dmd) : SameModel s (s.withDmd d) := by
  refine ⟨rfl, rfl, rfl, rfl, rfl, rfl, rfl, fun _ _ => rfl, fun _ _ => rfl, ?_, fun _ _ => rfl,
    fun _ _ => rfl⟩
  intro r hr
  simp [State.withDmd, Nat.ne_of_lt hr]

theorem sameModel_withLsp (s : State) (d : Lsp) : SameModel s (s.withLsp d) := by
  refine ⟨rfl, rfl, rfl, rfl, rfl, rfl, rfl, fun _ _ => rfl, fun _ _ => rfl, fun _ _ => rfl, ?_,
    fun _ _ => rfl⟩
  intro r hr
  simp [State.withLsp, Nat.ne_of_lt hr]

theorem sameModel_withIfc (s : State) (d : Ifc) : SameModel s (s.withIfc d) := by
  refine ⟨rfl, rfl, rfl, rfl, rfl, rfl, rfl, fun _ _ => rfl, ?_, fun _ _ => rfl, fun _ _ => rfl,
    fun _ _ => rfl⟩
  intro r hr
  simp [State.withIfc, Nat.ne_of_lt hr]

theorem sameModel_withNode (s : State) (d : Node) : SameModel s (s.withNode d) := by
  refine ⟨rfl, rfl, rfl, rfl, rfl, rfl, rfl, ?_, fun _ _ => rfl, fun _ _ => rfl, fun _ _ => rfl,
    fun _ _ => rfl⟩
  intro r hr
  simp [State.withNode, Nat.ne_of_lt hr]

theorem sameModel_refl (s : State) : SameModel s s :=
  ⟨rfl, rfl, rfl, rfl, rfl, rfl, rfl, fun _ _ => rfl, fun _ _ => rfl, fun _ _ => rfl,
    fun _ _ => rfl, fun _ _ => rfl⟩

theorem SameModel.trans {s t u : State} (h : SameModel s t) (g : SameModel t u)
    (hn : s.next ≤ t.next) : SameModel s u where
  nodes := g.nodes.trans h.nodes
  ifs := g.ifs.trans h.ifs
  dmds := g.dmds.trans h.dmds
  lsps := g.lsps.trans h.lsps
  srlgs := g.srlgs.trans h.srlgs
  circuits := g.circuits.trans h.circuits
  groups := g.groups.trans h.groups
  node r hr := (g.node r (hr.trans_le hn)).trans (h.node r hr)
  ifc r hr := (g.ifc r (hr.trans_le hn)).trans (h.ifc r hr)
  dmd r hr := (g.dmd r (hr.trans_le hn)).trans (h.dmd r hr)
  lsp r hr := (g.lsp r (hr.trans_le hn)).trans (h.lsp r hr)
  srlg r hr := (g.srlg r (hr.trans_le hn)).trans (h.srlg r hr)

theorem _root_.NTM.Spec.SameModel.keyed {s t : State} (c : SameModel s t) (h : Keyed s)
    (hn : s.next ≤ t.next) : Keyed t :=
  h.alloc c.nodes c.ifs c.dmds c.lsps c.srlgs hn c.node c.ifc c.dmd c.lsp c.srlg

/-- `add_demand` step by step -/
theorem addDemand_eq (env : Env) (a b : String) (q : ℚ) (nm : String) (s : State) :
    addDemand env a b q nm s =
      match s.getNode a with
      | .error e => .error e s
      | .ok src => match s.getNode b with
        | .error e => .error e s
        | .ok dst =>
          if q < 0 then .error .valueError s
          else
            let u := s.withDmd { src := src, dst := dst, traffic := q, name := nm }
            if u.dmds.any fun e => u.dmdKey e = u.dmdKey s.next then
              .error (.model "already exists in demand_objects") u
            else validate env { u with dmds := u.dmds ++ [s.next] } := by
  unfold addDemand
  rw [py_bind_ok (show (get : Py State) s = .ok s s from rfl)]
  cases h1 : s.getNode a with
  | error e => rfl
  | ok src =>
    rw [py_bind_ok (show liftE (.ok src) s = .ok src s from rfl)]
    cases h2 : s.getNode b with
    | error e => rfl
    | ok dst =>
      rw [py_bind_ok (show liftE (.ok dst) s = .ok dst s from rfl)]
      simp only []
      by_cases hq : q < 0
      · rw [if_pos hq]
        show EStateM.bind _ _ s = _
        unfold EStateM.bind newDmd
        simp [hq]
      · rw [if_neg hq]
        rw [py_bind_ok (show newDmd src dst q nm s = .ok s.next
          (s.withDmd { src := src, dst := dst, traffic := q, name := nm }) by
            unfold newDmd; rw [if_neg hq]; rfl)]
        generalize s.withDmd { src := src, dst := dst, traffic := q, name := nm } = u
        rw [py_bind_ok (show (get : Py State) u = .ok u u from rfl)]
        split <;> rfl

/-- `add_rsvp_lsp` step by step -/
theorem addLsp_eq (env : Env) (a b nm : String) (s : State) :
    addLsp env a b nm s =
      match s.getNode a with
      | .error e => .error e s
      | .ok src => match s.getNode b with
        | .error e => .error e s
        | .ok dst =>
            let u := s.withLsp { src := src, dst := dst, name := nm }
            if u.lsps.any fun e => u.lspKey e = u.lspKey s.next then
              .error (.model "already exists in rsvp_lsp_objects") u
            else validate env { u with lsps := u.lsps ++ [s.next] } := by
  unfold addLsp
  rw [py_bind_ok (show (get : Py State) s = .ok s s from rfl)]
  cases h1 : s.getNode a with
  | error e => rfl
  | ok src =>
    rw [py_bind_ok (show liftE (.ok src) s = .ok src s from rfl)]
    cases h2 : s.getNode b with
    | error e => rfl
    | ok dst =>
      rw [py_bind_ok (show liftE (.ok dst) s = .ok dst s from rfl)]
      simp only []
      rw [py_bind_ok (show newLsp src dst nm none none s = .ok s.next
        (s.withLsp { src := src, dst := dst, name := nm }) from rfl)]
      generalize s.withLsp { src := src, dst := dst, name := nm } = u
      rw [py_bind_ok (show (get : Py State) u = .ok u u from rfl)]
      split <;> rfl

/-- `add_node` on a new Node object step by step -/
theorem addNode_eq (env : Env) (a : String) (lat lon : ℚ) (s : State) :
    (do let n ← newNode a lat lon; addNode env n : Py Unit) s =
      let u := s.withNode { name := a, lat := lat, lon := lon }
      if a ∈ u.nodeNames then .error (.model "A node with name already exists in the model") u
      else validate env { u with nodes := u.nodes ++ [s.next] } := by
  rw [py_bind_ok (show newNode a lat lon s = .ok s.next
    (s.withNode { name := a, lat := lat, lon := lon }) from rfl)]
  have hnm : ((s.withNode { name := a, lat := lat, lon := lon }).node s.next).name = a := by
    simp [State.withNode]
  generalize s.withNode { name := a, lat := lat, lon := lon } = u at hnm ⊢
  unfold addNode
  rw [py_bind_ok (show (get : Py State) u = .ok u u from rfl), hnm]
  simp only []
  by_cases h : a ∈ u.nodeNames
  · rw [if_pos h, if_pos h]; rfl
  · rw [if_neg h, if_neg h]
    have : u.insNode s.next = { u with nodes := u.nodes ++ [s.next] } := by
      unfold State.insNode
      rw [if_neg]
      intro hm
      unfold State.memNode at hm
      obtain ⟨n, hn, he⟩ := List.any_eq_true.1 hm
      apply h
      refine List.mem_map.2 ⟨n, hn, ?_⟩
      unfold State.nodeEq at he
      rw [Bool.or_eq_true] at he
      rcases he with he | he
      · rw [← eq_of_beq he]; exact hnm
      · simp only [Bool.and_eq_true, beq_iff_eq] at he
        rw [← hnm]; exact he.1.1.1.1.1.1.symm
    rw [py_bind_ok (show (set (u.insNode s.next) : Py Unit) u = .ok () (u.insNode s.next) from rfl),
      this]

/-- the interface object created for the first end of a new circuit -/
def newEnd (name : String) (cost : ℤ) (cap : ℚ) (a b : ℕ) (id : CktId) : Ifc :=
  { name := name, cost := cost.toNat, capacity := cap, node := a, remote := b, cktId := id }

theorem newIfc_ok {name : String} {cost : ℤ} {cap : ℚ} {a b : ℕ} {id : CktId} {s : State}
    (h1 : ¬ cost < 1) (h2 : 0 < cap) :
    newIfc name cost cap a b id s = .ok s.next (s.withIfc (newEnd name cost cap a b id)) := by
  unfold newIfc
  rw [if_neg h1, if_neg (not_not.2 h2)]
  rfl

/-- `add_circuit` step by step -/
theorem addCircuit_eq (env : Env) (a b : ℕ) (nA nB : String) (cA cB : ℤ) (cap : ℚ) (f : Bool)
    (ckt : CktId) (s : State) :
    addCircuit env a b nA nB cA cB cap f ckt s =
      match s.pickCktId ckt with
      | .error e => .error e s
      | .ok id =>
        if cA < 1 then .error (.model "Interface cost cannot be less than 1") s
        else if ¬ (0 < cap) then .error (.model "Interface capacity must be greater than 0") s
        else
          let u := s.withIfc (newEnd nA cA cap a b id)
          if cB < 1 then .error (.model "Interface cost cannot be less than 1") u
          else
            let v := u.withIfc (newEnd nB cB cap b a id)
            if v.ifs.any fun x => v.ifcKey x = v.ifcKey s.next then
              .error (.model "interface on node already exists in model") v
            else if v.ifs.any fun x => v.ifcKey x = v.ifcKey (s.next + 1) then
              .error (.model "interface on node already exists in model") v
            else validate env ((v.insIfc s.next).insIfc (s.next + 1)) := by
  unfold addCircuit
  rw [py_bind_ok (show (get : Py State) s = .ok s s from rfl)]
  cases h1 : s.pickCktId ckt with
  | error e => rfl
  | ok id =>
    rw [py_bind_ok (show liftE (.ok id) s = .ok id s from rfl)]
    simp only []
    by_cases hA : cA < 1
    · rw [if_pos hA]
      show EStateM.bind _ _ s = _
      unfold EStateM.bind newIfc
      simp [hA]
    rw [if_neg hA]
    by_cases hc : 0 < cap
    · rw [if_neg (not_not.2 hc), py_bind_ok (newIfc_ok hA hc)]
      have hnx : (s.withIfc (newEnd nA cA cap a b id)).next = s.next + 1 := rfl
      generalize s.withIfc (newEnd nA cA cap a b id) = u at hnx ⊢
      by_cases hB : cB < 1
      · rw [if_pos hB]
        show EStateM.bind _ _ u = _
        unfold EStateM.bind newIfc
        simp [hB]
      · rw [if_neg hB, py_bind_ok (newIfc_ok hB hc), hnx]
        generalize u.withIfc (newEnd nB cB cap b a id) = v
        rw [py_bind_ok (show (get : Py State) v = .ok v v from rfl)]
        split
        · rfl
        · split <;> rfl
    · rw [if_pos hc]
      show EStateM.bind _ _ s = _
      unfold EStateM.bind newIfc
      simp [hA, hc]

theorem insIfc_new {s : State} {i : ℕ} (h : ∀ e ∈ s.ifs, s.ifcKey e ≠ s.ifcKey i) :
    s.insIfc i = { s with ifs := s.ifs ++ [i] } := by
  unfold State.insIfc
  rw [if_neg]
  intro hm
  obtain ⟨e, he, hq⟩ := List.any_eq_true.1 hm
  exact h e he (ifcEq_key hq).symm

/-- the two new interfaces are in the model, the second only once if it equals the first -/
theorem addCircuit_insert {s : State} (hk : Keyed s) {a b : ℕ} (ha : a ∈ s.nodes) (hb : b ∈ s.nodes)
    {nA nB : String} {cA cB : ℤ} {cap : ℚ} {id : CktId}
    (h1 : ∀ e ∈ s.ifs, s.ifcKey e ≠ (nA, (s.node a).name))
    (h2 : ∀ e ∈ s.ifs, s.ifcKey e ≠ (nB, (s.node b).name)) :
    let v := (s.withIfc (newEnd nA cA cap a b id)).withIfc (newEnd nB cB cap b a id)
    (v.insIfc s.next).insIfc (s.next + 1) =
      { v with ifs := if a = b ∧ nA = nB then s.ifs ++ [s.next] else s.ifs ++ [s.next, s.next + 1] } := by
  intro v
  have hold : ∀ e ∈ s.ifs, v.ifc e = s.ifc e := by
    intro e he
    have := (hk.2.ifs e he).1
    have e1 : e ≠ s.next + 1 := by omega
    have e2 : e ≠ s.next := by omega
    simp [v, State.withIfc, e1, e2]
  have hkey : ∀ e ∈ s.ifs, v.ifcKey e = s.ifcKey e := by
    intro e he
    unfold State.ifcKey State.tail
    rw [hold e he]
    rfl
  have hi : v.ifc s.next = newEnd nA cA cap a b id := by simp [v, State.withIfc]
  have hj : v.ifc (s.next + 1) = newEnd nB cB cap b a id := by simp [v, State.withIfc]
  have ki : v.ifcKey s.next = (nA, (s.node a).name) := by
    unfold State.ifcKey State.tail; rw [hi]; rfl
  have kj : v.ifcKey (s.next + 1) = (nB, (s.node b).name) := by
    unfold State.ifcKey State.tail; rw [hj]; rfl
  rw [insIfc_new (show ∀ e ∈ v.ifs, v.ifcKey e ≠ v.ifcKey s.next from fun e he => by
    rw [hkey e he, ki]; exact h1 e he)]
  by_cases hsame : a = b ∧ nA = nB
  · rw [if_pos hsame]
    unfold State.insIfc
    rw [if_pos]
    · rfl
    · refine List.any_eq_true.2 ⟨s.next, by simp, ?_⟩
      change v.ifcEq (s.next + 1) s.next = true
      unfold State.ifcEq
      rw [hi, hj]
      obtain ⟨rfl, rfl⟩ := hsame
      simp [newEnd, State.nodeEq]
  · rw [if_neg hsame]
    unfold State.insIfc
    rw [if_neg]
    · change ({ v with ifs := (s.ifs ++ [s.next]) ++ [s.next + 1] } : State) = _
      rw [List.append_assoc]
      rfl
    · intro hm
      obtain ⟨e, he, hq⟩ := List.any_eq_true.1 hm
      change v.ifcEq (s.next + 1) e = true at hq
      have hq := ifcEq_key hq
      change e ∈ s.ifs ++ [s.next] at he
      rcases List.mem_append.1 he with he | he
      · rw [kj, hkey e he] at hq
        exact h2 e he hq.symm
      · rw [List.mem_singleton] at he
        subst he
        rw [ki, kj] at hq
        injection hq with hq1 hq2
        refine hsame ⟨?_, hq1.symm⟩
        exact (List.inj_on_of_nodup_map hk.1.nodes hb ha hq2).symm

/-- the state a call ends in has unique keys, whether it returns or raises -/
def KeyedR : EStateM.Result Exn State Unit → Prop
  | .ok _ t => Keyed t
  | .error _ t => Keyed t

theorem keyed_edit (env : Env) (e : Edit) (s : State) (h : Keyed s) (he : e.OnModel s) :
    wp (e.run env) (fun _ t => Keyed t) (fun _ t => Keyed t) s := by
  have hv : ∀ t, Keyed t → wp (validate env) (fun _ t => Keyed t) (fun _ t => Keyed t) t :=
    fun t ht => keyed_validate env t ht
  have hx : ∀ {x : Py Unit} {y : EStateM.Result Exn State Unit}, x s = y →
KeyedR y →
      wp x (fun _ t => Keyed t) (fun _ t => Keyed t) s := by
    intro x y h1 h2
    unfold wp
    rw [h1]
    cases y <;> exact h2
  have hw : ∀ t, Keyed t → KeyedR (validate env t) := by
    intro t ht
    have := hv t ht
    unfold wp at this
    cases hvv : validate env t <;> simp only [hvv] at this <;> exact this
  cases e with
  | call c =>
    exact wp_mono (keys_call env c s) (fun _ _ g => h.congr g) (fun _ _ g => h.congr g)
  | addNode a lat lon =>
    refine hx (addNode_eq env a lat lon s) ?_
    have hu := (sameModel_withNode s { name := a, lat := lat, lon := lon }).keyed h (Nat.le_succ _)
    simp only []
    split
    · exact hu
    · next hn =>
      apply hw
      refine hu.addNode (Nat.lt_succ_self _) ?_
      simpa [State.withNode] using hn
  | addDemand a b q nm =>
    refine hx (addDemand_eq env a b q nm s) ?_
    cases h1 : s.getNode a with
    | error e => exact h
    | ok src =>
      cases h2 : s.getNode b with
      | error e => exact h
      | ok dst =>
        simp only []
        split
        · exact h
        · have hu := (sameModel_withDmd s { src := src, dst := dst, traffic := q, name := nm }).keyed h
            (Nat.le_succ _)
          split
          · exact hu
          · next hn =>
            apply hw
            refine hu.addDmd (Nat.lt_succ_self _) ?_ ?_ ?_
            · simpa [State.withDmd] using (getNode_ok h1).1
            · simpa [State.withDmd] using (getNode_ok h2).1
            · intro e he hk
              exact hn (List.any_eq_true.2 ⟨e, he, by simpa using hk⟩)
  | addLsp a b nm =>
    refine hx (addLsp_eq env a b nm s) ?_
    cases h1 : s.getNode a with
    | error e => exact h
    | ok src =>
      cases h2 : s.getNode b with
      | error e => exact h
      | ok dst =>
        simp only []
        have hu := (sameModel_withLsp s { src := src, dst := dst, name := nm }).keyed h
          (Nat.le_succ _)
        split
        · exact hu
        · next hn =>
          apply hw
          refine hu.addLsp (Nat.lt_succ_self _) ?_ ?_ ?_
          · simpa [State.withLsp] using (getNode_ok h1).1
          · simpa [State.withLsp] using (getNode_ok h2).1
          · intro e he hk
            exact hn (List.any_eq_true.2 ⟨e, he, by simpa using hk⟩)
  | addCircuit a b nA nB cA cB cap f ckt =>
    refine hx (addCircuit_eq env a b nA nB cA cB cap f ckt s) ?_
    obtain ⟨ha, hb⟩ := he
    cases h1 : s.pickCktId ckt with
    | error e => exact h
    | ok id =>
      simp only []
      by_cases c1 : cA < 1
      · rw [if_pos c1]; exact h
      rw [if_neg c1]
      by_cases c2 : 0 < cap
      swap
      · rw [if_pos c2]; exact h
      rw [if_neg (not_not.2 c2)]
      have hu := (sameModel_withIfc s (newEnd nA cA cap a b id)).keyed h (Nat.le_succ _)
      by_cases c3 : cB < 1
      · rw [if_pos c3]; exact hu
      rw [if_neg c3]
      have hins := addCircuit_insert h ha hb (nA := nA) (nB := nB) (cA := cA) (cB := cB) (cap := cap)
        (id := id)
      have hv' := (sameModel_withIfc (s.withIfc (newEnd nA cA cap a b id))
        (newEnd nB cB cap b a id)).keyed hu (Nat.le_succ _)
      have hi : ((s.withIfc (newEnd nA cA cap a b id)).withIfc (newEnd nB cB cap b a id)).ifc s.next =
          newEnd nA cA cap a b id := by simp [State.withIfc]
      have hj : ((s.withIfc (newEnd nA cA cap a b id)).withIfc (newEnd nB cB cap b a id)).ifc
          (s.next + 1) = newEnd nB cB cap b a id := by simp [State.withIfc]
      have hold : ∀ e ∈ s.ifs,
          ((s.withIfc (newEnd nA cA cap a b id)).withIfc (newEnd nB cB cap b a id)).ifcKey e =
            s.ifcKey e := by
        intro e he
        have := (h.2.ifs e he).1
        have e1 : e ≠ s.next + 1 := by omega
        have e2 : e ≠ s.next := by omega
        simp [State.ifcKey, State.tail, State.withIfc, e1, e2]
      have hnm : ∀ n, (((s.withIfc (newEnd nA cA cap a b id)).withIfc (newEnd nB cB cap b a id)).node n) =
          s.node n := fun _ => rfl
      have hifs : ((s.withIfc (newEnd nA cA cap a b id)).withIfc (newEnd nB cB cap b a id)).ifs = s.ifs := rfl
      have hnodes : ((s.withIfc (newEnd nA cA cap a b id)).withIfc (newEnd nB cB cap b a id)).nodes =
          s.nodes := rfl
      have hnext : ((s.withIfc (newEnd nA cA cap a b id)).withIfc (newEnd nB cB cap b a id)).next =
          s.next + 2 := rfl
      generalize (s.withIfc (newEnd nA cA cap a b id)).withIfc (newEnd nB cB cap b a id) = v at *
      have ki : v.ifcKey s.next = (nA, (s.node a).name) := by
        unfold State.ifcKey State.tail; rw [hi]; simp [newEnd, hnm]
      have kj : v.ifcKey (s.next + 1) = (nB, (s.node b).name) := by
        unfold State.ifcKey State.tail; rw [hj]; simp [newEnd, hnm]
      split
      · exact hv'
      · next n1 =>
        split
        · exact hv'
        · next n2 =>
          apply hw
          have q1 : ∀ e ∈ s.ifs, s.ifcKey e ≠ (nA, (s.node a).name) := by
            intro e he hk
            refine n1 (List.any_eq_true.2 ⟨e, by rw [hifs]; exact he, ?_⟩)
            rw [decide_eq_true_eq, hold e he, ki, hk]
          have q2 : ∀ e ∈ s.ifs, s.ifcKey e ≠ (nB, (s.node b).name) := by
            intro e he hk
            refine n2 (List.any_eq_true.2 ⟨e, by rw [hifs]; exact he, ?_⟩)
            rw [decide_eq_true_eq, hold e he, kj, hk]
          rw [hins q1 q2]
          have s1 : Keyed { v with ifs := v.ifs ++ [s.next] } := by
            refine hv'.addIfc (by omega) ?_ ?_ ?_
            · rw [hi, hnodes]; exact ha
            · rw [hi, hnodes]; exact hb
            · intro e he
              rw [hifs] at he
              rw [hold e he, ki]; exact q1 e he
          rw [hifs] at s1
          by_cases hs : a = b ∧ nA = nB
          · rw [if_pos hs]; exact s1
          · rw [if_neg hs]
            have s2 : Keyed { v with ifs := (s.ifs ++ [s.next]) ++ [s.next + 1] } := by
              refine s1.addIfc (show s.next + 1 < v.next by omega) ?_ ?_ ?_
              · change (v.ifc (s.next + 1)).node ∈ v.nodes
                rw [hj, hnodes]; exact hb
              · change (v.ifc (s.next + 1)).remote ∈ v.nodes
                rw [hj, hnodes]; exact ha
              · intro e he
                change e ∈ s.ifs ++ [s.next] at he
                change v.ifcKey e ≠ v.ifcKey (s.next + 1)
                rw [kj]
                rcases List.mem_append.1 he with he | he
                · rw [hold e he]; exact q2 e he
                · rw [List.mem_singleton] at he
                  subst he
                  rw [ki]
                  intro hq
                  injection hq with hq1 hq2
                  exact hs ⟨List.inj_on_of_nodup_map h.1.nodes ha hb hq2, hq1⟩
            rw [List.append_assoc] at s2
            exact s2

theorem keyed_edited {env : Env} {s t : State} (h : Edited env s t) (hs : Keyed s) : Keyed t := by
  induction h with
  | start => exact hs
  | edit e h he ih =>
    have := keyed_edit env e _ ih he
    unfold wp at this
    unfold finalState
    split at this <;> rename_i hx <;> rw [hx] <;> exact this

theorem keyed_empty (k : Kind) : Keyed (emptyState k) := by
  refine ⟨⟨?_, ?_, ?_, ?_, ?_⟩, ⟨?_, ?_, ?_, ?_, ?_⟩⟩ <;> simp [emptyState, State.nodeNames]

end NTM
