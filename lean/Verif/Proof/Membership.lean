import Verif.Proof.FailInvs

/-!
# SRLG membership changes
-/

namespace NTM

open Spec

/-- a new SRLG -/
def State.withSrlg (s : State) (name : String) : State :=
  { s with
    srlg := fun j => if j = s.next then { name := name } else s.srlg j
    srlgs := s.srlgs ++ [s.next]
    next := s.next + 1 }

theorem newSrlg_spec (s : State) (name : String) :
    wp (newSrlg name) (fun g t => g = s.next ∧ t = s.withSrlg name ∧
        ∀ h ∈ s.srlgs, (s.srlg h).name ≠ name)
      (fun _ t => t = s) s := by
  unfold newSrlg
  simp only [wp_bind, wp_get]
  refine wp_ite (fun _ => rfl) (fun h => ?_)
  refine ⟨rfl, rfl, ?_⟩
  intro g hg he
  apply h
  rw [List.any_eq_true]
  exact ⟨g, hg, by simp [he]⟩

theorem withSrlg_wired {s : State} (hw : Wired s) {name : String}
    (hn : ∀ h ∈ s.srlgs, (s.srlg h).name ≠ name) : Wired (s.withSrlg name) where
  names := hw.names
  ends := hw.ends
  keys := hw.keys
  srlgs := by
    have hnext : s.next ∉ s.srlgs := fun h => absurd (hw.fresh _ h) (lt_irrefl _)
    constructor
    · change (s.srlgs ++ [s.next]).Nodup
      rw [List.nodup_append]
      refine ⟨hw.srlgs.1, by simp, ?_⟩
      intro a ha b hb hab
      rw [List.mem_singleton] at hb
      subst hb; subst hab
      exact hnext ha
    · intro a ha b hb hab
      have ha : a ∈ s.srlgs ++ [s.next] := ha
      have hb : b ∈ s.srlgs ++ [s.next] := hb
      have hab : (if a = s.next then ({ name := name } : Srlg) else s.srlg a).name =
        (if b = s.next then ({ name := name } : Srlg) else s.srlg b).name := hab
      rw [List.mem_append, List.mem_singleton] at ha hb
      by_cases e1 : a = s.next <;> by_cases e2 : b = s.next
      · rw [e1, e2]
      · rw [if_pos e1, if_neg e2] at hab
        exact absurd hab.symm (hn b (hb.resolve_right e2))
      · rw [if_neg e1, if_pos e2] at hab
        exact absurd hab (hn a (ha.resolve_right e1))
      · rw [if_neg e1, if_neg e2] at hab
        exact hw.srlgs.2 a (ha.resolve_right e1) b (hb.resolve_right e2) hab
  fresh := by
    intro g hg
    have hg : g ∈ s.srlgs ++ [s.next] := hg
    change g < s.next + 1
    rw [List.mem_append, List.mem_singleton] at hg
    rcases hg with hg | rfl
    · exact Nat.lt_succ_of_lt (hw.fresh g hg)
    · exact Nat.lt_succ_self _
  twin := hw.twin
  single := hw.single
  unique := hw.unique
  ids := hw.ids

theorem withSrlg_failed {s : State} {name : String} {g : ℕ}
    (h : ((s.withSrlg name).srlg g).failed = true) : (s.srlg g).failed = true := by
  unfold State.withSrlg at h
  simp only [] at h
  split at h
  · cases h
  · exact h

theorem withSrlg_next (s : State) (name : String) :
    ((s.withSrlg name).srlg s.next).failed = false := by
  unfold State.withSrlg
  simp

theorem ifcJoin_net (s : State) (i g : ℕ) : SameNet s (s.ifcJoin i g) :=
  upIfc_sameNet s i _ fun _ => ⟨rfl, rfl, rfl, rfl⟩

theorem ifcLeave_net (s : State) (i g : ℕ) : SameNet s (s.ifcLeave i g) :=
  upIfc_sameNet s i _ fun _ => ⟨rfl, rfl, rfl, rfl⟩

theorem nodeJoin_net (s : State) (i g : ℕ) : SameNet s (s.nodeJoin i g) :=
  upNode_sameNet s i _ fun _ => rfl

theorem nodeLeave_net (s : State) (i g : ℕ) : SameNet s (s.nodeLeave i g) :=
  upNode_sameNet s i _ fun _ => rfl

theorem ifcJoin_failed (s : State) (i g k : ℕ) : ((s.ifcJoin i g).ifc k).failed = (s.ifc k).failed := by
  unfold State.ifcJoin State.updIfc; simp only []; split <;> simp_all

theorem ifcLeave_failed (s : State) (i g k : ℕ) :
    ((s.ifcLeave i g).ifc k).failed = (s.ifc k).failed := by
  unfold State.ifcLeave State.updIfc; simp only []; split <;> simp_all

theorem nodeJoin_failed (s : State) (i g k : ℕ) :
    ((s.nodeJoin i g).node k).failed = (s.node k).failed := by
  unfold State.nodeJoin State.updNode; simp only []; split <;> simp_all

theorem nodeLeave_failed (s : State) (i g k : ℕ) :
    ((s.nodeLeave i g).node k).failed = (s.node k).failed := by
  unfold State.nodeLeave State.updNode; simp only []; split <;> simp_all

theorem mem_ifcJoin {s : State} {i g k h : ℕ} :
    h ∈ ((s.ifcJoin i g).ifc k).srlgs ↔ h ∈ (s.ifc k).srlgs ∨ (k = i ∧ h = g) := by
  unfold State.ifcJoin State.updIfc
  simp only []
  by_cases e : k = i
  · rw [if_pos e]
    simp only []
    split
    · next hg =>
      constructor
      · exact .inl
      · rintro (h | ⟨-, rfl⟩)
        · exact h
        · exact hg
    · simp [e]
  · rw [if_neg e]; simp [e]

theorem mem_ifcLeave {s : State} {i g k h : ℕ} :
    h ∈ ((s.ifcLeave i g).ifc k).srlgs ↔ h ∈ (s.ifc k).srlgs ∧ ¬ (k = i ∧ h = g) := by
  unfold State.ifcLeave State.updIfc
  simp only []
  by_cases e : k = i
  · rw [if_pos e]; simp [e]
  · rw [if_neg e]; simp [e]

theorem mem_nodeJoin {s : State} {i g k h : ℕ} :
    h ∈ ((s.nodeJoin i g).node k).srlgs ↔ h ∈ (s.node k).srlgs ∨ (k = i ∧ h = g) := by
  unfold State.nodeJoin State.updNode
  simp only []
  by_cases e : k = i
  · rw [if_pos e]
    simp only []
    split
    · next hg =>
      constructor
      · exact .inl
      · rintro (h | ⟨-, rfl⟩)
        · exact h
        · exact hg
    · simp [e]
  · rw [if_neg e]; simp [e]

theorem mem_nodeLeave {s : State} {i g k h : ℕ} :
    h ∈ ((s.nodeLeave i g).node k).srlgs ↔ h ∈ (s.node k).srlgs ∧ ¬ (k = i ∧ h = g) := by
  unfold State.nodeLeave State.updNode
  simp only []
  by_cases e : k = i
  · rw [if_pos e]; simp [e]
  · rw [if_neg e]; simp [e]

/-! ### Node membership -/

/-- an invariant that also survives changes of node membership -/
structure NodeMemInv (I : State → Prop) : Prop extends FailInv I where
  new : ∀ s name, I s → (∀ h ∈ s.srlgs, (s.srlg h).name ≠ name) → I (s.withSrlg name)
  join : ∀ s n g, I s → (s.srlg g).failed = false → I (s.nodeJoin n g)
  leave : ∀ s n g, I s → I (s.nodeLeave n g)

section
variable {I : State → Prop} (hI : NodeMemInv I)
include hI

theorem NodeMemInv.newSrlg (name : String) (s : State) (h : I s) :
    wp (newSrlg name) (fun g t => I t ∧ (t.srlg g).failed = false) (fun _ t => I t) s := by
  refine wp_mono (newSrlg_spec s name) ?_ ?_
  · rintro g t ⟨rfl, rfl, hn⟩
    exact ⟨hI.new s name h hn, withSrlg_next s name⟩
  · rintro _ t rfl; exact h

theorem NodeMemInv.addSrlg (name : String) : Stays I (NTM.addSrlg name) := by
  intro s h
  unfold NTM.addSrlg
  simp only [wp_bind, wp_get]
  refine wp_ite (fun _ => h) (fun _ => ?_)
  simp only [wp_bind]
  exact wp_mono (hI.newSrlg name s h) (fun _ _ h => h.1) (fun _ _ h => h)

theorem NodeMemInv.nodeAdd (n : ℕ) (name : String) (create : Bool) (s : State) (h : I s)
    (hg : ¬ SrlgFailed s name) :
    wp (nodeAddToSrlg n name create) (fun _ t => I t) (fun _ t => I t) s := by
  unfold nodeAddToSrlg
  simp only [wp_bind, wp_get]
  cases he : s.getSrlg name with
  | error e =>
    simp only []
    refine wp_ite (fun _ => ?_) (fun _ => h)
    simp only [wp_bind]
    refine wp_mono (hI.newSrlg name s h) ?_ (fun _ _ h => h)
    rintro g t ⟨h1, h2⟩
    exact hI.join t n g h1 h2
  | ok g =>
    simp only []
    obtain ⟨h1, h2⟩ := getSrlg_ok he
    refine hI.join s n g h ?_
    cases hf : (s.srlg g).failed with
    | false => rfl
    | true => exact absurd ⟨g, h1, h2, hf⟩ hg

theorem NodeMemInv.nodeRemove (n : ℕ) (name : String) (s : State) (h : I s) (hn : n ∈ s.nodes) :
    wp (nodeRemoveFromSrlg n name) (fun _ t => I t) (fun _ t => I t) s := by
  unfold nodeRemoveFromSrlg
  simp only [wp_bind, wp_get]
  cases he : s.getSrlg name with
  | error e => exact h
  | ok g =>
    simp only []
    refine wp_ite (fun _ => ?_) (fun _ => h)
    refine wp_ite (fun _ => ?_) (fun _ => h)
    exact hI.setNodeFailed_false n _ (hI.leave s n g h) hn
end

theorem nodesDown_join {s : State} (n : ℕ) {g : ℕ} (h : MemberNodesDown s)
    (hg : (s.srlg g).failed = false) : MemberNodesDown (s.nodeJoin n g) := by
  refine nodesDown_mono h rfl ?_ (fun k _ hf => by rw [nodeJoin_failed]; exact hf)
  intro k x hx hf0
  have hf : (s.srlg x).failed = true := hf0
  clear hf0
  rcases mem_nodeJoin.1 hx with h' | ⟨-, rfl⟩
  · exact ⟨h', hf⟩
  · rw [hg] at hf; cases hf

theorem nodesDown_leave {s : State} (n g : ℕ) (h : MemberNodesDown s) :
    MemberNodesDown (s.nodeLeave n g) :=
  nodesDown_mono h rfl (fun k x hx hf => ⟨(mem_nodeLeave.1 hx).1, hf⟩)
    (fun k _ hf => by rw [nodeLeave_failed]; exact hf)

theorem ifcsDown_join {s : State} (n : ℕ) {g : ℕ} (h : MemberIfcsDown s)
    (hg : (s.srlg g).failed = false) : MemberIfcsDown (s.ifcJoin n g) := by
  refine ifcsDown_mono h rfl ?_ (fun k _ hf => by rw [ifcJoin_failed]; exact hf)
  intro k x hx hf0
  have hf : (s.srlg x).failed = true := hf0
  clear hf0
  rcases mem_ifcJoin.1 hx with h' | ⟨-, rfl⟩
  · exact ⟨h', hf⟩
  · rw [hg] at hf; cases hf

theorem ifcsDown_leave {s : State} (n g : ℕ) (h : MemberIfcsDown s) :
    MemberIfcsDown (s.ifcLeave n g) :=
  ifcsDown_mono h rfl (fun k x hx hf => ⟨(mem_ifcLeave.1 hx).1, hf⟩)
    (fun k _ hf => by rw [ifcLeave_failed]; exact hf)

theorem nodesDown_new {s : State} (name : String) (h : MemberNodesDown s) :
    MemberNodesDown (s.withSrlg name) :=
  nodesDown_mono h rfl (fun _ _ hx hf => ⟨hx, withSrlg_failed hf⟩) (fun _ _ h => h)

theorem ifcsDown_new {s : State} (name : String) (h : MemberIfcsDown s) :
    MemberIfcsDown (s.withSrlg name) :=
  ifcsDown_mono h rfl (fun _ _ hx hf => ⟨hx, withSrlg_failed hf⟩) (fun _ _ h => h)

theorem darkMem : NodeMemInv DarkInv where
  toFailInv := darkInv
  new _ name h hn := ⟨withSrlg_wired h.1 hn, h.2.1, nodesDown_new name h.2.2⟩
  join s n g h hg := ⟨h.1.congr (nodeJoin_net s n g), dark_mono h.2.1 (nodeJoin_net s n g)
    (fun k hk => by rwa [nodeJoin_failed] at hk) (fun _ _ h => h), nodesDown_join n h.2.2 hg⟩
  leave s n g h := ⟨h.1.congr (nodeLeave_net s n g), dark_mono h.2.1 (nodeLeave_net s n g)
    (fun k hk => by rwa [nodeLeave_failed] at hk) (fun _ _ h => h), nodesDown_leave n g h.2.2⟩

theorem downMem : NodeMemInv DownInv where
  toFailInv := downInv
  new _ name h hn := ⟨withSrlg_wired h.1 hn, nodesDown_new name h.2.1, ifcsDown_new name h.2.2⟩
  join s n g h hg := ⟨h.1.congr (nodeJoin_net s n g), nodesDown_join n h.2.1 hg, h.2.2⟩
  leave s n g h := ⟨h.1.congr (nodeLeave_net s n g), nodesDown_leave n g h.2.1, h.2.2⟩

theorem withSrlg_ends {s : State} (name : String) (h : EndsAgree s) :
    EndsAgree (s.withSrlg name) := h

theorem withSrlg_match {s : State} (name : String) (h : SrlgsMatch s) :
    SrlgsMatch (s.withSrlg name) := h

theorem endsInv_join (s : State) (n g : ℕ) (h : EndsInv s) : EndsInv (s.nodeJoin n g) :=
  ⟨h.1.congr (nodeJoin_net s n g), endsAgree_congr h.2.1 (nodeJoin_net s n g)
    (fun _ _ => rfl), h.2.2.1, srlgsMatch_congr h.2.2.2 (nodeJoin_net s n g) fun _ => rfl⟩

theorem endsMem : NodeMemInv EndsInv where
  toFailInv := endsInv
  new _ name h hn := ⟨withSrlg_wired h.1 hn, h.2.1, ifcsDown_new name h.2.2.1, h.2.2.2⟩
  join s n g h _ := endsInv_join s n g h
  leave s n g h := ⟨h.1.congr (nodeLeave_net s n g), endsAgree_congr h.2.1 (nodeLeave_net s n g)
    (fun _ _ => rfl), h.2.2.1, srlgsMatch_congr h.2.2.2 (nodeLeave_net s n g) fun _ => rfl⟩

/-! ### Interface membership -/

/-- an invariant that also survives changes of interface membership; `ok` says to which SRLGs
an interface may be added -/
structure IfcMemInv (I : State → Prop) (ok : State → ℕ → Prop) : Prop extends NodeMemInv I where
  okNew : ∀ (s : State) (name : String), ok (s.withSrlg name) s.next
  okJoin : ∀ (s : State) (i g : ℕ), ok s g → ok (s.ifcJoin i g) g
  ijoin : ∀ s i g, I s → ok s g → I (s.ifcJoin i g)
  ileave : ∀ s i g, I s → I (s.ifcLeave i g)
  single : ∀ s i, I s → s.ifcHeld i = false → (s.node (s.ifc i).node).failed = false →
    (s.node (s.ifc i).remote).failed = false → I (s.upIfc i)
  down : ∀ s i, I s → I (s.downIfc i)

section
variable {I : State → Prop} {ok : State → ℕ → Prop} (hI : IfcMemInv I ok)
include hI

theorem IfcMemInv.joinBoth (i g : ℕ) (s : State) (h : I s) (hok : ok s g) :
    wp (do
      modify fun s => s.ifcJoin i g
      let s ← get
      let r ← liftE (s.remoteIfc i)
      modify fun s => s.ifcJoin r g) (fun _ t => I t) (fun _ t => I t) s := by
  simp only [wp_bind, wp_modify, wp_get, wp_liftE]
  have h1 := hI.ijoin s i g h hok
  cases (s.ifcJoin i g).remoteIfc i with
  | error e => exact h1
  | ok r => exact hI.ijoin _ r g h1 (hI.okJoin s i g hok)

theorem IfcMemInv.ifcAdd (i : ℕ) (name : String) (create : Bool) (s : State) (h : I s)
    (hg : ∀ g ∈ s.srlgs, (s.srlg g).name = name → ok s g) :
    wp (ifcAddToSrlg i name create) (fun _ t => I t) (fun _ t => I t) s := by
  unfold ifcAddToSrlg
  rw [wp_bind, wp_get]
  cases he : s.getSrlg name with
  | error e =>
    simp only []
    refine wp_ite (fun _ => ?_) (fun _ => h)
    rw [wp_bind]
    refine wp_mono (newSrlg_spec s name) ?_ ?_
    · rintro g t ⟨rfl, rfl, hn⟩
      exact hI.joinBoth i s.next _ (hI.new s name h hn) (hI.okNew s name)
    · rintro _ t rfl; exact h
  | ok g =>
    simp only []
    obtain ⟨h1, h2⟩ := getSrlg_ok he
    exact hI.joinBoth i g s h (hg g h1 h2)

theorem IfcMemInv.setIfc (i : ℕ) : Stays I (setIfcFailed i false) := by
  intro s h
  unfold wp
  rw [setIfcFailed_false]
  by_cases hh : s.ifcHeld i = true
  · rw [if_pos hh]; exact hI.down s i h
  · rw [if_neg hh]
    split
    · next x t hx =>
      split at hx
      · next hup => cases hx; exact hI.single s i h (by simpa using hh) hup.1 hup.2
      · cases hx; exact hI.down s i h
    · next hx => split at hx <;> cases hx

theorem IfcMemInv.ifcRemove (i : ℕ) (name : String) (s : State) (h : I s) :
    wp (ifcRemoveFromSrlg i name) (fun _ t => I t) (fun _ t => I t) s := by
  unfold ifcRemoveFromSrlg
  simp only [wp_bind, wp_get]
  cases he : s.getSrlg name with
  | error e => exact h
  | ok g =>
    simp only []
    refine wp_ite (fun _ => ?_) (fun _ => h)
    refine wp_ite (fun _ => ?_) (fun _ => h)
    have h1 := hI.ileave s i g h
    simp only [wp_bind, wp_set, wp_get, wp_liftE]
    cases (s.ifcLeave i g).remoteIfc i with
    | error e => exact h1
    | ok r =>
      simp only []
      split
      · split
        · exact hI.setIfc i _ (hI.ileave _ r g h1)
        · exact h1
      · exact h1
end

theorem darkIfcMem : IfcMemInv DarkInv (fun _ _ => True) where
  toNodeMemInv := darkMem
  okNew _ _ := trivial
  okJoin _ _ _ _ := trivial
  ijoin s i g h _ := ⟨h.1.congr (ifcJoin_net s i g), dark_mono h.2.1 (ifcJoin_net s i g)
    (fun _ h => h) (fun k _ hf => by rw [ifcJoin_failed]; exact hf), h.2.2⟩
  ileave s i g h := ⟨h.1.congr (ifcLeave_net s i g), dark_mono h.2.1 (ifcLeave_net s i g)
    (fun _ h => h) (fun k _ hf => by rw [ifcLeave_failed]; exact hf), h.2.2⟩
  single s i h _ h1 h2 := ⟨h.1.congr (upIfc_net s i), upIfc_dark h.2.1 h1 h2, h.2.2⟩
  down s i h := ⟨h.1.congr (downIfc_net s i), downIfc_dark i h.2.1, h.2.2⟩

theorem downIfcMem : IfcMemInv DownInv (fun s g => (s.srlg g).failed = false) where
  toNodeMemInv := downMem
  okNew s name := withSrlg_next s name
  okJoin _ _ _ h := h
  ijoin s i g h hg := ⟨h.1.congr (ifcJoin_net s i g), h.2.1, ifcsDown_join i h.2.2 hg⟩
  ileave s i g h := ⟨h.1.congr (ifcLeave_net s i g), h.2.1, ifcsDown_leave i g h.2.2⟩
  single s i h hh _ _ := ⟨h.1.congr (upIfc_net s i), h.2.1, upIfc_ifcsDown h.2.2 hh⟩
  down s i h := ⟨h.1.congr (downIfc_net s i), h.2.1, downIfc_ifcsDown i h.2.2⟩

/-! ### Histories -/

theorem final_of_wp {I : State → Prop} {x : Py Unit} {s : State}
    (h : wp x (fun _ t => I t) (fun _ t => I t) s) : I (finalState x s) := by
  unfold wp at h
  unfold finalState
  cases hx : x s <;> simp only [hx] at h ⊢ <;> exact h

/-- calls other than changes of interface membership -/
theorem NodeMemInv.step {I : State → Prop} (hI : NodeMemInv I) (env : Env) (c : Call) (s : State)
    (h : I s) (ho : c.OnModel s) (h0 : c = .simulate → Stays I (updateSimulation env)) (h1 : ∀ i a b, c ≠ .joinIfc i a b) (h2 : ∀ i a, c ≠ .leaveIfc i a)
    (h3 : ∀ n a b, c = .joinNode n a b → ¬ SrlgFailed s a) : I (finalState (c.run env) s) := by
  apply final_of_wp
  cases c with
  | failInterface a b => exact hI.failInterface a b s h
  | unfailInterface a b e => exact hI.unfailInterface env a b e s h
  | interfaceFail i => exact hI.ifcFail i s h ho
  | interfaceUnfail i => exact hI.ifcUnfail i s h ho
  | failNode a => exact hI.failNode a s h
  | unfailNode a => exact hI.unfailNode env a s h
  | failSrlg a => exact hI.failSrlg a s h
  | unfailSrlg a => exact hI.unfailSrlg env a s h
  | addSrlg a => exact hI.addSrlg a s h
  | validate => exact hI.valid env s h
  | simulate => exact h0 rfl s h
  | joinIfc i a b => exact absurd rfl (h1 i a b)
  | leaveIfc i a => exact absurd rfl (h2 i a)
  | joinNode n a b => exact hI.nodeAdd n a b s h (h3 n a b rfl)
  | leaveNode n a => exact hI.nodeRemove n a s h ho

/-- all calls -/
theorem IfcMemInv.step {I : State → Prop} {ok : State → ℕ → Prop} (hI : IfcMemInv I ok) (env : Env)
    (c : Call) (s : State) (h : I s) (ho : c.OnModel s)
    (h0 : c = .simulate → Stays I (updateSimulation env))
    (h1 : ∀ i a b, c = .joinIfc i a b → ∀ g ∈ s.srlgs, (s.srlg g).name = a → ok s g)
    (h3 : c.NodeJoinsLive s) : I (finalState (c.run env) s) := by
  cases c with
  | joinIfc i a b => exact final_of_wp (hI.ifcAdd i a b s h (h1 i a b rfl))
  | leaveIfc i a => exact final_of_wp (hI.ifcRemove i a s h)
  | joinNode n a b =>
    refine hI.toNodeMemInv.step env _ s h ho (by simp) (by simp) (by simp) ?_
    intro n' a' b' e
    cases e
    exact h3
  | failInterface | unfailInterface | interfaceFail | interfaceUnfail | failNode | unfailNode
  | failSrlg | unfailSrlg | addSrlg | validate | simulate | leaveNode =>
    refine hI.toNodeMemInv.step env _ s h ho h0 ?_ ?_ ?_ <;> intros <;> simp_all

/-- calls other than changes of interface membership, when nodes may join any SRLG -/
theorem NodeMemInv.step' {I : State → Prop} (hI : NodeMemInv I)
    (hj : ∀ s n g, I s → I (s.nodeJoin n g)) (env : Env) (c : Call) (s : State)
    (h : I s) (ho : c.OnModel s) (h0 : c = .simulate → Stays I (updateSimulation env))
    (h1 : c.KeepsIfcMembers) : I (finalState (c.run env) s) := by
  cases c with
  | joinIfc i a b => exact h1.elim
  | leaveIfc i a => exact h1.elim
  | joinNode n a b =>
    apply final_of_wp
    change wp (nodeAddToSrlg n a b) _ _ s
    unfold nodeAddToSrlg
    simp only [wp_bind, wp_get]
    cases he : s.getSrlg a with
    | error e =>
      simp only []
      refine wp_ite (fun _ => ?_) (fun _ => h)
      simp only [wp_bind]
      refine wp_mono (hI.newSrlg a s h) ?_ (fun _ _ h => h)
      rintro g t ⟨h1, h2⟩
      exact hj _ n g h1
    | ok g => exact hj _ n g h
  | failInterface | unfailInterface | interfaceFail | interfaceUnfail | failNode | unfailNode
  | failSrlg | unfailSrlg | addSrlg | validate | simulate | leaveNode =>
    refine hI.step env _ s h ho h0 ?_ ?_ ?_ <;> intros <;> simp_all

/-- what every allowed call keeps, every history keeps -/
theorem _root_.NTM.Spec.History.keeps {env : Env} {allowed : State → Call → Prop} {I : State → Prop}
    (hstep : ∀ t c, I t → allowed t c → I (finalState (c.run env) t)) {s t : State} (h : I s)
    (hh : History env allowed s t) : I t := by
  induction hh with
  | start => exact h
  | call c _ hc ih => exact hstep _ c ih hc

end NTM
