import Verif.Proof.SimFrame
import Verif.Proof.Circuits
import Verif.Proof.Ledger
import Verif.Spec.Failure

/-!
# Failing interfaces, nodes and SRLGs
-/

namespace NTM

open Spec

/-! ### Wired models -/

theorem _root_.NTM.Spec.Wired.node_inj {s : State} (h : Wired s) {n m : ℕ} (hn : n ∈ s.nodes) (hm : m ∈ s.nodes)
    (he : (s.node n).name = (s.node m).name) : n = m :=
  List.inj_on_of_nodup_map h.names hn hm he

theorem _root_.NTM.Spec.Wired.twin_unique {s : State} (h : Wired s) {i j k : ℕ} (hj : j ∈ s.ifs) (hk : k ∈ s.ifs)
    (h1 : Opposite s i j) (h2 : Opposite s i k) : j = k := by
  cases hkd : s.kind with
  | perf => exact h.single hkd j hj k hk (by rw [← h1.2.1, ← h2.2.1]) (by rw [← h1.1, ← h2.1])
  | flex =>
    exact h.unique hkd j hj k hk (by rw [← h1.2.1, ← h2.2.1])
      (by rw [← h1.2.2 hkd, ← h2.2.2 hkd])

theorem nodeEq_name {s : State} {a b : ℕ} (h : s.nodeEq a b = true) :
    (s.node a).name = (s.node b).name := by
  unfold State.nodeEq at h
  rw [Bool.or_eq_true] at h
  rcases h with h | h
  · rw [beq_iff_eq.1 h]
  · simp only [Bool.and_eq_true, beq_iff_eq] at h
    exact h.1.1.1.1.1.1

theorem nodeEq_refl (s : State) (a : ℕ) : s.nodeEq a a = true := by
  unfold State.nodeEq; simp

theorem memNode_iff {s : State} (hw : Wired s) {n g : ℕ} (hn : n ∈ s.nodes) :
    s.memNode n (s.srlgNodes g) = true ↔ g ∈ (s.node n).srlgs := by
  unfold State.memNode State.srlgNodes
  rw [List.any_eq_true]
  constructor
  · rintro ⟨m, hm, he⟩
    rw [List.mem_filter] at hm
    rw [hw.node_inj hn hm.1 (nodeEq_name he)]
    simpa using hm.2
  · intro h
    exact ⟨n, List.mem_filter.2 ⟨hn, by simpa using h⟩, nodeEq_refl s n⟩

theorem memSrlg_iff {s : State} (hw : Wired s) {i g : ℕ} (hi : i ∈ s.ifs) :
    s.memIfc i (s.srlgIfcs g) = true ↔ g ∈ (s.ifc i).srlgs := by
  unfold State.memIfc State.srlgIfcs
  rw [List.any_eq_true]
  constructor
  · rintro ⟨m, hm, he⟩
    rw [List.mem_filter] at hm
    rw [hw.keys i hi m hm.1 (ifcEq_key he)]
    simpa using hm.2
  · intro h
    exact ⟨i, List.mem_filter.2 ⟨hi, by simpa using h⟩, ifcEq_refl s i⟩

theorem getNode_ok {s : State} {nm : String} {n : ℕ} (h : s.getNode nm = .ok n) :
    n ∈ s.nodes ∧ (s.node n).name = nm := by
  unfold State.getNode at h
  split at h
  · next m hm =>
    cases h
    exact ⟨List.mem_of_find?_eq_some hm, by simpa using List.find?_some hm⟩
  · cases h

theorem getNode_eq {s : State} (hw : Wired s) {n : ℕ} (hn : n ∈ s.nodes) :
    s.getNode (s.node n).name = .ok n := by
  unfold State.getNode
  cases hf : s.nodes.find? fun m => (s.node m).name = (s.node n).name with
  | none =>
    have := List.find?_eq_none.1 hf n hn
    simp at this
  | some m =>
    have h1 := List.mem_of_find?_eq_some hf
    have h2 : (s.node m).name = (s.node n).name := by simpa using List.find?_some hf
    rw [hw.node_inj h1 hn h2]

theorem getIfc_ok {s : State} {a b : String} {i : ℕ} (h : s.getIfc a b = .ok i) :
    i ∈ s.ifs ∧ s.ifcKey i = (a, b) := by
  unfold State.getIfc at h
  split at h
  · split at h
    · cases h
    · next n hn =>
      split at h
      · next x hx =>
        cases h
        have h1 := List.mem_of_find?_eq_some hx
        have h2 := List.find?_some hx
        unfold State.ifcsOn at h1
        rw [List.mem_filter] at h1
        refine ⟨h1.1, ?_⟩
        have h3 : s.tail i = (s.node n).name := by simpa using h1.2
        unfold State.ifcKey
        rw [h3, (getNode_ok hn).2]
        rw [decide_eq_true_eq] at h2
        rw [h2]
      · cases h
  · cases h

theorem getIfc_eq {s : State} (hw : Wired s) {i : ℕ} (hi : i ∈ s.ifs) :
    s.getIfc (s.ifc i).name (s.tail i) = .ok i := by
  unfold State.getIfc
  have hany : (s.ifs.any fun j => s.ifcKey j = ((s.ifc i).name, s.tail i)) = true := by
    rw [List.any_eq_true]
    exact ⟨i, hi, by simp [State.ifcKey]⟩
  rw [if_pos hany]
  have hn := getNode_eq hw (hw.ends i hi).1
  have ht : s.tail i = (s.node (s.ifc i).node).name := rfl
  rw [ht, hn]
  simp only []
  cases hf : (s.ifcsOn (s.node (s.ifc i).node).name).find? fun j => (s.ifc j).name = (s.ifc i).name with
  | none =>
    have := List.find?_eq_none.1 hf i (by simp [State.ifcsOn, hi]; rfl)
    simp at this
  | some j =>
    have h1 := List.mem_of_find?_eq_some hf
    have h2 : (s.ifc j).name = (s.ifc i).name := by simpa using List.find?_some hf
    unfold State.ifcsOn at h1
    rw [List.mem_filter] at h1
    have h3 : s.tail j = s.tail i := by
      have := h1.2
      simp only [decide_eq_true_eq] at this
      exact this
    rw [hw.keys j h1.1 i hi (by unfold State.ifcKey; rw [h2, h3])]

/-- the remote interface of an interface of the model is its opposite direction -/
theorem remote_opposite {s : State} {i j : ℕ} (hi : i ∈ s.ifs)
    (h : s.remoteIfc i = .ok j) : j ∈ s.ifs ∧ Opposite s i j ∧ (s.ifc i).cktId = (s.ifc j).cktId := by
  unfold State.remoteIfc at h
  split at h
  · cases h
  · next k hk =>
    split at h
    · next he =>
      cases h
      have h1 := List.mem_of_find?_eq_some hk
      have h2 := List.find?_some hk
      simp only [Bool.and_eq_true, decide_eq_true_eq] at h2
      have hmem : i ∈ s.ifcsOn (s.tail i) := by simp [State.ifcsOn, hi]
      have : s.head j = s.tail i := by
        have hnonempty : s.ifcsOn (s.tail i) ≠ [] := fun h => by rw [h] at hmem; cases hmem
        cases hl : s.ifcsOn (s.head j) with
        | nil =>
          rw [hl] at he
          cases hm : s.ifcsOn (s.tail i) with
          | nil => exact absurd hm hnonempty
          | cons y m => rw [hm] at he; simp [State.ifcListEq] at he
        | cons x l =>
          rw [hl] at he
          cases hm : s.ifcsOn (s.tail i) with
          | nil => exact absurd hm hnonempty
          | cons y m =>
            rw [hm] at he
            unfold State.ifcListEq at he
            rw [Bool.and_eq_true] at he
            have hk := ifcEq_key he.1
            have hx : s.tail x = s.head j := by
              have : x ∈ s.ifcsOn (s.head j) := by rw [hl]; simp
              simpa [State.ifcsOn] using (List.mem_filter.1 this).2
            have hy : s.tail y = s.tail i := by
              have : y ∈ s.ifcsOn (s.tail i) := by rw [hm]; simp
              simpa [State.ifcsOn] using (List.mem_filter.1 this).2
            rw [← hx, ← hy]
            exact (Prod.ext_iff.1 hk).2
      exact ⟨h1, ⟨this.symm, h2.1.symm, fun _ => h2.2.symm⟩, h2.2.symm⟩
    · cases h

theorem remote_eq {s : State} (hid : IdsMatch s) {i j : ℕ} (hi : i ∈ s.ifs) (hj : j ∈ s.ifs)
    (h : Opposite s i j) : s.remoteIfc i = .ok j := by
  have hc := hid.2 i hi j hj h
  refine remoteIfc_eq hj h.2.1.symm h.1.symm hc.symm ?_
  intro k hk h1 h2
  exact hid.1 k hk j hj (h1.trans h.2.1) (h2.trans hc)

theorem _root_.NTM.Spec.Wired.idsMatch {s : State} (hw : Wired s) (hk : s.kind = .flex) : IdsMatch s :=
  ⟨hw.unique hk, fun _ _ _ _ h => h.2.2 hk⟩

/-! ### States that describe the same network -/

/-- same objects, names, attachments and (in a FlexModel) circuit ids -/
structure SameNet (s t : State) : Prop where
  kind : t.kind = s.kind
  nodes : t.nodes = s.nodes
  ifs : t.ifs = s.ifs
  srlgs : t.srlgs = s.srlgs
  next : t.next = s.next
  name : ∀ n, (t.node n).name = (s.node n).name
  ifcName : ∀ i, (t.ifc i).name = (s.ifc i).name
  node : ∀ i, (t.ifc i).node = (s.ifc i).node
  remote : ∀ i, (t.ifc i).remote = (s.ifc i).remote
  flexId : s.kind = .flex → ∀ i, (t.ifc i).cktId = (s.ifc i).cktId
  srlgName : ∀ g, (t.srlg g).name = (s.srlg g).name

theorem SameNet.frame : Frame SameNet where
  refl _ := ⟨rfl, rfl, rfl, rfl, rfl, fun _ => rfl, fun _ => rfl, fun _ => rfl, fun _ => rfl,
    fun _ _ => rfl, fun _ => rfl⟩
  trans h g :=
    ⟨g.kind.trans h.kind, g.nodes.trans h.nodes, g.ifs.trans h.ifs, g.srlgs.trans h.srlgs,
      g.next.trans h.next, fun n => (g.name n).trans (h.name n), fun n => (g.ifcName n).trans (h.ifcName n),
      fun n => (g.node n).trans (h.node n), fun n => (g.remote n).trans (h.remote n),
      fun hk n => (g.flexId (h.kind.trans hk) n).trans (h.flexId hk n),
      fun n => (g.srlgName n).trans (h.srlgName n)⟩

theorem SameNet.tail {s t : State} (h : SameNet s t) (i : ℕ) : t.tail i = s.tail i := by
  unfold State.tail; rw [h.node, h.name]

theorem SameNet.head {s t : State} (h : SameNet s t) (i : ℕ) : t.head i = s.head i := by
  unfold State.head; rw [h.remote, h.name]

theorem SameNet.ifcKey {s t : State} (h : SameNet s t) (i : ℕ) : t.ifcKey i = s.ifcKey i := by
  unfold State.ifcKey; rw [h.ifcName, h.tail]

theorem SameNet.opposite {s t : State} (h : SameNet s t) (i j : ℕ) :
    Opposite t i j ↔ Opposite s i j := by
  unfold Opposite
  rw [h.tail, h.tail, h.head, h.head, h.kind]
  refine and_congr Iff.rfl (and_congr Iff.rfl ?_)
  constructor <;> intro hh hk <;> have := hh hk
  · rwa [h.flexId hk, h.flexId hk] at this
  · rwa [h.flexId hk, h.flexId hk]

theorem SameNet.ifcsOn {s t : State} (h : SameNet s t) (nm : String) : t.ifcsOn nm = s.ifcsOn nm := by
  unfold State.ifcsOn
  rw [h.ifs]
  exact List.filter_congr fun i _ => by rw [h.tail]

theorem _root_.NTM.Spec.Wired.congr {s t : State} (hw : Wired s) (h : SameNet s t) : Wired t where
  names := by
    have : t.nodeNames = s.nodeNames := by
      unfold State.nodeNames
      rw [h.nodes]
      exact List.map_congr_left fun n _ => h.name n
    rw [this]; exact hw.names
  ends := by
    intro i hi
    rw [h.ifs] at hi
    rw [h.node, h.remote, h.nodes]
    exact hw.ends i hi
  keys := by
    intro i hi j hj he
    rw [h.ifs] at hi hj
    rw [h.ifcKey, h.ifcKey] at he
    exact hw.keys i hi j hj he
  srlgs := by
    refine ⟨by rw [h.srlgs]; exact hw.srlgs.1, ?_⟩
    intro i hi j hj he
    rw [h.srlgs] at hi hj
    rw [h.srlgName, h.srlgName] at he
    exact hw.srlgs.2 i hi j hj he
  fresh := by
    intro g hg
    rw [h.srlgs] at hg
    rw [h.next]
    exact hw.fresh g hg
  twin := by
    intro i hi
    rw [h.ifs] at hi
    obtain ⟨j, hj, hij⟩ := hw.twin i hi
    exact ⟨j, by rwa [h.ifs], (h.opposite i j).2 hij⟩
  single := by
    intro hk i hi j hj h1 h2
    rw [h.ifs] at hi hj
    rw [h.tail, h.tail] at h1
    rw [h.head, h.head] at h2
    exact hw.single (h.kind ▸ hk) i hi j hj h1 h2
  unique := by
    intro hk i hi j hj h1 h2
    have hk' : s.kind = .flex := h.kind ▸ hk
    rw [h.ifs] at hi hj
    rw [h.tail, h.tail] at h1
    rw [h.flexId hk', h.flexId hk'] at h2
    exact hw.unique hk' i hi j hj h1 h2
  ids := by
    intro hk i hi
    have hk' : s.kind = .flex := h.kind ▸ hk
    rw [h.ifs] at hi
    rw [h.flexId hk']
    exact hw.ids hk' i hi

theorem _root_.NTM.Spec.IdsMatch.congr {s t : State} (hm : IdsMatch s) (h : SameNet s t)
    (hc : ∀ i, (t.ifc i).cktId = (s.ifc i).cktId) : IdsMatch t := by
  constructor
  · intro i hi j hj h1 h2
    rw [h.ifs] at hi hj
    rw [h.tail, h.tail] at h1
    rw [hc, hc] at h2
    exact hm.1 i hi j hj h1 h2
  · intro i hi j hj hij
    rw [h.ifs] at hi hj
    rw [hc, hc]
    exact hm.2 i hi j hj ((h.opposite i j).1 hij)

/-! ### Failing -/

/-- the interfaces `F` and the nodes `N` fail -/
def State.fell (s : State) (F N : ℕ → Bool) : State :=
  { s with
    ifc := fun i => if F i then { s.ifc i with failed := true, reservedRaw := 0 } else s.ifc i
    node := fun n => if N n then { s.node n with failed := true } else s.node n }

theorem fell_sameNet (s : State) (F N : ℕ → Bool) : SameNet s (s.fell F N) where
  kind := rfl
  nodes := rfl
  ifs := rfl
  srlgs := rfl
  next := rfl
  name n := by unfold State.fell; simp only []; split <;> rfl
  ifcName n := by unfold State.fell; simp only []; split <;> rfl
  node n := by unfold State.fell; simp only []; split <;> rfl
  remote n := by unfold State.fell; simp only []; split <;> rfl
  flexId _ n := by unfold State.fell; simp only []; split <;> rfl
  srlgName _ := rfl

theorem fell_cktId (s : State) (F N : ℕ → Bool) (i : ℕ) :
    ((s.fell F N).ifc i).cktId = (s.ifc i).cktId := by
  unfold State.fell; simp only []; split <;> rfl

theorem fell_ifcSrlgs (s : State) (F N : ℕ → Bool) (i : ℕ) :
    ((s.fell F N).ifc i).srlgs = (s.ifc i).srlgs := by
  unfold State.fell; simp only []; split <;> rfl

theorem fell_nodeSrlgs (s : State) (F N : ℕ → Bool) (n : ℕ) :
    ((s.fell F N).node n).srlgs = (s.node n).srlgs := by
  unfold State.fell; simp only []; split <;> rfl

theorem fell_failed (s : State) (F N : ℕ → Bool) (i : ℕ) :
    ((s.fell F N).ifc i).failed = (F i || (s.ifc i).failed) := by
  unfold State.fell; simp only []; cases F i <;> rfl

theorem fell_nodeFailed (s : State) (F N : ℕ → Bool) (n : ℕ) :
    ((s.fell F N).node n).failed = (N n || (s.node n).failed) := by
  unfold State.fell; simp only []; cases N n <;> rfl

theorem fell_fell (s : State) (F N F' N' : ℕ → Bool) :
    (s.fell F N).fell F' N' = s.fell (fun i => F i || F' i) (fun n => N n || N' n) := by
  unfold State.fell
  simp only []
  congr 1
  · funext n; cases N n <;> cases N' n <;> rfl
  · funext n; cases F n <;> cases F' n <;> rfl

theorem fell_none (s : State) : s.fell (fun _ => false) (fun _ => false) = s := rfl

theorem fell_congr (s : State) {F N F' N' : ℕ → Bool} (h1 : ∀ i, F i = F' i) (h2 : ∀ i, N i = N' i) :
    s.fell F N = s.fell F' N' := by
  rw [funext h1, funext h2]

theorem fell_failedOnly (s : State) (F N : ℕ → Bool) :
    FailedOnly s (s.fell F N) (fun i => F i = true) (fun n => N n = true) := by
  refine ⟨?_, ?_, ?_, ?_, rfl⟩ <;> intro i hi <;> unfold State.fell <;> simp only []
  · rw [if_pos hi]
  · rw [if_neg hi]
  · rw [if_pos hi]
  · rw [if_neg hi]

theorem downIfc_fell (s : State) (i : ℕ) :
    s.downIfc i = s.fell (fun k => k = i) (fun _ => false) := by
  unfold State.downIfc State.updIfc State.fell
  simp

theorem downNode_fell (s : State) (n : ℕ) :
    (s.updNode n fun x => { x with failed := true }) = s.fell (fun _ => false) (fun k => k = n) := by
  unfold State.updNode State.fell
  simp

/-- the set `F` holds interfaces of the model and does not separate the two directions of a
circuit -/
structure TwinClosed (s : State) (F : ℕ → Bool) : Prop where
  inside : ∀ i, F i = true → i ∈ s.ifs
  twin : ∀ i ∈ s.ifs, ∀ j ∈ s.ifs, Opposite s i j → F i = true → F j = true

/-- `N` holds nodes of the model and every interface attached to or facing a node of `N` is in
`F` -/
structure NodeClosed (s : State) (F N : ℕ → Bool) : Prop where
  inside : ∀ n, N n = true → n ∈ s.nodes
  reach : ∀ i ∈ s.ifs, N (s.ifc i).node = true ∨ N (s.ifc i).remote = true → F i = true

theorem setIfcFailed_true (i : ℕ) (s : State) :
    setIfcFailed i true s = .ok () (s.downIfc i) := by
  unfold setIfcFailed
  simp

theorem setNodeFailed_true (n : ℕ) (s : State) :
    setNodeFailed n true s = .ok () (s.updNode n fun x => { x with failed := true }) := by
  unfold setNodeFailed
  simp

/-- the pair of an interface and its opposite direction -/
def pairOf (i j : ℕ) : ℕ → Bool := fun k => decide (k = i) || decide (k = j)

theorem failPair_eq (s : State) (i j : ℕ) :
    (s.downIfc j).downIfc i = s.fell (pairOf i j) (fun _ => false) := by
  rw [downIfc_fell, downIfc_fell, fell_fell]
  refine fell_congr _ (fun k => ?_) (fun k => rfl)
  unfold pairOf
  rw [Bool.or_comm]

theorem failInterface_spec (s : State) (a b : String) :
    wp (failInterface a b) (fun _ t => ∃ i ∈ s.ifs, ∃ j ∈ s.ifs, s.ifcKey i = (a, b) ∧
        Opposite s i j ∧ t = s.fell (pairOf i j) (fun _ => false))
      (fun _ t => t = s) s := by
  unfold failInterface
  simp only [wp_bind, wp_get, wp_liftE]
  cases hi : s.getIfc a b with
  | error e => simp only []
  | ok i =>
    simp only []
    obtain ⟨h1, h2⟩ := getIfc_ok hi
    cases hj : s.remoteIfc i with
    | error e => simp only []
    | ok j =>
      simp only []
      obtain ⟨h3, h4, -⟩ := remote_opposite h1 hj
      rw [wp_ok (setIfcFailed_true j s), wp_ok (setIfcFailed_true i _)]
      exact ⟨i, h1, j, h3, h2, h4, failPair_eq s i j⟩

theorem failInterface_eq {s : State} (hw : Wired s) (hid : IdsMatch s) {i j : ℕ} (hi : i ∈ s.ifs)
    (hj : j ∈ s.ifs) (h : Opposite s i j) :
    failInterface (s.ifc i).name (s.tail i) s = .ok () (s.fell (pairOf i j) (fun _ => false)) := by
  unfold failInterface
  rw [py_bind_ok (show (get : Py State) s = .ok s s from rfl), getIfc_eq hw hi,
    py_bind_ok (show liftE (.ok i) s = .ok i s from rfl), remote_eq hid hi hj h,
    py_bind_ok (show liftE (.ok j) s = .ok j s from rfl),
    py_bind_ok (setIfcFailed_true j s), setIfcFailed_true, failPair_eq]

theorem pairOf_closed {s : State} (hw : Wired s) {i j : ℕ} (hi : i ∈ s.ifs) (hj : j ∈ s.ifs)
    (h : Opposite s i j) : TwinClosed s (pairOf i j) := by
  refine ⟨fun k hp => ?_, ?_⟩
  · unfold pairOf at hp
    rw [Bool.or_eq_true, decide_eq_true_eq, decide_eq_true_eq] at hp
    rcases hp with rfl | rfl
    · exact hi
    · exact hj
  intro k hk l hl hkl hp
  unfold pairOf at hp ⊢
  rw [Bool.or_eq_true, decide_eq_true_eq, decide_eq_true_eq] at hp ⊢
  rcases hp with rfl | rfl
  · exact .inr (hw.twin_unique hl hj hkl h)
  · exact .inl (hw.twin_unique hl hi hkl (opposite_symm h))

theorem TwinClosed.or {s : State} {F G : ℕ → Bool} (h : TwinClosed s F) (g : TwinClosed s G) :
    TwinClosed s (fun i => F i || G i) := by
  refine ⟨fun i hp => ?_, ?_⟩
  · simp only [Bool.or_eq_true] at hp
    exact hp.elim (h.inside i) (g.inside i)
  intro i hi j hj hij hp
  simp only [Bool.or_eq_true] at hp ⊢
  rcases hp with hp | hp
  · exact .inl (h.twin i hi j hj hij hp)
  · exact .inr (g.twin i hi j hj hij hp)

theorem TwinClosed.congr {s t : State} {F : ℕ → Bool} (h : TwinClosed s F) (hn : SameNet s t) :
    TwinClosed t F := by
  refine ⟨fun i hp => by rw [hn.ifs]; exact h.inside i hp, ?_⟩
  intro i hi j hj hij
  rw [hn.ifs] at hi hj
  exact h.twin i hi j hj ((hn.opposite i j).1 hij)

theorem TwinClosed.congr' {s t : State} {F : ℕ → Bool} (h : TwinClosed t F) (hn : SameNet s t) :
    TwinClosed s F := by
  refine ⟨fun i hp => by rw [← hn.ifs]; exact h.inside i hp, ?_⟩
  intro i hi j hj hij
  rw [← hn.ifs] at hi hj
  exact h.twin i hi j hj ((hn.opposite i j).2 hij)

theorem TwinClosed.none (s : State) : TwinClosed s (fun _ => false) := by
  exact ⟨fun i h => absurd h (by simp), fun i _ j _ _ h => absurd h (by simp)⟩

/-! ### `fail_node` -/

/-- interfaces attached to or facing the node named `nm` -/
def atNode (s : State) (nm : String) : ℕ → Bool :=
  fun i => decide (i ∈ s.ifs) && (decide (s.tail i = nm) || decide (s.head i = nm))

theorem atNode_closed (s : State) (nm : String) : TwinClosed s (atNode s nm) := by
  refine ⟨fun i hp => ?_, ?_⟩
  · unfold atNode at hp
    rw [Bool.and_eq_true, decide_eq_true_eq] at hp
    exact hp.1
  intro i hi j hj hij hp
  unfold atNode at hp ⊢
  simp only [Bool.and_eq_true, Bool.or_eq_true, decide_eq_true_eq] at hp ⊢
  refine ⟨hj, ?_⟩
  rw [← hij.1, ← hij.2.1]
  exact hp.2.symm

theorem atNode_congr {s t : State} (h : SameNet s t) (nm : String) (i : ℕ) :
    atNode t nm i = atNode s nm i := by
  unfold atNode
  rw [h.tail, h.head, h.ifs]

/-- both directions of the circuits of the interfaces `l` -/
def circuitsOf (s : State) (l : List ℕ) : ℕ → Bool :=
  fun k => decide (∃ i ∈ l, k = i ∨ (k ∈ s.ifs ∧ Opposite s i k))

theorem circuitsOf_closed {s : State} (hw : Wired s) {l : List ℕ} (hl : ∀ i ∈ l, i ∈ s.ifs) :
    TwinClosed s (circuitsOf s l) := by
  refine ⟨fun k hp => ?_, ?_⟩
  · unfold circuitsOf at hp
    rw [decide_eq_true_eq] at hp
    obtain ⟨i, hi, rfl | ⟨h, -⟩⟩ := hp
    · exact hl _ hi
    · exact h
  intro k hk m hm hkm hp
  unfold circuitsOf at hp ⊢
  rw [decide_eq_true_eq] at hp ⊢
  obtain ⟨i, hi, rfl | ⟨-, h⟩⟩ := hp
  · exact ⟨k, hi, .inr ⟨hm, hkm⟩⟩
  · exact ⟨i, hi, .inl (hw.twin_unique hm (hl i hi) hkm (opposite_symm h))⟩

theorem circuitsOf_snoc {s : State} (hw : Wired s) {l : List ℕ} {i j : ℕ} (hj : j ∈ s.ifs)
    (h : Opposite s i j) (k : ℕ) :
    (circuitsOf s l k || pairOf i j k) = circuitsOf s (l ++ [i]) k := by
  unfold circuitsOf pairOf
  rw [Bool.eq_iff_iff]
  simp only [Bool.or_eq_true, decide_eq_true_eq, List.mem_append, List.mem_singleton]
  constructor
  · rintro (⟨m, hm, hk⟩ | rfl | rfl)
    · exact ⟨m, .inl hm, hk⟩
    · exact ⟨k, .inr rfl, .inl rfl⟩
    · exact ⟨i, .inr rfl, .inr ⟨hj, h⟩⟩
  · rintro ⟨m, hm | rfl, hk⟩
    · exact .inl ⟨m, hm, hk⟩
    · rcases hk with rfl | ⟨hk, h'⟩
      · exact .inr (.inl rfl)
      · exact .inr (.inr (hw.twin_unique hk hj h' h))

theorem circuitsOf_on {s : State} (hw : Wired s) (nm : String) (k : ℕ) :
    circuitsOf s (s.ifcsOn nm) k = atNode s nm k := by
  unfold circuitsOf atNode
  rw [Bool.eq_iff_iff]
  rw [decide_eq_true_eq, Bool.and_eq_true, Bool.or_eq_true, decide_eq_true_eq, decide_eq_true_eq,
    decide_eq_true_eq]
  have hon : ∀ i, i ∈ s.ifcsOn nm ↔ i ∈ s.ifs ∧ s.tail i = nm := fun i => by
    simp [State.ifcsOn]
  simp only [hon]
  constructor
  · rintro ⟨i, ⟨hi, ht⟩, h⟩
    rcases h with rfl | ⟨hk, h⟩
    · exact ⟨hi, .inl ht⟩
    · exact ⟨hk, .inr (h.1 ▸ ht)⟩
  · rintro ⟨hk, ht | hh⟩
    · exact ⟨k, ⟨hk, ht⟩, .inl rfl⟩
    · obtain ⟨j, hj, hkj⟩ := hw.twin k hk
      exact ⟨j, ⟨hj, hkj.2.1 ▸ hh⟩, .inr ⟨hk, opposite_symm hkj⟩⟩

/-- failing a list of interfaces one after the other -/
theorem failIfcs_spec {s : State} (hw : Wired s) (nm : String) (l : List ℕ)
    (hl : ∀ i ∈ l, i ∈ s.ifs ∧ s.tail i = nm) :
    wp (forEach l fun i => do
        let s ← get
        failInterface (s.ifc i).name nm)
      (fun _ t => t = s.fell (circuitsOf s l) (fun _ => false))
      (fun _ t => ∃ F, TwinClosed s F ∧ t = s.fell F (fun _ => false)) s := by
  have := wp_forEach_idx (s := s)
    (I := fun done t => (∀ i ∈ done, i ∈ s.ifs) ∧
      t = s.fell (circuitsOf s done) (fun _ => false))
    (E := fun _ t => ∃ F, TwinClosed s F ∧ t = s.fell F (fun _ => false))
    (fun i => do
        let s ← get
        failInterface (s.ifc i).name nm) l [] ?_ ?_
  · exact wp_mono this (fun _ t h => by simpa using h.2) (fun _ _ h => h)
  · rintro pre i post rfl t ⟨hd, rfl⟩
    have hi := hl i (by simp)
    simp only [List.nil_append] at hd ⊢
    simp only [wp_bind, wp_get]
    refine wp_mono (failInterface_spec _ _ _) ?_ ?_
    · rintro _ u ⟨k, hk, j, hj, hkey, hopp, rfl⟩
      have hn := fell_sameNet s (circuitsOf s pre) (fun _ => false)
      rw [hn.ifs] at hk hj
      rw [hn.ifcKey] at hkey
      have hopp := (hn.opposite k j).1 hopp
      have : k = i := by
        refine hw.keys k hk i hi.1 ?_
        rw [hkey, hn.ifcName]
        unfold State.ifcKey
        rw [hi.2]
      subst this
      refine ⟨?_, ?_⟩
      · intro m hm
        rcases List.mem_append.1 hm with h | h
        · exact hd m h
        · rw [List.mem_singleton.1 h]; exact hi.1
      · rw [fell_fell]
        exact fell_congr _ (circuitsOf_snoc hw hj hopp) (fun _ => rfl)
    · rintro _ u rfl
      exact ⟨_, circuitsOf_closed hw hd, rfl⟩
  · refine ⟨by simp, ?_⟩
    symm
    refine (fell_congr s (F' := fun _ => false) ?_ (fun _ => rfl)).trans (fell_none s)
    intro k
    unfold circuitsOf
    simp

theorem failNode_spec {s : State} (hw : Wired s) (nm : String) :
    wp (failNode nm) (fun _ t => ∃ n ∈ s.nodes, (s.node n).name = nm ∧
        t = s.fell (atNode s nm) (fun k => k = n))
      (fun _ t => ∃ F, TwinClosed s F ∧ t = s.fell F (fun _ => false)) s := by
  unfold failNode
  simp only [wp_bind, wp_get]
  refine wp_mono (failIfcs_spec hw nm (s.ifcsOn nm) ?_) ?_ (fun _ _ h => h)
  · intro i hi
    unfold State.ifcsOn at hi
    simpa using hi
  · rintro _ t rfl
    rw [wp_liftE]
    rw [fell_congr s (circuitsOf_on hw nm) (fun _ => rfl)]
    cases hg : (s.fell (atNode s nm) fun _ => false).getNode nm with
    | error e => exact ⟨_, atNode_closed s nm, rfl⟩
    | ok n =>
      simp only []
      obtain ⟨h1, h2⟩ := getNode_ok hg
      rw [wp_ok (setNodeFailed_true n _), downNode_fell, fell_fell]
      refine ⟨n, h1, ?_, fell_congr _ (fun i => by simp) (fun i => by simp)⟩
      rw [← h2]
      exact ((fell_sameNet s _ _).name n).symm

theorem failIfcs_eq {s : State} (hw : Wired s) (hid : IdsMatch s) (nm : String) (l : List ℕ)
    (hl : ∀ i ∈ l, i ∈ s.ifs ∧ s.tail i = nm) :
    ∃ t, forEach l (fun i => do
        let s ← get
        failInterface (s.ifc i).name nm) s = .ok () t := by
  have : wp (forEach l fun i => do
        let s ← get
        failInterface (s.ifc i).name nm) (fun _ t => SameNet s t ∧ IdsMatch t) (fun _ _ => False) s := by
    refine wp_forEach _ l ?_ ⟨SameNet.frame.refl s, hid⟩
    rintro i hi t ⟨hn, hm⟩
    simp only [wp_bind, wp_get]
    have hi := hl i hi
    have hwt := hw.congr hn
    have hit : i ∈ t.ifs := by rw [hn.ifs]; exact hi.1
    obtain ⟨j, hj, hij⟩ := hwt.twin i hit
    have := failInterface_eq hwt hm hit hj hij
    rw [hn.tail, hi.2] at this
    rw [wp_ok this]
    exact ⟨SameNet.frame.trans hn (fell_sameNet _ _ _),
      hm.congr (fell_sameNet _ _ _) (fell_cktId _ _ _)⟩
  unfold wp at this
  cases h : (forEach l fun i => do
        let s ← get
        failInterface (s.ifc i).name nm) s with
  | ok a t => exact ⟨t, rfl⟩
  | error e t => rw [h] at this; exact this.elim

theorem failNode_eq {s : State} (hw : Wired s) (hid : IdsMatch s) {n : ℕ} (hn : n ∈ s.nodes) :
    failNode (s.node n).name s =
      .ok () (s.fell (atNode s (s.node n).name) (fun k => k = n)) := by
  have hsp := failNode_spec hw (s.node n).name
  have hex : ∃ t, failNode (s.node n).name s = .ok () t := by
    have hl : ∀ i ∈ s.ifcsOn (s.node n).name, i ∈ s.ifs ∧ s.tail i = (s.node n).name := by
      intro i hi
      unfold State.ifcsOn at hi
      simpa using hi
    obtain ⟨t, ht⟩ := failIfcs_eq hw hid (s.node n).name _ hl
    have := of_wp_ok (failIfcs_spec hw _ _ hl) ht
    subst this
    unfold failNode
    rw [py_bind_ok (show (get : Py State) s = .ok s s from rfl)]
    rw [py_bind_ok ht]
    rw [py_bind_ok (show (get : Py State) _ = .ok _ _ from rfl)]
    have hwt := hw.congr (fell_sameNet s (circuitsOf s (s.ifcsOn (s.node n).name)) fun _ => false)
    have hg := getNode_eq hwt (n := n) hn
    rw [(fell_sameNet s _ _).name] at hg
    rw [hg, py_bind_ok (show liftE (.ok n) _ = .ok n _ from rfl)]
    exact ⟨_, setNodeFailed_true n _⟩
  obtain ⟨t, ht⟩ := hex
  obtain ⟨m, hm, hname, he⟩ := of_wp_ok hsp ht
  rw [hw.node_inj hm hn hname] at he
  rw [ht, he]

/-! ### `fail_srlg` -/

/-- interfaces attached to or facing one of the nodes `l` that satisfy `p` -/
def atNodes (s : State) (p : ℕ → Bool) (l : List ℕ) : ℕ → Bool :=
  fun i => l.any fun n => p n && atNode s (s.node n).name i

theorem atNodes_closed (s : State) (p : ℕ → Bool) (l : List ℕ) : TwinClosed s (atNodes s p l) := by
  refine ⟨fun i hp => ?_, ?_⟩
  · unfold atNodes at hp
    rw [List.any_eq_true] at hp
    obtain ⟨n, -, h⟩ := hp
    rw [Bool.and_eq_true] at h
    exact (atNode_closed s _).inside i h.2
  intro i hi j hj hij hp
  unfold atNodes at hp ⊢
  rw [List.any_eq_true] at hp ⊢
  obtain ⟨n, hn, h⟩ := hp
  rw [Bool.and_eq_true] at h
  exact ⟨n, hn, by rw [Bool.and_eq_true]; exact ⟨h.1, (atNode_closed s _).twin i hi j hj hij h.2⟩⟩

theorem failNodes_spec {s : State} (hw : Wired s) (g : ℕ) (l : List ℕ) (hl : ∀ n ∈ l, n ∈ s.nodes) :
    wp (forEach l fun n => do
        let s ← get
        if s.memNode n (s.srlgNodes g) then failNode (s.node n).name else pure ())
      (fun _ t => t = s.fell (atNodes s (fun n => g ∈ (s.node n).srlgs) l)
        (fun n => n ∈ l && g ∈ (s.node n).srlgs))
      (fun _ t => ∃ F N, TwinClosed s F ∧ NodeClosed s F N ∧ t = s.fell F N) s := by
  have hnc : ∀ pre : List ℕ, (∀ n ∈ pre, n ∈ s.nodes) →
      NodeClosed s (atNodes s (fun n => g ∈ (s.node n).srlgs) pre)
        (fun n => n ∈ pre && g ∈ (s.node n).srlgs) := by
    intro pre hpre
    refine ⟨fun n h => ?_, ?_⟩
    · simp only [Bool.and_eq_true, decide_eq_true_eq] at h
      exact hpre n h.1
    intro i hi h
    unfold atNodes
    rw [List.any_eq_true]
    simp only [Bool.and_eq_true, decide_eq_true_eq] at h
    rcases h with h | h
    · exact ⟨_, h.1, by simp [h.2, atNode, hi, State.tail]⟩
    · exact ⟨_, h.1, by simp [h.2, atNode, hi, State.head]⟩
  have := wp_forEach_idx (s := s)
    (I := fun done t => t = s.fell (atNodes s (fun n => g ∈ (s.node n).srlgs) done)
        (fun n => n ∈ done && g ∈ (s.node n).srlgs))
    (E := fun _ t => ∃ F N, TwinClosed s F ∧ NodeClosed s F N ∧ t = s.fell F N)
    (fun n => do
        let s ← get
        if s.memNode n (s.srlgNodes g) then failNode (s.node n).name else pure ()) l [] ?_ ?_
  · exact wp_mono this (fun _ t h => by simpa using h) (fun _ _ h => h)
  · rintro pre n post rfl t rfl
    have hn := hl n (by simp)
    simp only [List.nil_append]
    simp only [wp_bind, wp_get]
    have hs := fell_sameNet s (atNodes s (fun n => g ∈ (s.node n).srlgs) pre)
        (fun n => n ∈ pre && g ∈ (s.node n).srlgs)
    have hwt := hw.congr hs
    generalize hu : s.fell (atNodes s (fun n => g ∈ (s.node n).srlgs) pre)
        (fun n => n ∈ pre && g ∈ (s.node n).srlgs) = u at hs hwt ⊢
    have hmem : g ∈ (u.node n).srlgs ↔ g ∈ (s.node n).srlgs := by
      rw [← hu, fell_nodeSrlgs]
    have hnu : n ∈ u.nodes := by rw [hs.nodes]; exact hn
    refine wp_ite (fun hm => ?_) (fun hm => ?_)
    · have hg := hmem.1 ((memNode_iff hwt hnu).1 hm)
      refine wp_mono (failNode_spec hwt _) ?_ ?_
      · rintro _ t ⟨k, hk, hname, rfl⟩
        have := hwt.node_inj hk hnu hname
        subst this
        rw [fell_congr u (atNode_congr hs _) (fun _ => rfl), hs.name, ← hu, fell_fell]
        refine fell_congr _ (fun i => ?_) (fun m => ?_)
        · unfold atNodes
          rw [List.any_append]
          simp only [List.any_cons, List.any_nil, Bool.or_false, hg, decide_true, Bool.true_and]
        · rw [Bool.eq_iff_iff]
          simp only [Bool.or_eq_true, Bool.and_eq_true, decide_eq_true_eq, List.mem_append,
            List.mem_singleton]
          constructor
          · rintro (h | rfl)
            · exact ⟨.inl h.1, h.2⟩
            · exact ⟨.inr rfl, hg⟩
          · rintro ⟨h | h, h'⟩
            · exact .inl ⟨h, h'⟩
            · exact .inr h
      · rintro _ t ⟨F, hF, rfl⟩
        rw [← hu, fell_fell]
        have hp := hnc pre fun m hm => hl m (by simp [hm])
        refine ⟨_, _, (atNodes_closed s _ pre).or (hF.congr' hs), ⟨fun n h => ?_, ?_⟩, rfl⟩
        · exact hp.inside n (by simpa using h)
        intro i hi h
        rw [Bool.or_eq_true]
        left
        refine hp.reach i hi ?_
        simpa using h
    · have hg : ¬ g ∈ (s.node n).srlgs := fun h => hm ((memNode_iff hwt hnu).2 (hmem.2 h))
      change u = _
      rw [← hu]
      refine fell_congr _ (fun i => ?_) (fun m => ?_)
      · unfold atNodes
        rw [List.any_append]
        simp [hg]
      · rw [Bool.eq_iff_iff]
        simp only [Bool.and_eq_true, decide_eq_true_eq, List.mem_append, List.mem_singleton]
        constructor
        · rintro ⟨h, h'⟩; exact ⟨.inl h, h'⟩
        · rintro ⟨h | rfl, h'⟩
          · exact ⟨h, h'⟩
          · exact absurd h' hg
  · symm
    refine (fell_congr s (F' := fun _ => false) (N' := fun _ => false) ?_ ?_).trans (fell_none s)
    · intro k; simp [atNodes]
    · intro k; simp

/-- interfaces of the circuits of the members `p` of `l` -/
def circuitsIn (s : State) (p : ℕ → Bool) (l : List ℕ) : ℕ → Bool :=
  circuitsOf s (l.filter p)

theorem failMembers_spec {s : State} (hw : Wired s) (g : ℕ) (l : List ℕ) (hl : ∀ i ∈ l, i ∈ s.ifs) :
    wp (forEach l fun i => do
        let s ← get
        if s.memIfc i (s.srlgIfcs g) then failInterface (s.ifc i).name (s.tail i) else pure ())
      (fun _ t => t = s.fell (circuitsOf s (l.filter fun i => g ∈ (s.ifc i).srlgs)) (fun _ => false))
      (fun _ t => ∃ F, TwinClosed s F ∧ t = s.fell F (fun _ => false)) s := by
  have := wp_forEach_idx (s := s)
    (I := fun done t => (∀ i ∈ done, i ∈ s.ifs) ∧
      t = s.fell (circuitsOf s (done.filter fun i => g ∈ (s.ifc i).srlgs)) (fun _ => false))
    (E := fun _ t => ∃ F, TwinClosed s F ∧ t = s.fell F (fun _ => false))
    (fun i => do
        let s ← get
        if s.memIfc i (s.srlgIfcs g) then failInterface (s.ifc i).name (s.tail i) else pure ())
      l [] ?_ ?_
  · exact wp_mono this (fun _ t h => by simpa using h.2) (fun _ _ h => h)
  · rintro pre i post rfl t ⟨hd, rfl⟩
    have hi := hl i (by simp)
    simp only [List.nil_append] at hd ⊢
    simp only [wp_bind, wp_get]
    have hs := fell_sameNet s (circuitsOf s (pre.filter fun i => g ∈ (s.ifc i).srlgs)) fun _ => false
    have hwt := hw.congr hs
    have hd' : ∀ m ∈ pre ++ [i], m ∈ s.ifs := by
      intro m hm
      rcases List.mem_append.1 hm with h | h
      · exact hd m h
      · rw [List.mem_singleton.1 h]; exact hi
    generalize hu : s.fell (circuitsOf s (pre.filter fun i => g ∈ (s.ifc i).srlgs)) (fun _ => false) = u
      at hs hwt ⊢
    have hmem : g ∈ (u.ifc i).srlgs ↔ g ∈ (s.ifc i).srlgs := by
      rw [← hu, fell_ifcSrlgs]
    have hiu : i ∈ u.ifs := by rw [hs.ifs]; exact hi
    refine wp_ite (fun hm => ?_) (fun hm => ?_)
    · have hg := hmem.1 ((memSrlg_iff hwt hiu).1 hm)
      refine wp_mono (failInterface_spec _ _ _) ?_ ?_
      · rintro _ t ⟨k, hk, j, hj, hkey, hopp, rfl⟩
        have : k = i := hwt.keys k hk i hiu hkey
        subst this
        refine ⟨hd', ?_⟩
        rw [← hu, fell_fell]
        refine fell_congr _ (fun m => ?_) (fun _ => rfl)
        rw [hs.ifs] at hj
        rw [circuitsOf_snoc hw hj ((hs.opposite k j).1 hopp), List.filter_append]
        simp [hg]
      · rintro _ t rfl
        refine ⟨_, circuitsOf_closed hw (l := pre.filter fun i => g ∈ (s.ifc i).srlgs) ?_, hu.symm⟩
        intro m hm
        exact hd m (List.mem_filter.1 hm).1
    · have hg : ¬ g ∈ (s.ifc i).srlgs := fun h => hm ((memSrlg_iff hwt hiu).2 (hmem.2 h))
      change _ ∧ u = _
      refine ⟨hd', ?_⟩
      rw [← hu, List.filter_append]
      simp [hg]
  · refine ⟨by simp, ?_⟩
    symm
    refine (fell_congr s (F' := fun _ => false) ?_ (fun _ => rfl)).trans (fell_none s)
    intro k
    simp [circuitsOf]

theorem getSrlg_ok {s : State} {nm : String} {g : ℕ} (h : s.getSrlg nm = .ok g) :
    g ∈ s.srlgs ∧ (s.srlg g).name = nm := by
  unfold State.getSrlg at h
  split at h
  · next k hk =>
    cases h
    have : g ∈ s.srlgs.filter fun g => (s.srlg g).name = nm := by rw [hk]; simp
    simpa using this
  · cases h

/-- the interfaces that fail with SRLG `g` -/
def srlgReach (s : State) (g : ℕ) : ℕ → Bool :=
  fun i => atNodes s (fun n => g ∈ (s.node n).srlgs) s.nodes i ||
    circuitsOf s (s.ifs.filter fun i => g ∈ (s.ifc i).srlgs) i

theorem srlgReach_closed {s : State} (hw : Wired s) (g : ℕ) : TwinClosed s (srlgReach s g) := by
  refine (atNodes_closed s _ _).or (circuitsOf_closed hw ?_)
  intro i hi
  exact (List.mem_filter.1 hi).1

/-- the nodes that fail with SRLG `g` -/
def srlgMembers (s : State) (g : ℕ) : ℕ → Bool :=
  fun n => n ∈ s.nodes && g ∈ (s.node n).srlgs

theorem srlgReach_nodeClosed (s : State) (g : ℕ) :
    NodeClosed s (srlgReach s g) (srlgMembers s g) := by
  refine ⟨fun n h => ?_, ?_⟩
  · unfold srlgMembers at h
    simp only [Bool.and_eq_true, decide_eq_true_eq] at h
    exact h.1
  intro i hi h
  unfold srlgReach atNodes
  rw [Bool.or_eq_true, List.any_eq_true]
  left
  simp only [srlgMembers, Bool.and_eq_true, decide_eq_true_eq] at h
  rcases h with h | h
  · exact ⟨_, h.1, by simp [h.2, atNode, hi, State.tail]⟩
  · exact ⟨_, h.1, by simp [h.2, atNode, hi, State.head]⟩

def State.setSrlg (s : State) (g : ℕ) (b : Bool) : State :=
  s.updSrlg g fun x => { x with failed := b }

theorem failSrlg_spec {s : State} (hw : Wired s) (nm : String) :
    wp (failSrlg nm) (fun _ t => ∃ g ∈ s.srlgs, (s.srlg g).name = nm ∧
        t = (s.fell (srlgReach s g) (srlgMembers s g)).setSrlg g true)
      (fun _ t => ∃ F N, TwinClosed s F ∧ NodeClosed s F N ∧ t = s.fell F N) s := by
  unfold failSrlg
  simp only [wp_bind, wp_get, wp_liftE]
  cases hg : s.getSrlg nm with
  | error e =>
    simp only []
    exact ⟨fun _ => false, fun _ => false, TwinClosed.none s,
      ⟨fun n h => by simp at h, fun i _ h => by simp at h⟩, rfl⟩
  | ok g =>
    simp only []
    obtain ⟨h1, h2⟩ := getSrlg_ok hg
    refine wp_mono (failNodes_spec hw g s.nodes fun _ h => h) ?_ (fun _ _ h => h)
    rintro _ t rfl
    generalize hF : atNodes s (fun n => g ∈ (s.node n).srlgs) s.nodes = F
    generalize hN : (fun n => n ∈ s.nodes && g ∈ (s.node n).srlgs : ℕ → Bool) = N
    have hs := fell_sameNet s F N
    have hwt := hw.congr hs
    have hcl : NodeClosed s F N := by
      refine ⟨fun n h => ?_, ?_⟩
      · simp only [← hN, Bool.and_eq_true, decide_eq_true_eq] at h
        exact h.1
      intro i hi h
      rw [← hF]
      unfold atNodes
      rw [List.any_eq_true]
      simp only [← hN, Bool.and_eq_true, decide_eq_true_eq] at h
      rcases h with h | h
      · exact ⟨_, h.1, by simp [h.2, atNode, hi, State.tail]⟩
      · exact ⟨_, h.1, by simp [h.2, atNode, hi, State.head]⟩
    refine wp_mono (failMembers_spec hwt g s.ifs fun i hi => by rw [hs.ifs]; exact hi) ?_ ?_
    · rintro _ t rfl
      refine ⟨g, h1, h2, ?_⟩
      rw [fell_fell]
      unfold State.setSrlg
      congr 1
      refine fell_congr _ (fun i => ?_) (fun n => ?_)
      · unfold srlgReach
        rw [hF]
        congr 1
        unfold circuitsOf
        simp only [fell_ifcSrlgs, hs.ifs]
        congr 1
        refine propext (exists_congr fun k => and_congr Iff.rfl (or_congr Iff.rfl ?_))
        rw [hs.opposite]
      · rw [Bool.or_false, ← hN]
        rfl
    · rintro _ t ⟨G, hG, rfl⟩
      rw [fell_fell]
      refine ⟨_, _, (hF ▸ atNodes_closed s _ _ : TwinClosed s F).or (hG.congr' hs),
        ⟨fun n h => hcl.inside n (by simpa using h), ?_⟩, rfl⟩
      intro i hi h
      rw [Bool.or_eq_true]
      exact .inl (hcl.reach i hi (by simpa using h))

end NTM
