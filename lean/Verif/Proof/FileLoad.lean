import Verif.Proof.File

/-!
# The loader, line by line
-/

namespace NTM

open Spec

/-- `t` is `s` with further objects that are not in the model yet -/
structure Grows (s t : State) : Prop where
  next : s.next ≤ t.next
  node : ∀ j < s.next, t.node j = s.node j
  ifc : ∀ j < s.next, t.ifc j = s.ifc j
  dmd : ∀ j < s.next, t.dmd j = s.dmd j
  lsp : ∀ j < s.next, t.lsp j = s.lsp j
  kind : t.kind = s.kind
  nodes : t.nodes = s.nodes
  ifs : t.ifs = s.ifs
  dmds : t.dmds = s.dmds
  lsps : t.lsps = s.lsps
  srlgs : t.srlgs = s.srlgs
  circuits : t.circuits = s.circuits

theorem Grows.refl (s : State) : Grows s s :=
  ⟨le_refl _, fun _ _ => rfl, fun _ _ => rfl, fun _ _ => rfl, fun _ _ => rfl, rfl, rfl, rfl, rfl,
    rfl, rfl, rfl⟩

theorem Grows.trans {a b c : State} (h : Grows a b) (g : Grows b c) : Grows a c where
  next := h.next.trans g.next
  node j hj := (g.node j (lt_of_lt_of_le hj h.next)).trans (h.node j hj)
  ifc j hj := (g.ifc j (lt_of_lt_of_le hj h.next)).trans (h.ifc j hj)
  dmd j hj := (g.dmd j (lt_of_lt_of_le hj h.next)).trans (h.dmd j hj)
  lsp j hj := (g.lsp j (lt_of_lt_of_le hj h.next)).trans (h.lsp j hj)
  kind := g.kind.trans h.kind
  nodes := g.nodes.trans h.nodes
  ifs := g.ifs.trans h.ifs
  dmds := g.dmds.trans h.dmds
  lsps := g.lsps.trans h.lsps
  srlgs := g.srlgs.trans h.srlgs
  circuits := g.circuits.trans h.circuits

/-- The model holds these records and all its references exist. -/
structure Stage (s : State) (d : FileData) : Prop where
  holds : Holds s d
  nodeRef : ∀ n ∈ s.nodes, n < s.next
  ifcRef : ∀ i ∈ s.ifs, i < s.next ∧ (s.ifc i).node ∈ s.nodes ∧ (s.ifc i).remote < s.next ∧
    ((s.ifc i).remote ∈ s.nodes ∨
      (s.node (s.ifc i).remote).name = (s.node (s.ifc i).node).name)
  dmdRef : ∀ d ∈ s.dmds, d < s.next ∧ (s.dmd d).src ∈ s.nodes ∧ (s.dmd d).dst ∈ s.nodes
  lspRef : ∀ l ∈ s.lsps, l < s.next ∧ (s.lsp l).src ∈ s.nodes ∧ (s.lsp l).dst ∈ s.nodes

theorem nodeData_name (l : List NodeRec) (x : String) : (nodeData l x).name = x := by
  unfold nodeData
  cases h : (l.filter fun r => decide (r.name = x)).getLast? with
  | none => rfl
  | some r =>
    have := List.mem_of_getLast? h
    simpa using (List.mem_filter.1 this).2

theorem Spec.Holds.nodeNames {s : State} {d : FileData} (h : Holds s d) :
    s.nodeNames = keepFirst id d.names := by
  have := congrArg (List.map NodeRec.name) h.nodes
  rw [List.map_map, List.map_map] at this
  have e1 : (NodeRec.name ∘ nodeDataOf s) = fun n => (s.node n).name := rfl
  have e2 : (NodeRec.name ∘ nodeData d.nodes) = id := by
    funext x; exact nodeData_name _ _
  rw [e1, e2, List.map_id] at this
  exact this

theorem Spec.Holds.mem_nodeNames {s : State} {d : FileData} (h : Holds s d) {x : String} :
    x ∈ s.nodeNames ↔ x ∈ d.names := by
  rw [h.nodeNames, mem_keepFirst_id]

theorem Stage.grows {s t : State} {d : FileData} (h : Stage s d) (g : Grows s t) : Stage t d := by
  have hnode : ∀ n ∈ s.nodes, t.node n = s.node n := fun n hn => g.node n (h.nodeRef n hn)
  have hifc : ∀ i ∈ s.ifs, t.ifc i = s.ifc i := fun i hi => g.ifc i (h.ifcRef i hi).1
  have hdmd : ∀ i ∈ s.dmds, t.dmd i = s.dmd i := fun i hi => g.dmd i (h.dmdRef i hi).1
  have hlsp : ∀ i ∈ s.lsps, t.lsp i = s.lsp i := fun i hi => g.lsp i (h.lspRef i hi).1
  have hrem : ∀ i ∈ s.ifs, t.node (s.ifc i).remote = s.node (s.ifc i).remote :=
    fun i hi => g.node _ (h.ifcRef i hi).2.2.1
  refine ⟨⟨?_, ?_, ?_, ?_, ⟨?_, ?_, ?_, ?_, ?_, ?_⟩⟩, ?_, ?_, ?_, ?_⟩
  · rw [g.ifs, ← h.holds.ifs]
    refine List.map_congr_left fun i hi => ?_
    unfold ifcData
    rw [hifc i hi, hnode _ (h.ifcRef i hi).2.1, hrem i hi]
  · rw [g.nodes, ← h.holds.nodes]
    refine List.map_congr_left fun i hi => ?_
    unfold nodeDataOf
    rw [hnode i hi]
  · rw [g.dmds, ← h.holds.dmds]
    refine List.map_congr_left fun i hi => ?_
    unfold dmdData
    rw [hdmd i hi, hnode _ (h.dmdRef i hi).2.1, hnode _ (h.dmdRef i hi).2.2]
  · rw [g.lsps, ← h.holds.lsps]
    refine List.map_congr_left fun i hi => ?_
    unfold lspData
    rw [hlsp i hi, hnode _ (h.lspRef i hi).2.1, hnode _ (h.lspRef i hi).2.2]
  · intro n hn; rw [g.nodes] at hn; rw [hnode n hn]; exact h.holds.unused.nodes n hn
  · intro n hn; rw [g.ifs] at hn; rw [hifc n hn]; exact h.holds.unused.ifs n hn
  · intro n hn; rw [g.dmds] at hn; rw [hdmd n hn]; exact h.holds.unused.dmds n hn
  · intro n hn; rw [g.lsps] at hn; rw [hlsp n hn]; exact h.holds.unused.lsps n hn
  · rw [g.srlgs]; exact h.holds.unused.srlgs
  · rw [g.circuits]; exact h.holds.unused.circuits
  · intro n hn; rw [g.nodes] at hn; exact lt_of_lt_of_le (h.nodeRef n hn) g.next
  · intro i hi
    rw [g.ifs] at hi
    rw [hifc i hi, g.nodes, hrem i hi, hnode _ (h.ifcRef i hi).2.1]
    obtain ⟨a, b, c, e⟩ := h.ifcRef i hi
    exact ⟨lt_of_lt_of_le a g.next, b, lt_of_lt_of_le c g.next, e⟩
  · intro i hi
    rw [g.dmds] at hi
    rw [hdmd i hi, g.nodes]
    obtain ⟨a, b, c⟩ := h.dmdRef i hi
    exact ⟨lt_of_lt_of_le a g.next, b, c⟩
  · intro i hi
    rw [g.lsps] at hi
    rw [hlsp i hi, g.nodes]
    obtain ⟨a, b, c⟩ := h.lspRef i hi
    exact ⟨lt_of_lt_of_le a g.next, b, c⟩

theorem stage_empty (k : Kind) : Stage (emptyState k) ⟨[], [], [], []⟩ := by
  refine ⟨⟨rfl, rfl, rfl, rfl, ⟨?_, ?_, ?_, ?_, rfl, rfl⟩⟩, ?_, ?_, ?_, ?_⟩ <;>
    simp [emptyState]

/-! ### interface lines -/

theorem newNode_grows (s : State) (name : String) (lat lon : ℚ) :
    ∃ t, newNode name lat lon s = .ok s.next t ∧ Grows s t ∧ s.next < t.next ∧
      t.node s.next = { name := name, lat := lat, lon := lon } := by
  refine ⟨_, rfl, ⟨Nat.le_succ _, fun j hj => ?_, fun _ _ => rfl, fun _ _ => rfl,
    fun _ _ => rfl, rfl, rfl, rfl, rfl, rfl, rfl, rfl⟩, Nat.lt_succ_self _, ?_⟩
  · show (if j = s.next then _ else s.node j) = _
    rw [if_neg (Nat.ne_of_lt hj)]
  · show (if s.next = s.next then _ else s.node s.next) = _
    rw [if_pos rfl]

theorem nodeFor_wp {s : State} {known : List ℕ} {name : String} {E : Exn → State → Prop}
    (hk : ∀ n ∈ known, n < s.next) :
    wp (nodeFor known name) (fun n t => Grows s t ∧ n < t.next ∧ (t.node n).name = name ∧
      (n ∈ known ∨ ((∀ x ∈ known, (s.node x).name ≠ name) ∧ t.node n = { name := name }))) E s := by
  unfold nodeFor
  rw [wp_bind, wp_get]
  cases h : known.find? fun n => decide ((s.node n).name = name) with
  | some n =>
    have hm := List.mem_of_find?_eq_some h
    have hn := List.find?_some h
    exact ⟨Grows.refl s, hk n hm, of_decide_eq_true hn, .inl hm⟩
  | none =>
    obtain ⟨t, ht, hg, hlt, hnode⟩ := newNode_grows s name 0 0
    show wp (newNode name 0 0) _ E s
    rw [wp_ok ht]
    refine ⟨hg, hlt, by rw [hnode], .inr ⟨fun x hx e => ?_, hnode⟩⟩
    have := List.find?_eq_none.1 h x hx
    simp [e] at this

/-- the insertion of an interface with a new key -/
def State.putIfc (s : State) (i : ℕ) : State :=
  if s.ifs.any fun j => s.ifcKey j = s.ifcKey i then s else { s with ifs := s.ifs ++ [i] }

/-- the insertion of a node with a new name -/
def State.putNode (s : State) (name : String) (n : ℕ) : State :=
  if name ∈ s.nodeNames then s else { s with nodes := s.nodes ++ [n] }

theorem putIfc_kind (s : State) (i : ℕ) : (s.putIfc i).kind = s.kind := by
  unfold State.putIfc; split <;> rfl

theorem putNode_kind (s : State) (x : String) (n : ℕ) : (s.putNode x n).kind = s.kind := by
  unfold State.putNode; split <;> rfl

theorem stage_putIfc {t : State} {rs : List IfcRec} {r : IfcRec} {i n m : ℕ}
    (h : Stage t ⟨rs, [], [], []⟩) (hi : i < t.next) (hr : ifcData t i = r)
    (hin : (t.ifc i).node = n) (him : (t.ifc i).remote = m)
    (hfresh : (t.ifc i).failed = false ∧ (t.ifc i).srlgs = [] ∧
      (t.ifc i).reservedRaw = 0 ∧ (t.ifc i).traffic = .val 0)
    (hn : n < t.next) (hm : m < t.next)
    (hn' : n ∈ t.nodes ∨ (r.node ∉ t.nodeNames ∧ t.node n = { name := r.node }))
    (hm' : m ∈ t.nodes ∨ (r.remote ∉ t.nodeNames ∧ t.node m = { name := r.remote })) :
    Stage (((t.putIfc i).putNode r.node n).putNode r.remote m) ⟨rs ++ [r], [], [], []⟩ := by
  -- the interface set
  set a := t.putIfc i with ha
  have haN : a.nodes = t.nodes := by rw [ha]; unfold State.putIfc; split <;> rfl
  have haNode : a.node = t.node := by rw [ha]; unfold State.putIfc; split <;> rfl
  have haIfc : a.ifc = t.ifc := by rw [ha]; unfold State.putIfc; split <;> rfl
  have haRest : a.next = t.next ∧ a.dmds = t.dmds ∧ a.lsps = t.lsps ∧ a.srlgs = t.srlgs ∧
      a.circuits = t.circuits := by
    rw [ha]; unfold State.putIfc; split <;> exact ⟨rfl, rfl, rfl, rfl, rfl⟩
  have haIfs : a.ifs.map (ifcData t) =
      keepFirst (fun r => (r.name, r.node)) (rs ++ [r]) ∧ ∀ j ∈ a.ifs, j ∈ t.ifs ∨ j = i := by
    rw [keepFirst_snoc]
    have hkey : (t.ifs.any fun j => decide (t.ifcKey j = t.ifcKey i)) = true ↔
        ∃ y ∈ rs, (y.name, y.node) = (r.name, r.node) := by
      have h1 := mem_keepFirst_key (fun r : IfcRec => (r.name, r.node)) (l := rs)
        (k := (r.name, r.node))
      rw [← h1, ← h.holds.ifs, List.any_eq_true]
      subst hr
      constructor
      · rintro ⟨j, hj, e⟩
        exact ⟨_, List.mem_map_of_mem hj, of_decide_eq_true e⟩
      · rintro ⟨y, hy, e⟩
        obtain ⟨j, hj, rfl⟩ := List.mem_map.1 hy
        exact ⟨j, hj, decide_eq_true e⟩
    rw [ha]
    unfold State.putIfc
    by_cases hc : (t.ifs.any fun j => decide (t.ifcKey j = t.ifcKey i)) = true
    · rw [if_pos hc, if_pos (hkey.1 hc)]
      exact ⟨h.holds.ifs, fun j hj => .inl hj⟩
    · rw [if_neg hc, if_neg (mt hkey.2 hc)]
      refine ⟨?_, fun j hj => ?_⟩
      · show (t.ifs ++ [i]).map (ifcData t) = _
        rw [List.map_append, h.holds.ifs, ← hr]; rfl
      · rcases List.mem_append.1 hj with hj | hj
        · exact .inl hj
        · exact .inr (List.mem_singleton.1 hj)
  -- the node set
  have hput : ∀ (b : State) (x : String) (c : ℕ) (l : List String), b.node = t.node →
      b.nodes.map (nodeDataOf t) = (keepFirst id l).map (nodeData []) →
      (∀ j ∈ b.nodes, j < t.next ∧ ((t.node j).failed = false ∧ (t.node j).srlgs = [])) →
      c < t.next → (t.node c).name = x →
      (x ∉ b.nodeNames → t.node c = { name := x }) →
      (b.putNode x c).nodes.map (nodeDataOf t) = (keepFirst id (l ++ [x])).map (nodeData []) ∧
      (∀ j ∈ (b.putNode x c).nodes,
        j < t.next ∧ ((t.node j).failed = false ∧ (t.node j).srlgs = [])) ∧
      (∀ j ∈ b.nodes, j ∈ (b.putNode x c).nodes) ∧
      (x ∉ b.nodeNames → c ∈ (b.putNode x c).nodes) ∧
      (b.putNode x c).node = t.node ∧ (b.putNode x c).ifc = b.ifc ∧ (b.putNode x c).ifs = b.ifs ∧
      (b.putNode x c).next = b.next ∧ (b.putNode x c).dmds = b.dmds ∧
      (b.putNode x c).lsps = b.lsps ∧ (b.putNode x c).srlgs = b.srlgs ∧
      (b.putNode x c).circuits = b.circuits := by
    intro b x c l hb hmap hfr hc hcn hcf
    have hnames : b.nodeNames = keepFirst id l := by
      have := congrArg (List.map NodeRec.name) hmap
      rw [List.map_map, List.map_map] at this
      have e2 : (NodeRec.name ∘ nodeData []) = id := by funext x; exact nodeData_name _ _
      rw [e2, List.map_id] at this
      rw [← this]
      unfold State.nodeNames
      rw [hb]
      rfl
    have hmem : x ∈ b.nodeNames ↔ ∃ y ∈ l, id y = id x := by
      rw [hnames, mem_keepFirst_id]; simp
    rw [keepFirst_snoc]
    unfold State.putNode
    by_cases hx : x ∈ b.nodeNames
    · rw [if_pos hx, if_pos (hmem.1 hx)]
      exact ⟨hmap, hfr, fun j hj => hj, fun hn => absurd hx hn, hb, rfl, rfl, rfl, rfl, rfl, rfl, rfl⟩
    · rw [if_neg hx, if_neg (mt hmem.2 hx)]
      have hfc := hcf hx
      refine ⟨?_, ?_, fun j hj => List.mem_append_left _ hj, fun _ => List.mem_append_right _ (by simp),
        hb, rfl, rfl, rfl, rfl, rfl, rfl, rfl⟩
      · show (b.nodes ++ [c]).map (nodeDataOf t) = _
        rw [List.map_append, List.map_append, hmap]
        congr 1
        simp only [List.map_cons, List.map_nil]
        unfold nodeDataOf
        rw [hfc]
        rfl
      · intro j hj
        rcases List.mem_append.1 hj with hj | hj
        · exact hfr j hj
        · rw [List.mem_singleton.1 hj, hfc]
          exact ⟨hc, rfl, rfl⟩
  have hrn : (t.node n).name = r.node := by rw [← hr, ← hin]; rfl
  have hrm : (t.node m).name = r.remote := by rw [← hr, ← him]; rfl
  have hmemname : ∀ (b : State), b.node = t.node → ∀ j ∈ b.nodes, (t.node j).name ∈ b.nodeNames := by
    intro b hb j hj
    unfold State.nodeNames
    rw [hb]
    exact List.mem_map_of_mem hj
  obtain ⟨b1, b2, b3, b4, b5, b6, b7, b8, b9, b10, b11, b12⟩ := hput a r.node n
    (FileData.names ⟨rs, [], [], []⟩) haNode (by rw [haN]; exact h.holds.nodes)
    (by rw [haN]; exact fun j hj => ⟨h.nodeRef j hj, h.holds.unused.nodes j hj⟩) hn hrn
    (fun hx => by
      rcases hn' with hn' | hn'
      · exact absurd (hrn ▸ hmemname a haNode n (haN ▸ hn')) hx
      · exact hn'.2)
  set b := a.putNode r.node n with hbdef
  obtain ⟨c1, c2, c3, c4, c5, c6, c7, c8, c9, c10, c11, c12⟩ := hput b r.remote m
    (FileData.names ⟨rs, [], [], []⟩ ++ [r.node]) b5 b1 b2 hm hrm
    (fun hx => by
      rcases hm' with hm' | hm'
      · exact absurd (hrm ▸ hmemname b b5 m (b3 m (haN ▸ hm'))) hx
      · exact hm'.2)
  set c := b.putNode r.remote m with hcdef
  have hnames : FileData.names ⟨rs ++ [r], [], [], []⟩ =
      FileData.names ⟨rs, [], [], []⟩ ++ [r.node] ++ [r.remote] := by
    unfold FileData.names
    simp
  have hcN : ∀ j ∈ t.nodes, j ∈ c.nodes := fun j hj => c3 j (b3 j (haN ▸ hj))
  have hcn : n ∈ c.nodes := by
    rcases hn' with hn' | hn'
    · exact hcN n hn'
    · refine c3 n (b4 ?_)
      unfold State.nodeNames
      rw [haN, haNode]
      exact hn'.1
  have hcm : m ∈ c.nodes ∨ r.remote = r.node := by
    rcases hm' with hm' | hm'
    · exact .inl (hcN m hm')
    · by_cases hx : r.remote ∈ b.nodeNames
      · right
        have hb1 : r.remote ∈ keepFirst id (FileData.names ⟨rs, [], [], []⟩ ++ [r.node]) := by
          have := congrArg (List.map NodeRec.name) b1
          rw [List.map_map, List.map_map] at this
          have e2 : (NodeRec.name ∘ nodeData []) = id := by funext x; exact nodeData_name _ _
          rw [e2, List.map_id] at this
          rw [← this]
          unfold State.nodeNames at hx
          rw [b5] at hx
          exact hx
        rw [mem_keepFirst_id, List.mem_append] at hb1
        rcases hb1 with hb1 | hb1
        · exact absurd (h.holds.mem_nodeNames.2 hb1) hm'.1
        · exact List.mem_singleton.1 hb1
      · exact .inl (c4 hx)
  have hdm : c.dmds = [] := by
    rw [c9, b9, haRest.2.1]
    have := h.holds.dmds
    exact List.map_eq_nil_iff.1 this
  have hls : c.lsps = [] := by
    rw [c10, b10, haRest.2.2.1]
    have := h.holds.lsps
    exact List.map_eq_nil_iff.1 this
  have hnext : c.next = t.next := by rw [c8, b8, haRest.1]
  have hifc : c.ifc = t.ifc := by rw [c6, b6, haIfc]
  have hifs : c.ifs = a.ifs := by rw [c7, b7]
  refine ⟨⟨?_, ?_, ?_, ?_, ⟨?_, ?_, ?_, ?_, ?_, ?_⟩⟩, ?_, ?_, ?_, ?_⟩
  · rw [hifs, ← haIfs.1]
    refine List.map_congr_left fun j _ => ?_
    unfold ifcData
    rw [hifc, c5]
  · rw [hnames, ← c1]
    refine List.map_congr_left fun j _ => ?_
    unfold nodeDataOf
    rw [c5]
  · rw [hdm]; rfl
  · rw [hls]; rfl
  · intro j hj; rw [c5]; exact (c2 j hj).2
  · intro j hj
    rw [hifs] at hj
    rw [hifc]
    rcases haIfs.2 j hj with hj | rfl
    · exact h.holds.unused.ifs j hj
    · exact hfresh
  · rw [hdm]; simp
  · rw [hls]; simp
  · rw [c11, b11, haRest.2.2.2.1]; exact h.holds.unused.srlgs
  · rw [c12, b12, haRest.2.2.2.2]; exact h.holds.unused.circuits
  · intro j hj; rw [hnext]; exact (c2 j hj).1
  · intro j hj
    rw [hifs] at hj
    rw [hifc, hnext, c5]
    rcases haIfs.2 j hj with hj | rfl
    · obtain ⟨x, y, z, w⟩ := h.ifcRef j hj
      exact ⟨x, hcN _ y, z, w.imp (hcN _) id⟩
    · rw [hin, him, hrm, hrn]
      exact ⟨hi, hcn, hm, hcm⟩
  · rw [hdm]; simp
  · rw [hls]; simp

theorem newIfc_grows (s : State) {name : String} {cost : ℤ} {cap : ℚ} (n m : ℕ) (c : CktId)
    (h1 : 1 ≤ cost) (h2 : 0 < cap) :
    ∃ t, newIfc name cost cap n m c s = .ok s.next t ∧ Grows s t ∧ s.next < t.next ∧
      t.ifc s.next = { name := name, cost := cost.toNat, capacity := cap, node := n, remote := m,
                       cktId := c } ∧ t.node = s.node := by
  unfold newIfc
  rw [if_neg (by omega), if_neg (not_not.2 h2)]
  refine ⟨_, rfl, ⟨Nat.le_succ _, fun _ _ => rfl, fun j hj => ?_, fun _ _ => rfl,
    fun _ _ => rfl, rfl, rfl, rfl, rfl, rfl, rfl, rfl⟩, Nat.lt_succ_self _, ?_, rfl⟩
  · show (if j = s.next then _ else s.ifc j) = _
    rw [if_neg (Nat.ne_of_lt hj)]
  · show (if s.next = s.next then _ else s.ifc s.next) = _
    rw [if_pos rfl]

theorem newIfc_error (s : State) {name : String} {cost : ℤ} {cap : ℚ} (n m : ℕ) (c : CktId)
    (h : ¬ (1 ≤ cost ∧ 0 < cap)) : ∃ e, newIfc name cost cap n m c s = .error e s := by
  unfold newIfc
  by_cases h1 : cost < 1
  · rw [if_pos h1]; exact ⟨_, rfl⟩
  · rw [if_neg h1, if_pos fun h2 => h ⟨by omega, h2⟩]; exact ⟨_, rfl⟩

theorem loadIfcLine_wp (rd : Reader) (line : String) {s : State} {rs : List IfcRec}
    (h : Stage s ⟨rs, [], [], []⟩) :
    wp (loadIfcLine rd line)
      (fun _ t => t.kind = s.kind ∧ ∃ r, IfcLine rd s.kind line r ∧ Stage t ⟨rs ++ [r], [], [], []⟩)
      (fun _ _ => ¬ ∃ r, IfcLine rd s.kind line r) s := by
  unfold loadIfcLine
  rw [wp_bind, wp_get, wp_bind, wp_liftE]
  cases hrow : readIfcRow s.kind line with
  | error e =>
    rintro ⟨r, hr⟩
    obtain ⟨row, cap, h1, -⟩ := ifcLine_iff.1 hr
    rw [hrow] at h1; cases h1
  | ok row =>
    simp only []
    rw [wp_bind]
    refine wp_mono (nodeFor_wp h.nodeRef) ?_ (fun _ _ h => h)
    rintro n t1 ⟨g1, hn1, hn2, hn3⟩
    rw [wp_bind]
    refine wp_mono (nodeFor_wp fun x hx => lt_of_lt_of_le (h.nodeRef x hx) g1.next) ?_
      (fun _ _ h => h)
    rintro m t2 ⟨g2, hm1, hm2, hm3⟩
    have hbad : (¬ ∃ c cap p, rd.int row.cost = some c ∧ rd.int row.capacity = some cap ∧
        row.readPct rd = some p ∧ 1 ≤ c ∧ (0:ℚ) < cap) → ¬ ∃ r, IfcLine rd s.kind line r := by
      rintro hno ⟨r, hr⟩
      obtain ⟨row', cap, h1, -, -, -, h2, h3, h4, h5, h6, -, -, h7⟩ := ifcLine_iff.1 hr
      rw [hrow] at h1
      cases h1
      exact hno ⟨_, _, _, h2, h4, h7, h3, by rw [← h5]; exact h6⟩
    split
    · next cost cap pct hc hcap hp =>
      rw [wp_bind]
      by_cases h1 : 1 ≤ cost ∧ (0:ℚ) < cap
      · obtain ⟨t3, ht3, g3, hlt, hifc, hnode⟩ := newIfc_grows t2 (name := row.name) n m row.ckt h1.1 h1.2
        rw [wp_ok ht3, wp_bind, wp_modify, wp_bind, wp_modify, wp_bind, wp_modify, wp_modify]
        set t4 := t3.updIfc t2.next fun x => { x with rsvpEnabled := row.rsvp, pct := pct } with ht4
        have g34 : Grows t2 t4 := by
          refine ⟨g3.next, g3.node, fun j hj => ?_, g3.dmd, g3.lsp, g3.kind, g3.nodes, g3.ifs, g3.dmds,
            g3.lsps, g3.srlgs, g3.circuits⟩
          show (if j = t2.next then _ else t3.ifc j) = _
          rw [if_neg (Nat.ne_of_lt hj), g3.ifc j hj]
        have g : Grows s t4 := (g1.trans g2).trans g34
        have hcost : ((cost.toNat : ℕ) : ℤ) = cost := Int.toNat_of_nonneg (by omega)
        have hifc4 : t4.ifc t2.next =
            { name := row.name, cost := cost.toNat, capacity := cap, node := n, remote := m,
              cktId := row.ckt, rsvpEnabled := row.rsvp, pct := pct } := by
          show (if t2.next = t2.next then _ else _) = _
          rw [if_pos rfl, hifc]
        have hn4 : t4.node n = t1.node n := (g2.trans g34).node n hn1
        have hm4 : t4.node m = t2.node m := g34.node m hm1
        set r : IfcRec := ⟨row.node, row.remote, row.name, cost, cap, row.ckt, row.rsvp, pct⟩ with hr
        show (((t4.putIfc t2.next).putNode r.node n).putNode r.remote m).kind = s.kind ∧ ∃ r',
          IfcLine rd s.kind line r' ∧ Stage (((t4.putIfc t2.next).putNode r.node n).putNode r.remote m)
            ⟨rs ++ [r'], [], [], []⟩
        refine ⟨?_, r, ?_, ?_⟩
        · rw [putNode_kind, putNode_kind, putIfc_kind, g.kind]
        · exact ifcLine_iff.2 ⟨row, cap, hrow, rfl, rfl, rfl, hc, h1.1, hcap, rfl, h1.2, rfl, rfl, hp⟩
        · refine stage_putIfc (h.grows g) (i := t2.next) (n := n) (m := m) hlt ?_ (by rw [hifc4])
            (by rw [hifc4]) (by rw [hifc4]; exact ⟨rfl, rfl, rfl, rfl⟩)
            (lt_of_lt_of_le hn1 (g2.trans g34).next) (lt_of_lt_of_le hm1 g34.next) ?_ ?_
          · unfold ifcData
            rw [hifc4]
            simp only []
            rw [hn4, hm4, hn2, hm2, hcost]
          · rw [g.nodes]
            refine hn3.imp id fun ⟨h5, h6⟩ => ⟨?_, by rw [hn4, h6]⟩
            unfold State.nodeNames
            rw [g.nodes]
            intro hx
            obtain ⟨x, hx, e⟩ := List.mem_map.1 hx
            rw [g.node x (h.nodeRef x hx)] at e
            exact h5 x hx e
          · rw [g.nodes]
            refine hm3.imp id fun ⟨h5, h6⟩ => ⟨?_, by rw [hm4, h6]⟩
            unfold State.nodeNames
            rw [g.nodes]
            intro hx
            obtain ⟨x, hx, e⟩ := List.mem_map.1 hx
            rw [g.node x (h.nodeRef x hx), ← g1.node x (h.nodeRef x hx)] at e
            exact h5 x hx e
      · obtain ⟨e, he⟩ := newIfc_error t2 (name := row.name) n m row.ckt h1
        rw [wp_error he]
        refine hbad ?_
        rintro ⟨c, q, p, e1, e2, e3, h5, h6⟩
        rw [hc] at e1; cases e1
        rw [hcap] at e2; cases e2
        exact h1 ⟨h5, h6⟩
    · next hno =>
      rw [wp_raise]
      refine hbad ?_
      rintro ⟨c, q, p, e1, e2, e3, -, -⟩
      exact hno _ _ _ e1 e2 e3

/-! ### node lines -/

theorem nodes_holds_iff {s : State} {l : List String} {ns : List NodeRec} :
    s.nodes.map (nodeDataOf s) = (keepFirst id l).map (nodeData ns) ↔
      s.nodeNames = keepFirst id l ∧ ∀ j ∈ s.nodes, nodeDataOf s j = nodeData ns (s.node j).name := by
  constructor
  · intro h
    have h1 : s.nodeNames = keepFirst id l := by
      have := congrArg (List.map NodeRec.name) h
      rw [List.map_map, List.map_map] at this
      have e2 : (NodeRec.name ∘ nodeData ns) = id := by funext x; exact nodeData_name _ _
      rw [e2, List.map_id] at this
      exact this
    refine ⟨h1, ?_⟩
    rw [← h1] at h
    unfold State.nodeNames at h
    rw [List.map_map] at h
    exact List.map_inj_left.1 h
  · rintro ⟨h1, h2⟩
    rw [← h1]
    unfold State.nodeNames
    rw [List.map_map]
    exact List.map_congr_left h2

theorem nodeData_snoc (ns : List NodeRec) (r : NodeRec) (x : String) :
    nodeData (ns ++ [r]) x = if r.name = x then r else nodeData ns x := by
  unfold nodeData
  rw [List.filter_append]
  by_cases h : r.name = x
  · rw [if_pos h]
    simp [h]
  · rw [if_neg h]
    simp [h]

theorem coordinate_iff {rd : Reader} {f : Option String} {q : ℚ} :
    Coordinate rd f q ↔ intOrZero rd f = q := by
  unfold Coordinate intOrZero
  cases f with
  | none =>
    constructor
    · rintro (⟨x, n, h, -⟩ | ⟨-, rfl⟩)
      · cases h
      · rfl
    · rintro rfl; exact .inr ⟨fun x h => (by cases h), rfl⟩
  | some x =>
    rw [Option.bind_some]
    cases hx : rd.int x with
    | none =>
      constructor
      · rintro (⟨y, n, h, hn, -⟩ | ⟨-, rfl⟩)
        · cases h; rw [hx] at hn; cases hn
        · rfl
      · rintro rfl
        refine .inr ⟨fun y h => ?_, rfl⟩
        cases h
        exact hx
    | some m =>
      constructor
      · rintro (⟨y, n, h, hn, rfl⟩ | ⟨h, -⟩)
        · cases h; rw [hx] at hn; cases hn; rfl
        · have := h x rfl; rw [hx] at this; cases this
      · rintro rfl; exact .inl ⟨x, m, rfl, hx, rfl⟩

theorem shortcuts_iff {f : Option String} {b : Bool} :
    (f = none ∧ b = false ∨ f = some "True" ∧ b = true ∨ f = some "False" ∧ b = false) ↔
      shortcutsOf f = .ok b := by
  unfold shortcutsOf
  cases f with
  | none => cases b <;> simp
  | some f =>
    unfold parseShortcuts
    by_cases h1 : f = "True"
    · subst h1; cases b <;> simp
    · by_cases h2 : f = "False"
      · subst h2; cases b <;> simp
      · cases b <;> simp [h1, h2]

theorem nodeLine_iff {rd : Reader} {line : String} {r : NodeRec} :
    NodeLine rd line r ↔ (splitTab line).headD "" = r.name ∧
      intOrZero rd (splitTab line)[2]? = r.lat ∧ intOrZero rd (splitTab line)[1]? = r.lon ∧
      shortcutsOf (splitTab line)[3]? = .ok r.shortcuts := by
  unfold NodeLine
  have hne : splitTab line ≠ [] := (hasFields_iff.2 rfl : HasFields line (splitTab line)).1
  constructor
  · rintro ⟨fs, hf, h1, h2, h3⟩
    rw [hasFields_iff] at hf
    rw [hf]
    exact ⟨rfl, coordinate_iff.1 h2, coordinate_iff.1 h1, shortcuts_iff.1 h3⟩
  · rintro ⟨h0, h1, h2, h3⟩
    cases hs : splitTab line with
    | nil => exact absurd hs hne
    | cons f fs =>
      rw [hs] at h0 h1 h2 h3
      refine ⟨fs, hasFields_iff.2 ?_, coordinate_iff.2 h2, coordinate_iff.2 h1, shortcuts_iff.2 h3⟩
      rw [hs]
      exact congrArg (· :: fs) h0

/-- the same objects, except that some of their nodes may differ in position and shortcuts -/
theorem stage_nodes {s t : State} {rs : List IfcRec} {ns ns' : List NodeRec}
    (h : Stage s ⟨rs, ns, [], []⟩) (hname : ∀ j < s.next, (t.node j).name = (s.node j).name)
    (hifc : t.ifc = s.ifc) (hifs : t.ifs = s.ifs) (hdmds : t.dmds = s.dmds) (hlsps : t.lsps = s.lsps)
    (hsrlgs : t.srlgs = s.srlgs) (hckt : t.circuits = s.circuits) (hnext : s.next ≤ t.next)
    (hsub : ∀ j ∈ s.nodes, j ∈ t.nodes)
    (hnodes : ∀ j ∈ t.nodes, j < t.next ∧ (t.node j).failed = false ∧ (t.node j).srlgs = [])
    (hmap : t.nodes.map (nodeDataOf t) =
      (keepFirst id (FileData.names ⟨rs, ns', [], []⟩)).map (nodeData ns')) :
    Stage t ⟨rs, ns', [], []⟩ := by
  have hd : s.dmds = [] := List.map_eq_nil_iff.1 h.holds.dmds
  have hl : s.lsps = [] := List.map_eq_nil_iff.1 h.holds.lsps
  rw [hd] at hdmds
  rw [hl] at hlsps
  refine ⟨⟨?_, hmap, by rw [hdmds]; rfl, by rw [hlsps]; rfl, ⟨fun j hj => (hnodes j hj).2, ?_, ?_, ?_, ?_,
    ?_⟩⟩, fun j hj => (hnodes j hj).1, ?_, ?_, ?_⟩
  · rw [hifs]
    rw [show keepFirst _ (FileData.ifs ⟨rs, ns', [], []⟩) = _ from h.holds.ifs.symm]
    refine List.map_congr_left fun i hi => ?_
    unfold ifcData
    rw [hifc, hname _ (h.nodeRef _ (h.ifcRef i hi).2.1), hname _ (h.ifcRef i hi).2.2.1]
  · rw [hifs, hifc]; exact h.holds.unused.ifs
  · rw [hdmds]; simp
  · rw [hlsps]; simp
  · rw [hsrlgs]; exact h.holds.unused.srlgs
  · rw [hckt]; exact h.holds.unused.circuits
  · intro i hi
    rw [hifs] at hi
    obtain ⟨a, b, c, e⟩ := h.ifcRef i hi
    rw [hifc, hname _ (h.nodeRef _ b), hname _ c]
    exact ⟨lt_of_lt_of_le a hnext, hsub _ b, lt_of_lt_of_le c hnext, e.imp (hsub _) id⟩
  · rw [hdmds]; simp
  · rw [hlsps]; simp

theorem loadNodeLine_wp (rd : Reader) (line : String) {s : State} {rs : List IfcRec}
    {ns : List NodeRec} (h : Stage s ⟨rs, ns, [], []⟩) :
    wp (loadNodeLine rd line)
      (fun _ t => t.kind = s.kind ∧ ∃ r, NodeLine rd line r ∧ Stage t ⟨rs, ns ++ [r], [], []⟩)
      (fun _ _ => ¬ ∃ r, NodeLine rd line r) s := by
  unfold loadNodeLine
  simp only []
  rw [wp_bind, wp_liftE]
  cases hs : shortcutsOf (splitTab line)[3]? with
  | error e =>
    rintro ⟨r, hr⟩
    have := (nodeLine_iff.1 hr).2.2.2
    rw [hs] at this; cases this
  | ok sc =>
    simp only []
    set name := (splitTab line).headD "" with hname
    set lat := intOrZero rd (splitTab line)[2]?
    set lon := intOrZero rd (splitTab line)[1]?
    set r : NodeRec := ⟨name, lat, lon, sc⟩ with hr
    have hline : NodeLine rd line r := nodeLine_iff.2 ⟨rfl, rfl, rfl, hs⟩
    have hnames : FileData.names ⟨rs, ns ++ [r], [], []⟩ = FileData.names ⟨rs, ns, [], []⟩ ++ [name] := by
      unfold FileData.names
      simp [hr]
    obtain ⟨hN, hD⟩ := nodes_holds_iff.1 h.holds.nodes
    have hnodup : s.nodeNames.Nodup := by
      rw [hN]; have := keepFirst_nodup (id : String → String) (FileData.names ⟨rs, ns, [], []⟩)
      rwa [List.map_id] at this
    rw [wp_bind, wp_get]
    cases hfind : s.nodes.find? fun n => decide ((s.node n).name = name) with
    | some n =>
      have hn := List.mem_of_find?_eq_some hfind
      have hnm : (s.node n).name = name := by simpa using List.find?_some hfind
      simp only []
      rw [wp_set]
      refine ⟨rfl, r, hline, ?_⟩
      set t := s.updNode n fun x => { x with lat := lat, lon := lon, shortcuts := sc } with ht
      have hnode : ∀ j, t.node j = if j = n then
          { s.node j with lat := lat, lon := lon, shortcuts := sc } else s.node j := fun j => rfl
      have hnm' : ∀ j, (t.node j).name = (s.node j).name := by
        intro j; rw [hnode]; split
        · rfl
        · rfl
      refine stage_nodes h (fun j _ => hnm' j) rfl rfl rfl rfl rfl rfl (le_refl _) (fun j hj => hj)
        (fun j hj => ⟨h.nodeRef j hj, ?_⟩) (nodes_holds_iff.2 ⟨?_, ?_⟩)
      · have := h.holds.unused.nodes j hj
        rw [hnode]; split
        · exact this
        · exact this
      · rw [hnames, keepFirst_snoc, if_pos, ← hN]
        · unfold State.nodeNames
          show s.nodes.map _ = _
          exact List.map_congr_left fun j _ => hnm' j
        · refine ⟨name, ?_, rfl⟩
          rw [← h.holds.mem_nodeNames, ← hnm]
          exact List.mem_map_of_mem hn
      · intro j hj
        rw [nodeData_snoc, hnm']
        by_cases e : j = n
        · subst e
          rw [if_pos hnm.symm]
          unfold nodeDataOf
          rw [hnode, if_pos rfl]
          simp only []
          rw [hnm]
        · rw [if_neg, ← hD j hj]
          · unfold nodeDataOf
            rw [hnode, if_neg e]
          · intro e2
            exact e (List.inj_on_of_nodup_map hnodup hj hn (e2.symm.trans hnm.symm))
    | none =>
      have hno : ∀ j ∈ s.nodes, (s.node j).name ≠ name := by
        intro j hj e
        have := List.find?_eq_none.1 hfind j hj
        simp [e] at this
      obtain ⟨t, ht, hg, hlt, hnode⟩ := newNode_grows s name lat lon
      simp only []
      rw [wp_bind, wp_ok ht, wp_modify]
      refine ⟨hg.kind, r, hline, ?_⟩
      have hx : ∀ j ∈ s.nodes, j ≠ s.next := fun j hj => Nat.ne_of_lt (h.nodeRef j hj)
      set u : State := { (t.updNode s.next fun x => { x with shortcuts := sc }) with
          nodes := t.nodes ++ [s.next] } with hu
      have hun : u.nodes = s.nodes ++ [s.next] := by rw [hu]; show t.nodes ++ _ = _; rw [hg.nodes]
      have hnew : u.node s.next = { name := name, lat := lat, lon := lon, shortcuts := sc } := by
        show (if s.next = s.next then _ else _) = _
        rw [if_pos rfl, hnode]
      have hold : ∀ j < s.next, u.node j = s.node j := by
        intro j hj
        show (if j = s.next then _ else t.node j) = _
        rw [if_neg (Nat.ne_of_lt hj), hg.node j hj]
      have hifc : t.ifc = s.ifc := by
        have : newNode name lat lon s = .ok s.next _ := rfl
        rw [ht] at this; cases this; rfl
      refine stage_nodes h (fun j hj => by rw [hold j hj]) hifc hg.ifs hg.dmds hg.lsps hg.srlgs
        hg.circuits hg.next (fun j hj => by rw [hun]; exact List.mem_append_left _ hj)
        (fun j hj => ?_) (nodes_holds_iff.2 ⟨?_, ?_⟩)
      · rw [hun] at hj
        rcases List.mem_append.1 hj with hj | hj
        · rw [hold j (h.nodeRef j hj)]
          exact ⟨lt_trans (h.nodeRef j hj) hlt, h.holds.unused.nodes j hj⟩
        · rw [List.mem_singleton.1 hj, hnew]
          exact ⟨hlt, rfl, rfl⟩
      · rw [hnames, keepFirst_snoc, if_neg, ← hN]
        · unfold State.nodeNames
          rw [hun, List.map_append]
          congr 1
          · exact List.map_congr_left fun j hj => by rw [hold j (h.nodeRef j hj)]
          · simp [hnew]
        · rintro ⟨y, hy, e⟩
          rw [← h.holds.mem_nodeNames] at hy
          obtain ⟨j, hj, e'⟩ := List.mem_map.1 hy
          exact hno j hj (e'.trans e)
      · intro j hj
        rw [nodeData_snoc]
        rw [hun] at hj
        rcases List.mem_append.1 hj with hj | hj
        · rw [hold j (h.nodeRef j hj), if_neg fun e => hno j hj e.symm, ← hD j hj]
          unfold nodeDataOf
          rw [hold j (h.nodeRef j hj)]
        · rw [List.mem_singleton.1 hj]
          unfold nodeDataOf
          rw [hnew, if_pos rfl]

/-! ### demand and LSP lines -/

theorem Spec.Holds.getNode {s : State} {d : FileData} (h : Holds s d) (x : String) :
    (x ∈ d.names ∧ ∃ n ∈ s.nodes, s.getNode x = .ok n ∧ (s.node n).name = x) ∨
    (x ∉ d.names ∧ ∃ m, s.getNode x = .error (.model m)) := by
  unfold State.getNode
  cases hf : s.nodes.find? fun n => decide ((s.node n).name = x) with
  | some n =>
    have hn := List.mem_of_find?_eq_some hf
    have hx : (s.node n).name = x := by simpa using List.find?_some hf
    refine .inl ⟨?_, n, hn, rfl, hx⟩
    rw [← h.mem_nodeNames, ← hx]
    exact List.mem_map_of_mem hn
  | none =>
    refine .inr ⟨?_, _, rfl⟩
    rw [← h.mem_nodeNames]
    intro hx
    obtain ⟨n, hn, e⟩ := List.mem_map.1 hx
    have := List.find?_eq_none.1 hf n hn
    simp [e] at this

/-- a demand line between known nodes -/
def DmdLineOk (rd : Reader) (names : List String) (line : String) (r : DmdRec) : Prop :=
  DmdLine rd line r ∧ r.source ∈ names ∧ r.dest ∈ names

/-- an LSP line between known nodes -/
def LspLineOk (rd : Reader) (names : List String) (line : String) (r : LspRec) : Prop :=
  LspLine rd line r ∧ r.source ∈ names ∧ r.dest ∈ names

theorem newDmd_grows (s : State) {src dst : ℕ} {q : ℚ} {name : String} (h : 0 ≤ q) :
    ∃ t, newDmd src dst q name s = .ok s.next t ∧ Grows s t ∧ s.next < t.next ∧
      t.dmd s.next = { src := src, dst := dst, traffic := q, name := name } ∧ t.node = s.node := by
  unfold newDmd
  rw [if_neg (not_lt.2 h)]
  refine ⟨_, rfl, ⟨Nat.le_succ _, fun _ _ => rfl, fun _ _ => rfl, fun j hj => ?_,
    fun _ _ => rfl, rfl, rfl, rfl, rfl, rfl, rfl, rfl⟩, Nat.lt_succ_self _, ?_, rfl⟩
  · show (if j = s.next then _ else s.dmd j) = _
    rw [if_neg (Nat.ne_of_lt hj)]
  · show (if s.next = s.next then _ else s.dmd s.next) = _
    rw [if_pos rfl]

theorem newLsp_grows (s : State) (src dst : ℕ) (name : String) (c : Option ℚ) (m : Option ℤ) :
    ∃ t, newLsp src dst name c m s = .ok s.next t ∧ Grows s t ∧ s.next < t.next ∧
      t.lsp s.next = { src := src, dst := dst, name := name, configured := c, initialMetric := m } ∧
      t.node = s.node := by
  refine ⟨_, rfl, ⟨Nat.le_succ _, fun _ _ => rfl, fun _ _ => rfl, fun _ _ => rfl, fun j hj => ?_,
    rfl, rfl, rfl, rfl, rfl, rfl, rfl⟩, Nat.lt_succ_self _, ?_, rfl⟩
  · show (if j = s.next then _ else s.lsp j) = _
    rw [if_neg (Nat.ne_of_lt hj)]
  · show (if s.next = s.next then _ else s.lsp s.next) = _
    rw [if_pos rfl]

theorem names_dmds (rs : List IfcRec) (ns : List NodeRec) (ds ds' : List DmdRec)
    (ls ls' : List LspRec) : FileData.names ⟨rs, ns, ds, ls⟩ = FileData.names ⟨rs, ns, ds', ls'⟩ := rfl

theorem stage_putDmd {t : State} {rs : List IfcRec} {ns : List NodeRec} {ds : List DmdRec}
    {r : DmdRec} {i : ℕ} (h : Stage t ⟨rs, ns, ds, []⟩) (hi : i < t.next) (hr : dmdData t i = r)
    (hsrc : (t.dmd i).src ∈ t.nodes) (hdst : (t.dmd i).dst ∈ t.nodes)
    (hfresh : (t.dmd i).path = none ∧ (t.dmd i).detail = none) :
    Stage (if t.dmds.any fun e => t.dmdKey e = t.dmdKey i then t
      else { t with dmds := t.dmds ++ [i] }) ⟨rs, ns, ds ++ [r], []⟩ := by
  have hkey : (t.dmds.any fun j => decide (t.dmdKey j = t.dmdKey i)) = true ↔
      ∃ y ∈ ds, (y.source, y.dest, y.name) = (r.source, r.dest, r.name) := by
    have h1 := mem_keepFirst_key (fun r : DmdRec => (r.source, r.dest, r.name)) (l := ds)
      (k := (r.source, r.dest, r.name))
    rw [← h1, ← h.holds.dmds, List.any_eq_true]
    subst hr
    constructor
    · rintro ⟨j, hj, e⟩
      exact ⟨_, List.mem_map_of_mem hj, of_decide_eq_true e⟩
    · rintro ⟨y, hy, e⟩
      obtain ⟨j, hj, rfl⟩ := List.mem_map.1 hy
      exact ⟨j, hj, decide_eq_true e⟩
  by_cases hc : (t.dmds.any fun j => decide (t.dmdKey j = t.dmdKey i)) = true
  · rw [if_pos hc]
    refine ⟨⟨h.holds.ifs, h.holds.nodes, ?_, h.holds.lsps, h.holds.unused⟩, h.nodeRef, h.ifcRef,
      h.dmdRef, h.lspRef⟩
    show _ = keepFirst _ (ds ++ [r])
    rw [keepFirst_snoc, if_pos (hkey.1 hc)]
    exact h.holds.dmds
  · rw [if_neg hc]
    have hm : ∀ j ∈ t.dmds ++ [i], j ∈ t.dmds ∨ j = i := fun j hj => by
      rcases List.mem_append.1 hj with hj | hj
      · exact .inl hj
      · exact .inr (List.mem_singleton.1 hj)
    refine ⟨⟨h.holds.ifs, h.holds.nodes, ?_, h.holds.lsps, ⟨h.holds.unused.nodes, h.holds.unused.ifs,
      fun j hj => ?_, h.holds.unused.lsps, h.holds.unused.srlgs, h.holds.unused.circuits⟩⟩,
      h.nodeRef, h.ifcRef, fun j hj => ?_, h.lspRef⟩
    · show (t.dmds ++ [i]).map (dmdData t) = keepFirst _ (ds ++ [r])
      rw [keepFirst_snoc, if_neg (mt hkey.2 hc), List.map_append]
      congr 1
      · exact h.holds.dmds
      · rw [← hr]; rfl
    · rcases hm j hj with hj | rfl
      · exact h.holds.unused.dmds j hj
      · exact hfresh
    · rcases hm j hj with hj | rfl
      · exact h.dmdRef j hj
      · exact ⟨hi, hsrc, hdst⟩

theorem stage_putLsp {t : State} {rs : List IfcRec} {ns : List NodeRec} {ds : List DmdRec}
    {ls : List LspRec} {r : LspRec} {i : ℕ} (h : Stage t ⟨rs, ns, ds, ls⟩) (hi : i < t.next)
    (hr : lspData t i = r) (hsrc : (t.lsp i).src ∈ t.nodes) (hdst : (t.lsp i).dst ∈ t.nodes)
    (hfresh : (t.lsp i).path = .initial ∧ (t.lsp i).reserved = .initial ∧
      (t.lsp i).setup = none ∧ (t.lsp i).manual = none) :
    Stage (if t.lsps.any fun e => t.lspKey e = t.lspKey i then t
      else { t with lsps := t.lsps ++ [i] }) ⟨rs, ns, ds, ls ++ [r]⟩ := by
  have hkey : (t.lsps.any fun j => decide (t.lspKey j = t.lspKey i)) = true ↔
      ∃ y ∈ ls, (y.source, y.dest, y.name) = (r.source, r.dest, r.name) := by
    have h1 := mem_keepFirst_key (fun r : LspRec => (r.source, r.dest, r.name)) (l := ls)
      (k := (r.source, r.dest, r.name))
    rw [← h1, ← h.holds.lsps, List.any_eq_true]
    subst hr
    constructor
    · rintro ⟨j, hj, e⟩
      exact ⟨_, List.mem_map_of_mem hj, of_decide_eq_true e⟩
    · rintro ⟨y, hy, e⟩
      obtain ⟨j, hj, rfl⟩ := List.mem_map.1 hy
      exact ⟨j, hj, decide_eq_true e⟩
  by_cases hc : (t.lsps.any fun j => decide (t.lspKey j = t.lspKey i)) = true
  · rw [if_pos hc]
    refine ⟨⟨h.holds.ifs, h.holds.nodes, h.holds.dmds, ?_, h.holds.unused⟩, h.nodeRef, h.ifcRef,
      h.dmdRef, h.lspRef⟩
    show _ = keepFirst _ (ls ++ [r])
    rw [keepFirst_snoc, if_pos (hkey.1 hc)]
    exact h.holds.lsps
  · rw [if_neg hc]
    have hm : ∀ j ∈ t.lsps ++ [i], j ∈ t.lsps ∨ j = i := fun j hj => by
      rcases List.mem_append.1 hj with hj | hj
      · exact .inl hj
      · exact .inr (List.mem_singleton.1 hj)
    refine ⟨⟨h.holds.ifs, h.holds.nodes, h.holds.dmds, ?_, ⟨h.holds.unused.nodes, h.holds.unused.ifs,
      h.holds.unused.dmds, fun j hj => ?_, h.holds.unused.srlgs, h.holds.unused.circuits⟩⟩,
      h.nodeRef, h.ifcRef, h.dmdRef, fun j hj => ?_⟩
    · show (t.lsps ++ [i]).map (lspData t) = keepFirst _ (ls ++ [r])
      rw [keepFirst_snoc, if_neg (mt hkey.2 hc), List.map_append]
      congr 1
      · exact h.holds.lsps
      · rw [← hr]; rfl
    · rcases hm j hj with hj | rfl
      · exact h.holds.unused.lsps j hj
      · exact hfresh
    · rcases hm j hj with hj | rfl
      · exact h.lspRef j hj
      · exact ⟨hi, hsrc, hdst⟩

theorem loadDmdLine_wp (rd : Reader) (line : String) {s : State} {rs : List IfcRec}
    {ns : List NodeRec} {ds : List DmdRec} (h : Stage s ⟨rs, ns, ds, []⟩) :
    wp (loadDmdLine rd line)
      (fun _ t => t.kind = s.kind ∧ ∃ r, DmdLineOk rd (FileData.names ⟨rs, ns, [], []⟩) line r ∧
        Stage t ⟨rs, ns, ds ++ [r], []⟩)
      (fun _ _ => ¬ ∃ r, DmdLineOk rd (FileData.names ⟨rs, ns, [], []⟩) line r) s := by
  have hfs : ∀ {r : DmdRec}, DmdLine rd line r → ∃ t name more n,
      splitTab line = r.source :: r.dest :: t :: name :: more ∧ rd.int t = some n ∧
      r.traffic = n ∧ 0 ≤ r.traffic ∧ r.name = if name = "" then "none" else name := by
    rintro r ⟨t, name, more, n, hf, h'⟩
    exact ⟨t, name, more, n, hasFields_iff.1 hf, h'⟩
  unfold loadDmdLine
  rw [wp_bind, wp_get]
  cases hs : splitTab line with
  | nil =>
    simp only []
    rw [wp_raise]
    rintro ⟨r, hr, -⟩
    obtain ⟨t, name, more, n, e, -⟩ := hfs hr
    rw [hs] at e; cases e
  | cons src fs =>
    simp only []
    rw [wp_bind, wp_liftE]
    rcases h.holds.getNode src with ⟨hsrc, a, ha, hga, hna⟩ | ⟨hsrc, m, hm⟩
    swap
    · rw [hm]
      rintro ⟨r, hr, h1, -⟩
      obtain ⟨t, name, more, n, e, -⟩ := hfs hr
      rw [hs] at e; cases e
      exact hsrc h1
    rw [hga]
    simp only []
    cases fs with
    | nil =>
      simp only []
      rw [wp_raise]
      rintro ⟨r, hr, -⟩
      obtain ⟨t, name, more, n, e, -⟩ := hfs hr
      rw [hs] at e; cases e
    | cons dst fs =>
      simp only []
      rw [wp_bind, wp_liftE]
      rcases h.holds.getNode dst with ⟨hdst, b, hb, hgb, hnb⟩ | ⟨hdst, m, hm⟩
      swap
      · rw [hm]
        rintro ⟨r, hr, -, h1⟩
        obtain ⟨t, name, more, n, e, -⟩ := hfs hr
        rw [hs] at e; cases e
        exact hdst h1
      rw [hgb]
      simp only []
      cases fs with
      | nil =>
        simp only []
        rw [wp_raise]
        rintro ⟨r, hr, -⟩
        obtain ⟨t, name, more, n, e, -⟩ := hfs hr
        rw [hs] at e; cases e
      | cons t fs =>
        simp only []
        cases ht : rd.int t with
        | none =>
          simp only []
          rw [wp_raise]
          rintro ⟨r, hr, -⟩
          obtain ⟨t, name, more, n, e, e2, -⟩ := hfs hr
          rw [hs] at e; cases e
          rw [ht] at e2; cases e2
        | some q =>
          simp only []
          cases fs with
          | nil =>
            simp only []
            rw [wp_raise]
            rintro ⟨r, hr, -⟩
            obtain ⟨t, name, more, n, e, -⟩ := hfs hr
            rw [hs] at e; cases e
          | cons nm fs =>
            simp only []
            rw [wp_bind]
            by_cases hq : (0:ℚ) ≤ q
            · obtain ⟨u, hu, g, hlt, hud, hun⟩ := newDmd_grows s (src := a) (dst := b)
                (name := if nm = "" then "none" else nm) hq
              rw [wp_ok hu, wp_modify]
              set r : DmdRec := ⟨src, dst, if nm = "" then "none" else nm, q⟩ with hr
              refine ⟨?_, r, ⟨⟨t, nm, fs, q, hasFields_iff.2 hs, ht, rfl, hq, rfl⟩, hsrc, hdst⟩, ?_⟩
              · split
                · exact g.kind
                · exact g.kind
              · refine stage_putDmd (h.grows g) hlt ?_ ?_ ?_ ?_
                · unfold dmdData
                  rw [hud, hun]
                  simp only []
                  rw [hna, hnb]
                · rw [hud, g.nodes]; exact ha
                · rw [hud, g.nodes]; exact hb
                · rw [hud]; exact ⟨rfl, rfl⟩
            · have : newDmd a b (q : ℚ) (if nm = "" then "none" else nm) s = .error .valueError s := by
                unfold newDmd
                rw [if_pos (not_le.1 hq)]
              rw [wp_error this]
              rintro ⟨r, hr, -⟩
              obtain ⟨t, name, more, n, e, e2, e3, e4, -⟩ := hfs hr
              rw [hs] at e; cases e
              rw [ht] at e2; cases e2
              rw [e3] at e4
              exact hq e4

theorem loadLspLine_wp (rd : Reader) (line : String) {s : State} {rs : List IfcRec}
    {ns : List NodeRec} {ds : List DmdRec} {ls : List LspRec} (h : Stage s ⟨rs, ns, ds, ls⟩) :
    wp (loadLspLine rd line)
      (fun _ t => t.kind = s.kind ∧ ∃ r, LspLineOk rd (FileData.names ⟨rs, ns, [], []⟩) line r ∧
        Stage t ⟨rs, ns, ds, ls ++ [r]⟩)
      (fun _ _ => ¬ ∃ r, LspLineOk rd (FileData.names ⟨rs, ns, [], []⟩) line r) s := by
  have hfs : ∀ {r : LspRec}, LspLine rd line r → ∃ fs,
      splitTab line = r.source :: r.dest :: r.name :: fs ∧
      r.setupBw = fs[0]?.bind rd.float ∧ r.metric = fs[1]?.bind rd.int := by
    rintro r ⟨fs, hf, h'⟩
    exact ⟨fs, hasFields_iff.1 hf, h'⟩
  unfold loadLspLine
  rw [wp_bind, wp_get]
  cases hs : splitTab line with
  | nil =>
    simp only []
    rw [wp_raise]
    rintro ⟨r, hr, -⟩
    obtain ⟨fs, e, -⟩ := hfs hr
    rw [hs] at e; cases e
  | cons src fs =>
    simp only []
    rw [wp_bind, wp_liftE]
    rcases h.holds.getNode src with ⟨hsrc, a, ha, hga, hna⟩ | ⟨hsrc, m, hm⟩
    swap
    · rw [hm]
      rintro ⟨r, hr, h1, -⟩
      obtain ⟨fs, e, -⟩ := hfs hr
      rw [hs] at e; cases e
      exact hsrc h1
    rw [hga]
    simp only []
    cases fs with
    | nil =>
      simp only []
      rw [wp_raise]
      rintro ⟨r, hr, -⟩
      obtain ⟨fs, e, -⟩ := hfs hr
      rw [hs] at e; cases e
    | cons dst fs =>
      simp only []
      rw [wp_bind, wp_liftE]
      rcases h.holds.getNode dst with ⟨hdst, b, hb, hgb, hnb⟩ | ⟨hdst, m, hm⟩
      swap
      · rw [hm]
        rintro ⟨r, hr, -, h1⟩
        obtain ⟨fs, e, -⟩ := hfs hr
        rw [hs] at e; cases e
        exact hdst h1
      rw [hgb]
      simp only []
      cases fs with
      | nil =>
        simp only []
        rw [wp_raise]
        rintro ⟨r, hr, -⟩
        obtain ⟨fs, e, -⟩ := hfs hr
        rw [hs] at e; cases e
      | cons nm fs =>
        simp only []
        rw [wp_bind]
        obtain ⟨u, hu, g, hlt, hud, hun⟩ := newLsp_grows s a b nm (fs.head?.bind rd.float)
          (fs[1]?.bind rd.int)
        rw [wp_ok hu, wp_modify]
        set r : LspRec := ⟨src, dst, nm, fs[0]?.bind rd.float, fs[1]?.bind rd.int⟩ with hr
        refine ⟨?_, r, ⟨⟨fs, hasFields_iff.2 hs, rfl, rfl⟩, hsrc, hdst⟩, ?_⟩
        · split
          · exact g.kind
          · exact g.kind
        · refine stage_putLsp (h.grows g) hlt ?_ ?_ ?_ ?_
          · unfold lspData
            rw [hud, hun]
            simp only []
            rw [hna, hnb, hr, List.head?_eq_getElem?]
          · rw [hud, g.nodes]; exact ha
          · rw [hud, g.nodes]; exact hb
          · rw [hud]; exact ⟨rfl, rfl, rfl, rfl⟩

end NTM
