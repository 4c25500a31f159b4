import Mathlib.Data.List.Induction
import Verif.Proof.FileText

/-!
# C64 to C68: `load_model_file`

The loader is run on the lines of a file, for the PerformanceModel and the FlexModel and for any
way of reading numbers.  `Reads rd k lines d` says that the lines are a well-formed file with the
records `d`; the definitions are in `Spec/File.lean` and do not mention the loader.
-/

namespace NTM

open Spec

namespace Ex

/-- four nodes, two circuits, a demand and two LSPs; the third interface line is a duplicate -/
def perfFile : List String :=
  ["INTERFACES_TABLE", "node_object_name\tremote_node_object_name\tname\tcost\tcapacity",
   "A\tB\tab\t10\t100", "B\tA\tba\t10\t100", "A\tB\tab\t77\t100", "B\tC\tbc\t20\t40\tFalse",
   "C\tB\tcb\t20\t40\tTrue\t50", "",
   "NODES_TABLE", "name\tlon\tlat", "A\t5\t-7", "D", "A\t6\tx\tTrue", "",
   "DEMANDS_TABLE", "source\tdest\ttraffic\tname", "A\tC\t30\t", "A\tC\t40\tbig", "",
   "RSVP_LSP_TABLE", "source\tdest\tname", "A\tC\tl1", "A\tC\tl2\t2.5\t4"]

def flexFile : List String :=
  ["INTERFACES_TABLE", "node_object_name\tremote_node_object_name\tname\tcost\tcapacity\tcircuit_id",
   "A\tB\tab\t10\t100\tone", "B\tA\tba\t10\t100\tone", "A\tB\tab2\t10\t100\ttwo\tTrue",
   "B\tA\tba2\t10\t100\ttwo\tFalse\t50", "",
   "NODES_TABLE", "name\tlon\tlat", "A\t5\t-7", "D", "A\t6\tx\tTrue", "",
   "DEMANDS_TABLE", "source\tdest\ttraffic\tname", "A\tB\t30\t", "A\tB\t40\tbig", "",
   "RSVP_LSP_TABLE", "source\tdest\tname", "A\tB\tl1", "A\tB\tl2\t2.5\t4"]

def file : Kind → List String
  | .perf => perfFile
  | .flex => flexFile

end Ex

/-! ### C64 -/

/-- C64: the loader accepts exactly the well-formed files. -/
theorem C64_accepts (rd : Reader) (k : Kind) (lines : List String) :
    raised (loadModel rd lines) (emptyState k) = none ↔ ∃ d, Reads rd k lines d := by
  unfold raised
  cases h : loadModel rd lines (emptyState k) with
  | ok u t =>
    obtain ⟨-, d, hd, -⟩ := load_ok h
    simpa using ⟨d, hd⟩
  | error e t =>
    have : ¬ ∃ d, Reads rd k lines d := by
      rintro ⟨d, hd⟩
      obtain ⟨t', ht', -⟩ := load_reads hd
      rw [h] at ht'; cases ht'
    simpa using this

/-- a file can be read in one way only -/
theorem C64_one_reading {rd : Reader} {k : Kind} {lines : List String} {d d' : FileData}
    (h : Reads rd k lines d) (h' : Reads rd k lines d') : d = d' := reads_unique h h'

theorem uniqueKeys_of_holds {s : State} {d : FileData} (h : Holds s d) : UniqueKeys s where
  nodes := by
    rw [h.nodeNames]
    have := keepFirst_nodup (id : String → String) d.names
    rwa [List.map_id] at this
  ifs := by
    have := keepFirst_nodup (fun r : IfcRec => (r.name, r.node)) d.ifs
    rw [← h.ifs, List.map_map] at this
    exact this
  dmds := by
    have := keepFirst_nodup (fun r : DmdRec => (r.source, r.dest, r.name)) d.dmds
    rw [← h.dmds, List.map_map] at this
    exact this
  lsps := by
    have := keepFirst_nodup (fun r : LspRec => (r.source, r.dest, r.name)) d.lsps
    rw [← h.lsps, List.map_map] at this
    exact this
  srlgs := by rw [h.unused.srlgs]; simp

/-- C64, except for the remote node object of a self-loop line (for which the claim is false, see
`C64_self_loop_false`): the loaded model has unique keys, contains exactly what the lines say, the
first line with a key winning, and refers to its own node objects. -/
theorem C64_loaded_partial {rd : Reader} {k : Kind} {lines : List String} {t : State}
    (h : loadModel rd lines (emptyState k) = .ok () t) :
    UniqueKeys t ∧ t.kind = k ∧ (∃ d, Reads rd k lines d ∧ Holds t d) ∧
    (∀ i ∈ t.ifs, (t.ifc i).node ∈ t.nodes ∧
      ((t.ifc i).remote ∈ t.nodes ∨
        (t.node (t.ifc i).remote).name = (t.node (t.ifc i).node).name)) ∧
    (∀ d ∈ t.dmds, (t.dmd d).src ∈ t.nodes ∧ (t.dmd d).dst ∈ t.nodes) ∧
    (∀ l ∈ t.lsps, (t.lsp l).src ∈ t.nodes ∧ (t.lsp l).dst ∈ t.nodes) := by
  obtain ⟨hk, d, hd, hs⟩ := load_ok h
  refine ⟨uniqueKeys_of_holds hs.holds, hk, ⟨d, hd, hs.holds⟩, ?_, ?_, ?_⟩
  · intro i hi
    obtain ⟨-, a, -, b⟩ := hs.ifcRef i hi
    exact ⟨a, b⟩
  · intro d hd; exact (hs.dmdRef d hd).2
  · intro l hl; exact (hs.lspRef l hl).2

/-- C64 for files without self-loop lines: all references are to the model's own objects. -/
theorem C64_own_nodes {rd : Reader} {k : Kind} {lines : List String} {d : FileData}
    (hd : Reads rd k lines d) (hl : ∀ r ∈ d.ifs, r.node ≠ r.remote) :
    ∃ t, loadModel rd lines (emptyState k) = .ok () t ∧ Holds t d ∧ Grounded t := by
  obtain ⟨t, ht, -, hs⟩ := load_reads hd
  refine ⟨t, ht, hs.holds, hs.nodeRef, ?_, hs.dmdRef, hs.lspRef, ?_⟩
  · intro i hi
    obtain ⟨a, b, -, c⟩ := hs.ifcRef i hi
    refine ⟨a, b, c.resolve_right fun e => ?_⟩
    have : ifcData t i ∈ d.ifs := by
      apply mem_of_keepFirst (fun r : IfcRec => (r.name, r.node))
      rw [← hs.holds.ifs]
      exact List.mem_map_of_mem hi
    exact hl _ this e.symm
  · rw [hs.holds.unused.srlgs]; simp

/-- C64, the false part: a line from a new node to itself puts an interface into the model whose
remote node object is a copy that is not in the model. -/
theorem C64_self_loop_false (k : Kind) :
    let lines := match k with
      | .perf => ["INTERFACES_TABLE", "", "A\tA\taa\t10\t100", "", "NODES_TABLE", "", "",
          "DEMANDS_TABLE"]
      | .flex => ["INTERFACES_TABLE", "", "A\tA\taa\t10\t100\t1", "A\tA\tab\t10\t100\t1", "",
          "NODES_TABLE", "", "", "DEMANDS_TABLE"]
    let t := finalState (loadModel .plain lines) (emptyState k)
    raised (loadModel .plain lines) (emptyState k) = none ∧
      ∃ i ∈ t.ifs, (t.ifc i).remote ∉ t.nodes := by
  cases k <;> decide +kernel

/-- the example files are accepted; what the models contain -/
example (k : Kind) : raised (loadModel .plain (Ex.file k)) (emptyState k) = none := by
  cases k <;> decide +kernel

example : let t := finalState (loadModel .plain (Ex.file .perf)) (emptyState .perf)
    t.ifs.map (ifcData t) = [⟨"A", "B", "ab", 10, 100, .none, true, 100⟩,
      ⟨"B", "A", "ba", 10, 100, .none, true, 100⟩, ⟨"B", "C", "bc", 20, 40, .none, false, 100⟩,
      ⟨"C", "B", "cb", 20, 40, .none, true, 50⟩] ∧
    t.nodes.map (nodeDataOf t) = [⟨"A", 0, 6, true⟩, ⟨"B", 0, 0, false⟩, ⟨"C", 0, 0, false⟩,
      ⟨"D", 0, 0, false⟩] ∧
    t.dmds.map (dmdData t) = [⟨"A", "C", "none", 30⟩, ⟨"A", "C", "big", 40⟩] ∧
    t.lsps.map (lspData t) = [⟨"A", "C", "l1", none, none⟩, ⟨"A", "C", "l2", some (5 / 2), some 4⟩] := by
  decide +kernel

/-! ### C65 -/

theorem raised_of_wp {α : Type} {x : Py α} {P : Exn → Prop} {s : State}
    (h : wp x (fun _ _ => False) (fun e _ => P e) s) : ∃ e, raised x s = some e ∧ P e := by
  unfold raised
  cases hx : x s with
  | ok a t => exact (of_wp_ok h hx).elim
  | error e t => exact ⟨e, rfl, of_wp_error h hx⟩

theorem columns_eq {rows : List String} {cols : List (Option String)}
    (hc : List.Forall₂ (fun row c => ∃ fs, HasFields row fs ∧ c = fs[5]?) rows cols) :
    cols = rows.map fun l => (splitTab l)[5]? := by
  induction hc with
  | nil => rfl
  | cons h _ ih =>
    obtain ⟨fs, hf, rfl⟩ := h
    rw [List.map_cons, hasFields_iff.1 hf, ih]

theorem columns_count (rows : List String) (x : String) :
    (rows.map fun l => (splitTab l)[5]?).count (some x) =
      (rows.filterMap fun l => (splitTab l)[5]?).count x := by
  induction rows with
  | nil => rfl
  | cons r rows ih =>
    rw [List.map_cons, List.filterMap_cons, List.count_cons, ih]
    cases (splitTab r)[5]? with
    | none => simp
    | some y => simp [List.count_cons]

/-- C65: if a value of the sixth column of the interface table does not occur on exactly two
lines, the FlexModel loader raises `ModelException`, whatever the rest of the file. -/
theorem C65_circuit_ids (rd : Reader) {lines rows : List String} {cols : List (Option String)}
    (ht : Table "INTERFACES_TABLE" lines rows)
    (hc : List.Forall₂ (fun row c => ∃ fs, HasFields row fs ∧ c = fs[5]?) rows cols)
    {id : String} (h1 : some id ∈ cols) (h2 : cols.count (some id) ≠ 2) :
    ∃ m, raised (loadModel rd lines) (emptyState .flex) = some (.model m) := by
  obtain ⟨a, ha, rfl⟩ := table_iff.1 ht
  have hbad : ¬ cktIdsOk (pySlice lines (a + 2) (findEndIndex (a + 2) lines)) = true := by
    rw [columns_eq hc] at h1 h2
    rw [columns_count] at h2
    intro h
    unfold cktIdsOk at h
    simp only [List.all_eq_true, decide_eq_true_eq] at h
    refine h2 (h id ?_)
    rw [← List.count_pos_iff, ← columns_count]
    exact List.count_pos_iff.2 h1
  have : wp (loadModel rd lines) (fun _ _ => False) (fun e _ => ∃ m, e = .model m)
      (emptyState .flex) := by
    unfold loadModel
    rw [wp_bind, wp_get]
    simp only [ha]
    rw [if_pos ⟨rfl, hbad⟩, wp_raise]
    exact ⟨_, rfl⟩
  obtain ⟨e, he, m, rfl⟩ := raised_of_wp this
  exact ⟨m, he⟩

/-- C65, the converse: in an accepted file every interface line has a circuit_id and every
circuit_id is on exactly two lines. -/
theorem C65_accepted {rd : Reader} {lines : List String} {t : State}
    (h : loadModel rd lines (emptyState .flex) = .ok () t) :
    ∃ d, Reads rd .flex lines d ∧ ∀ r ∈ d.ifs, (∃ id, r.circuitId = .str id) ∧
      (d.ifs.map IfcRec.circuitId).count r.circuitId = 2 := by
  obtain ⟨-, d, hd, -⟩ := load_ok h
  refine ⟨d, hd, fun r hr => ⟨?_, hd.ids rfl r hr⟩⟩
  obtain ⟨rows, -, hf⟩ := hd.ifs
  exact forall2_right (Q := fun r : IfcRec => ∃ id, r.circuitId = .str id) hf
    (fun _ _ ⟨_, _, _, _, _, _, _, _, _, _, _, hc, _⟩ => by
      obtain ⟨id, -, e⟩ := hc
      exact ⟨id, e⟩) r hr

/-- a file in which the circuit_id `two` occurs three times -/
example : let rows := ["A\tB\tab\t1\t1\ttwo", "B\tA\tab\t1\t1\ttwo", "B", "A\tC\tac\t1\t1\ttwo"]
    raised (loadModel .plain (["INTERFACES_TABLE", "header"] ++ rows)) (emptyState .flex) =
      some (.model "Each circuit_id value must appear exactly twice") ∧
    List.Forall₂ (fun row c => ∃ fs, HasFields row fs ∧ c = fs[5]?) rows
      [some "two", some "two", none, some "two"] := by
  refine ⟨by decide +kernel, ?_⟩
  refine .cons ?_ (.cons ?_ (.cons ?_ (.cons ?_ .nil))) <;>
    exact ⟨_, hasFields_iff.2 rfl, by decide +kernel⟩

/-! ### C66 -/

/-- the name `x` is the first or second field of an interface line or the first field of a node
line -/
def Spec.Introduced (lines : List String) (x : String) : Prop :=
  (∃ rows row fs, Table "INTERFACES_TABLE" lines rows ∧ row ∈ rows ∧ HasFields row fs ∧
    (fs[0]? = some x ∨ fs[1]? = some x)) ∨
  (∃ rows row fs, Table "NODES_TABLE" lines rows ∧ row ∈ rows ∧ HasFields row fs ∧
    fs[0]? = some x)

theorem forall2_left {α β : Type} {R : α → β → Prop} {l : List α} {m : List β}
    (h : List.Forall₂ R l m) {b : β} (hb : b ∈ m) : ∃ a ∈ l, R a b := by
  induction h with
  | nil => cases hb
  | cons h1 _ ih =>
    rcases List.mem_cons.1 hb with rfl | hb
    · exact ⟨_, List.mem_cons_self .., h1⟩
    · obtain ⟨a, ha, hr⟩ := ih hb
      exact ⟨a, List.mem_cons_of_mem _ ha, hr⟩

theorem forall2_right' {α β : Type} {R : α → β → Prop} {l : List α} {m : List β}
    (h : List.Forall₂ R l m) {a : α} (ha : a ∈ l) : ∃ b ∈ m, R a b := by
  induction h with
  | nil => cases ha
  | cons h1 _ ih =>
    rcases List.mem_cons.1 ha with rfl | ha
    · exact ⟨_, List.mem_cons_self .., h1⟩
    · obtain ⟨a, ha, hr⟩ := ih ha
      exact ⟨a, List.mem_cons_of_mem _ ha, hr⟩

theorem introduced_of_names {rd : Reader} {k : Kind} {lines : List String} {d : FileData}
    (hd : Reads rd k lines d) {x : String} (hx : x ∈ d.names) : Introduced lines x := by
  rcases List.mem_append.1 hx with hx | hx
  · obtain ⟨r, hr, hx⟩ := List.mem_flatMap.1 hx
    obtain ⟨rows, ht, hf⟩ := hd.ifs
    obtain ⟨row, hrow, hl⟩ := forall2_left hf hr
    obtain ⟨_, _, _, _, _, hfs, -⟩ := hl
    refine .inl ⟨rows, row, _, ht, hrow, hfs, ?_⟩
    simp only [List.mem_cons, List.not_mem_nil, or_false] at hx
    rcases hx with rfl | rfl
    · exact .inl rfl
    · exact .inr rfl
  · obtain ⟨r, hr, rfl⟩ := List.mem_map.1 hx
    obtain ⟨rows, ht, hf⟩ := hd.nodes
    obtain ⟨row, hrow, hl⟩ := forall2_left hf hr
    obtain ⟨fs, hfs, -⟩ := hl
    exact .inr ⟨rows, row, _, ht, hrow, hfs, rfl⟩

/-- C66: a file with a demand line that names a node which no interface or node line introduced
is not accepted. -/
theorem C66_unknown_demand_node (rd : Reader) (k : Kind) {lines rows : List String} {row : String}
    {x y : String} {more : List String} (ht : Table "DEMANDS_TABLE" lines rows) (hr : row ∈ rows)
    (hf : HasFields row (x :: y :: more)) (hx : ¬ Introduced lines x ∨ ¬ Introduced lines y) :
    raised (loadModel rd lines) (emptyState k) ≠ none := by
  rw [ne_eq, C64_accepts]
  rintro ⟨d, hd⟩
  obtain ⟨rows', ht', hds⟩ := hd.dmds
  rw [table_unique ht' ht] at hds
  obtain ⟨r, hrd, t, nm, mr, n, hfs, -⟩ := forall2_right' hds hr
  have := hasFields_unique hf hfs
  obtain ⟨h1, h2⟩ := hd.dmdEnds r hrd
  cases this
  exact hx.elim (fun h => h (introduced_of_names hd h1)) (fun h => h (introduced_of_names hd h2))

/-- C66 for LSP lines -/
theorem C66_unknown_lsp_node (rd : Reader) (k : Kind) {lines rows : List String} {row : String}
    {x y : String} {more : List String} (ht : LspTable lines rows) (hr : row ∈ rows)
    (hf : HasFields row (x :: y :: more)) (hx : ¬ Introduced lines x ∨ ¬ Introduced lines y) :
    raised (loadModel rd lines) (emptyState k) ≠ none := by
  rw [ne_eq, C64_accepts]
  rintro ⟨d, hd⟩
  obtain ⟨rows', ht', hds⟩ := hd.lsps
  rw [lspTable_iff.1 ht', ← lspTable_iff.1 ht] at hds
  obtain ⟨r, hrd, fs, hfs, -⟩ := forall2_right' hds hr
  have := hasFields_unique hf hfs
  obtain ⟨h1, h2⟩ := hd.lspEnds r hrd
  cases this
  exact hx.elim (fun h => h (introduced_of_names hd h1)) (fun h => h (introduced_of_names hd h2))

theorem getNode_unknown {s : State} {x : String} (h : x ∉ s.nodeNames) :
    ∃ m, s.getNode x = .error (.model m) := by
  unfold State.getNode
  have : s.nodes.find? (fun n => decide ((s.node n).name = x)) = none := by
    rw [List.find?_eq_none]
    intro n hn he
    exact h (List.mem_map.2 ⟨n, hn, by simpa using he⟩)
  rw [this]
  exact ⟨_, rfl⟩

theorem dmdLine_unknown (rd : Reader) {line x y : String} {more : List String} {s : State}
    (hf : HasFields line (x :: y :: more)) (hx : x ∉ s.nodeNames ∨ y ∉ s.nodeNames) :
    wp (loadDmdLine rd line) (fun _ _ => False) (fun e _ => ∃ m, e = .model m) s := by
  unfold loadDmdLine
  rw [wp_bind, wp_get, hasFields_iff.1 hf]
  simp only []
  rw [wp_bind, wp_liftE]
  cases h1 : s.getNode x with
  | error e =>
    by_cases hm : x ∈ s.nodeNames
    · obtain ⟨n, hn, e1⟩ := List.mem_map.1 hm
      unfold State.getNode at h1
      cases hfind : s.nodes.find? fun n => decide ((s.node n).name = x) with
      | none => rw [hfind] at h1; cases h1; exact ⟨_, rfl⟩
      | some z => rw [hfind] at h1; cases h1
    · obtain ⟨m, hm⟩ := getNode_unknown hm
      rw [h1] at hm; cases hm; exact ⟨_, rfl⟩
  | ok a =>
    have hxm : x ∈ s.nodeNames := by
      by_contra hm
      obtain ⟨m, hm⟩ := getNode_unknown hm
      rw [h1] at hm; cases hm
    obtain ⟨m, hm⟩ := getNode_unknown (hx.resolve_left (not_not.2 hxm))
    simp only []
    rw [wp_bind, wp_liftE, hm]
    exact ⟨_, rfl⟩

theorem lspLine_unknown (rd : Reader) {line x y : String} {more : List String} {s : State}
    (hf : HasFields line (x :: y :: more)) (hx : x ∉ s.nodeNames ∨ y ∉ s.nodeNames) :
    wp (loadLspLine rd line) (fun _ _ => False) (fun e _ => ∃ m, e = .model m) s := by
  unfold loadLspLine
  rw [wp_bind, wp_get, hasFields_iff.1 hf]
  simp only []
  rw [wp_bind, wp_liftE]
  by_cases hm : x ∈ s.nodeNames
  · cases h1 : s.getNode x with
    | error e =>
      unfold State.getNode at h1
      cases hfind : s.nodes.find? fun n => decide ((s.node n).name = x) with
      | none => rw [hfind] at h1; cases h1; exact ⟨_, rfl⟩
      | some z => rw [hfind] at h1; cases h1
    | ok a =>
      obtain ⟨m, hm⟩ := getNode_unknown (hx.resolve_left (not_not.2 hm))
      simp only []
      rw [wp_bind, wp_liftE, hm]
      exact ⟨_, rfl⟩
  · obtain ⟨m, hm⟩ := getNode_unknown hm
    rw [hm]
    exact ⟨_, rfl⟩

theorem forEach_good_bad {ρ : Type} {f : String → Py Unit} {P : String → ρ → Prop}
    {I : List ρ → State → Prop} {E : Exn → State → Prop}
    (hstep : ∀ line done s, I done s →
      wp (f line) (fun _ t => ∃ r, P line r ∧ I (done ++ [r]) t) (fun _ _ => ¬ ∃ r, P line r) s)
    {good rest : List String} {bad : String} {rs : List ρ} (hg : List.Forall₂ P good rs)
    (hbad : ∀ done s, I done s → wp (f bad) (fun _ _ => False) E s) (done : List ρ) {s : State}
    (h : I done s) : wp (forEach (good ++ bad :: rest) f) (fun _ _ => False) E s := by
  induction hg generalizing done s with
  | nil =>
    rw [List.nil_append, wp_forEach_cons]
    exact wp_mono (hbad done s h) (fun _ _ h => h.elim) fun _ _ h => h
  | cons h1 _ ih =>
    rw [List.cons_append, wp_forEach_cons]
    refine wp_mono (hstep _ done s h) ?_ ?_
    · rintro _ t ⟨r, -, ht⟩
      exact ih _ ht
    · intro _ _ hno
      exact absurd ⟨_, h1⟩ hno

theorem forEach_good {ρ : Type} {f : String → Py Unit} {P : String → ρ → Prop}
    {I : List ρ → State → Prop}
    (hstep : ∀ line done s, I done s →
      wp (f line) (fun _ t => ∃ r, P line r ∧ I (done ++ [r]) t) (fun _ _ => ¬ ∃ r, P line r) s)
    (hP : ∀ l r r', P l r → P l r' → r = r')
    {rows : List String} {rs : List ρ} (hg : List.Forall₂ P rows rs) {s : State}
    (h : I [] s) {E : Exn → State → Prop} : wp (forEach rows f) (fun _ t => I rs t) E s := by
  refine wp_mono (forEach_reads hstep rows [] h) ?_ ?_
  · rintro _ t ⟨rs', hrs, hi⟩
    rwa [forall2_unique hP hg hrs]
  · intro _ _ hno
    exact absurd ⟨rs, hg⟩ hno

/-- the part of a file that precedes the demands is well formed -/
structure Spec.ReadsNodes (rd : Reader) (k : Kind) (lines : List String) (is : List IfcRec)
    (ns : List NodeRec) : Prop where
  ifs : ∃ rows, Table "INTERFACES_TABLE" lines rows ∧ List.Forall₂ (IfcLine rd k) rows is
  nodes : ∃ rows, Table "NODES_TABLE" lines rows ∧ List.Forall₂ (NodeLine rd) rows ns
  ids : k = .flex → ∀ r ∈ is, (is.map IfcRec.circuitId).count r.circuitId = 2

theorem dmdStep (rd : Reader) (k : Kind) (is : List IfcRec) (ns : List NodeRec) :
    ∀ line done s, (s.kind = k ∧ Stage s ⟨is, ns, done, []⟩) →
      wp (loadDmdLine rd line) (fun _ t => ∃ r, DmdLineOk rd (FileData.names ⟨is, ns, [], []⟩) line r ∧
        (t.kind = k ∧ Stage t ⟨is, ns, done ++ [r], []⟩))
        (fun _ _ => ¬ ∃ r, DmdLineOk rd (FileData.names ⟨is, ns, [], []⟩) line r) s := by
  rintro line done s ⟨h1, h2⟩
  refine wp_mono (loadDmdLine_wp rd line h2) ?_ fun _ _ h => h
  rintro _ t ⟨e, r, hr, ht⟩
  exact ⟨r, hr, e.trans h1, ht⟩

theorem lspStep (rd : Reader) (k : Kind) (is : List IfcRec) (ns : List NodeRec)
    (ds : List DmdRec) :
    ∀ line done s, (s.kind = k ∧ Stage s ⟨is, ns, ds, done⟩) →
      wp (loadLspLine rd line) (fun _ t => ∃ r, LspLineOk rd (FileData.names ⟨is, ns, [], []⟩) line r ∧
        (t.kind = k ∧ Stage t ⟨is, ns, ds, done ++ [r]⟩))
        (fun _ _ => ¬ ∃ r, LspLineOk rd (FileData.names ⟨is, ns, [], []⟩) line r) s := by
  rintro line done s ⟨h1, h2⟩
  refine wp_mono (loadLspLine_wp rd line h2) ?_ fun _ _ h => h
  rintro _ t ⟨e, r, hr, ht⟩
  exact ⟨r, hr, e.trans h1, ht⟩

/-- the loader reaches the demand table if everything before it is well formed -/
theorem load_to_demands {rd : Reader} {k : Kind} {lines : List String} {is : List IfcRec}
    {ns : List NodeRec} (h : ReadsNodes rd k lines is ns) {c : ℕ}
    (hc : indexFrom lines "DEMANDS_TABLE" 0 = some c) {Q : Unit → State → Prop}
    {E : Exn → State → Prop}
    (hd : ∀ s, s.kind = k → Stage s ⟨is, ns, [], []⟩ →
      wp (forEach (pySlice lines (c + 2) (findEndIndex (c + 2) lines)) (loadDmdLine rd))
        (fun _ t => wp (match indexFrom lines "RSVP_LSP_TABLE" 0 with
          | none => pure ()
          | some e => forEach (lines.drop (e + 2)) (loadLspLine rd)) Q E t) E s) :
    wp (loadModel rd lines) Q E (emptyState k) := by
  obtain ⟨rows, ht, hf⟩ := h.ifs
  obtain ⟨a, ha, rfl⟩ := table_iff.1 ht
  obtain ⟨nrows, hnt, hnf⟩ := h.nodes
  obtain ⟨b, hb, rfl⟩ := table_iff.1 hnt
  unfold loadModel
  rw [wp_bind, wp_get]
  simp only [ha]
  rw [if_neg]
  swap
  · rintro ⟨hk, hno⟩
    have hk' : k = .flex := hk
    subst hk'
    exact hno ((flex_ids_ok hf).2 (h.ids rfl))
  rw [wp_bind]
  refine wp_mono (forEach_good (P := IfcLine rd k)
    (I := fun rs t => t.kind = k ∧ Stage t ⟨rs, [], [], []⟩) ?_ ifcLine_unique hf
    ⟨rfl, stage_empty k⟩) ?_ fun _ _ h => h
  · rintro line done s ⟨h1, h2⟩
    refine wp_mono (loadIfcLine_wp rd line h2) ?_ ?_
    · rintro _ t ⟨e, r, hr, ht⟩
      rw [h1] at e hr
      exact ⟨r, hr, e, ht⟩
    · intro _ _ h; rwa [h1] at h
  rintro _ t1 ⟨hk1, hs1⟩
  simp only [hb]
  rw [wp_bind]
  refine wp_mono (forEach_good (P := NodeLine rd)
    (I := fun rs t => t.kind = k ∧ Stage t ⟨is, rs, [], []⟩) ?_ nodeLine_unique hnf
    ⟨hk1, hs1⟩) ?_ fun _ _ h => h
  · rintro line done s ⟨h1, h2⟩
    refine wp_mono (loadNodeLine_wp rd line h2) ?_ fun _ _ h => h
    rintro _ t ⟨e, r, hr, ht⟩
    exact ⟨r, hr, e.trans h1, ht⟩
  rintro _ t2 ⟨hk2, hs2⟩
  simp only [hc]
  rw [wp_bind]
  exact hd t2 hk2 hs2

/-- C66: if the interface and node lines and the demand lines before it are well formed, the
first demand line with an unknown node makes the loader raise `ModelException`. -/
theorem C66_demand_raises {rd : Reader} {k : Kind} {lines : List String} {is : List IfcRec}
    {ns : List NodeRec} (h : ReadsNodes rd k lines is ns) {good rest : List String} {bad : String}
    {ds : List DmdRec} (ht : Table "DEMANDS_TABLE" lines (good ++ bad :: rest))
    (hgood : List.Forall₂ (DmdLine rd) good ds)
    (hends : ∀ r ∈ ds, r.source ∈ FileData.names ⟨is, ns, [], []⟩ ∧
      r.dest ∈ FileData.names ⟨is, ns, [], []⟩)
    {x y : String} {more : List String} (hf : HasFields bad (x :: y :: more))
    (hx : x ∉ FileData.names ⟨is, ns, [], []⟩ ∨ y ∉ FileData.names ⟨is, ns, [], []⟩) :
    ∃ m, raised (loadModel rd lines) (emptyState k) = some (.model m) := by
  obtain ⟨c, hc, hrows⟩ := table_iff.1 ht
  have : wp (loadModel rd lines) (fun _ _ => False) (fun e _ => ∃ m, e = .model m)
      (emptyState k) := by
    refine load_to_demands h hc ?_
    intro s hk hs
    rw [← hrows]
    refine wp_mono (forEach_good_bad (dmdStep rd k is ns) (forall2_and hgood hends)
      (E := fun e _ => ∃ m, e = Exn.model m) ?_ [] ⟨hk, hs⟩) (fun _ _ h => h.elim) fun _ _ h => h
    rintro done s' ⟨-, hs'⟩
    refine dmdLine_unknown rd hf ?_
    rwa [hs'.holds.mem_nodeNames, hs'.holds.mem_nodeNames]
  obtain ⟨e, he, m, rfl⟩ := raised_of_wp this
  exact ⟨m, he⟩

/-- C66 for the first LSP line with an unknown node -/
theorem C66_lsp_raises {rd : Reader} {k : Kind} {lines : List String} {is : List IfcRec}
    {ns : List NodeRec} (h : ReadsNodes rd k lines is ns) {drows : List String} {ds : List DmdRec}
    (hdt : Table "DEMANDS_TABLE" lines drows) (hdf : List.Forall₂ (DmdLine rd) drows ds)
    (hdends : ∀ r ∈ ds, r.source ∈ FileData.names ⟨is, ns, [], []⟩ ∧
      r.dest ∈ FileData.names ⟨is, ns, [], []⟩)
    {good rest : List String} {bad : String} {ls : List LspRec}
    (ht : LspTable lines (good ++ bad :: rest)) (hgood : List.Forall₂ (LspLine rd) good ls)
    (hends : ∀ r ∈ ls, r.source ∈ FileData.names ⟨is, ns, [], []⟩ ∧
      r.dest ∈ FileData.names ⟨is, ns, [], []⟩)
    {x y : String} {more : List String} (hf : HasFields bad (x :: y :: more))
    (hx : x ∉ FileData.names ⟨is, ns, [], []⟩ ∨ y ∉ FileData.names ⟨is, ns, [], []⟩) :
    ∃ m, raised (loadModel rd lines) (emptyState k) = some (.model m) := by
  obtain ⟨c, hc, rfl⟩ := table_iff.1 hdt
  have : wp (loadModel rd lines) (fun _ _ => False) (fun e _ => ∃ m, e = .model m)
      (emptyState k) := by
    refine load_to_demands h hc ?_
    intro s hk hs
    refine wp_mono (forEach_good (dmdStep rd k is ns)
      (fun l r r' h1 h2 => dmdLine_unique l r r' h1.1 h2.1) (forall2_and hdf hdends) ⟨hk, hs⟩) ?_
      fun _ _ h => h
    rintro _ t ⟨hk3, hs3⟩
    have hrows := lspTable_iff.1 ht
    cases hl : indexFrom lines "RSVP_LSP_TABLE" 0 with
    | none =>
      rw [hl] at hrows
      simp at hrows
    | some e =>
      rw [hl] at hrows
      simp only [] at hrows ⊢
      rw [← hrows]
      refine forEach_good_bad (lspStep rd k is ns ds) (forall2_and hgood hends) ?_ [] ⟨hk3, hs3⟩
      rintro done s' ⟨-, hs'⟩
      refine lspLine_unknown rd hf ?_
      rwa [hs'.holds.mem_nodeNames, hs'.holds.mem_nodeNames]
  obtain ⟨e, he, m, rfl⟩ := raised_of_wp this
  exact ⟨m, he⟩

/-- a file whose second demand line names the unknown node `d`, or whose second LSP line names
the unknown node `l` -/
def Ex.unknown (d l : String) : List String :=
  ["INTERFACES_TABLE", "", "A\tB\tab\t10\t100", "", "NODES_TABLE", "", "C", "", "DEMANDS_TABLE", "",
    "A\tC\t3\t", d, "", "RSVP_LSP_TABLE", "", "A\tB\tx", l]

example : (∃ m, raised (loadModel .plain (Ex.unknown "A\tZ\t1\t" "A\tC\tl")) (emptyState .perf) =
      some (.model m)) ∧
    ∃ m, raised (loadModel .plain (Ex.unknown "A\tC\t1\tq" "Z\tC\tl")) (emptyState .perf) =
      some (.model m) := by
  have hi : Table "INTERFACES_TABLE" (Ex.unknown "A\tZ\t1\t" "A\tC\tl") ["A\tB\tab\t10\t100"] :=
    ⟨_, ⟨[], rfl, by decide⟩, by decide⟩
  have hi' : Table "INTERFACES_TABLE" (Ex.unknown "A\tC\t1\tq" "Z\tC\tl") ["A\tB\tab\t10\t100"] :=
    ⟨_, ⟨[], rfl, by decide⟩, by decide⟩
  have hn : Table "NODES_TABLE" (Ex.unknown "A\tZ\t1\t" "A\tC\tl") ["C"] :=
    ⟨_, ⟨["INTERFACES_TABLE", "", "A\tB\tab\t10\t100", ""], rfl, by decide⟩, by decide⟩
  have hn' : Table "NODES_TABLE" (Ex.unknown "A\tC\t1\tq" "Z\tC\tl") ["C"] :=
    ⟨_, ⟨["INTERFACES_TABLE", "", "A\tB\tab\t10\t100", ""], rfl, by decide⟩, by decide⟩
  have hil : List.Forall₂ (IfcLine .plain .perf) ["A\tB\tab\t10\t100"]
      [⟨"A", "B", "ab", 10, 100, .none, true, 100⟩] :=
    .cons ⟨"10", "100", [], [], 100, hasFields_iff.2 rfl, by decide, by decide, by decide,
      by norm_num, by norm_num, ⟨rfl, rfl⟩, ⟨rfl, rfl⟩⟩ .nil
  have hnl : List.Forall₂ (NodeLine .plain) ["C"] [⟨"C", 0, 0, false⟩] :=
    .cons ⟨[], hasFields_iff.2 rfl, .inr ⟨by simp, rfl⟩, .inr ⟨by simp, rfl⟩, .inl ⟨rfl, rfl⟩⟩ .nil
  have hd : ∀ (t nm : String) (n : ℤ) (q : String), splitTab q = ["A", "C", t, nm] →
      Reader.plain.int t = some n → 0 ≤ n →
      DmdLine .plain q ⟨"A", "C", if nm = "" then "none" else nm, n⟩ := by
    intro t nm n q h1 h2 h3
    exact ⟨t, nm, [], n, hasFields_iff.2 h1, h2, rfl, Int.cast_nonneg h3, rfl⟩
  have hd1 := hd "3" "" 3 "A\tC\t3\t" rfl (by decide) (by decide)
  have hd2 := hd "1" "q" 1 "A\tC\t1\tq" rfl (by decide) (by decide)
  constructor
  · refine C66_demand_raises (bad := "A\tZ\t1\t") (rest := [])
      ⟨⟨_, hi, hil⟩, ⟨_, hn, hnl⟩, fun h => nomatch h⟩
      (good := ["A\tC\t3\t"]) (ds := [_]) ?_ (.cons hd1 .nil) (by simp [FileData.names])
      (x := "A") (y := "Z") (more := ["1", ""]) (hasFields_iff.2 rfl) (by simp [FileData.names])
    exact ⟨_, ⟨["INTERFACES_TABLE", "", "A\tB\tab\t10\t100", "", "NODES_TABLE", "", "C", ""], rfl,
      by decide⟩, by decide⟩
  · refine C66_lsp_raises (bad := "Z\tC\tl") (rest := [])
      ⟨⟨_, hi', hil⟩, ⟨_, hn', hnl⟩, fun h => nomatch h⟩
      (drows := ["A\tC\t3\t", "A\tC\t1\tq"]) (ds := [_, _]) ?_ (.cons hd1 (.cons hd2 .nil))
      (by simp [FileData.names]) (good := ["A\tB\tx"]) (ls := [⟨"A", "B", "x", none, none⟩]) ?_ ?_
      (by simp [FileData.names]) (x := "Z") (y := "C") (more := ["l"]) (hasFields_iff.2 rfl)
      (by simp [FileData.names])
    · exact ⟨_, ⟨["INTERFACES_TABLE", "", "A\tB\tab\t10\t100", "", "NODES_TABLE", "", "C", ""], rfl,
        by decide⟩, by decide⟩
    · exact .inl ⟨_, ⟨["INTERFACES_TABLE", "", "A\tB\tab\t10\t100", "", "NODES_TABLE", "", "C", "",
        "DEMANDS_TABLE", "", "A\tC\t3\t", "A\tC\t1\tq", ""], rfl, by decide⟩, rfl⟩
    · exact .cons ⟨[], hasFields_iff.2 rfl, rfl, rfl⟩ .nil

/-! ### C67 -/

/-- C67: writing a description as the documented tables and loading the text gives a model with
exactly the described interfaces, nodes, demands and LSPs. -/
theorem C67_round_trip {rd : Reader} {w : Writer} {k : Kind} {d : FileData}
    (h : WellFormed rd w k d) (he : NoEmptyNumber rd) :
    ∃ t, loadText rd (fileText w d) (emptyState k) = .ok () t ∧ t.kind = k ∧ Contains t d := by
  obtain ⟨t, ht, hk, hs⟩ := load_reads (fileLines_reads h he)
  refine ⟨t, ?_, hk, contains_of_holds h hs.holds⟩
  unfold loadText
  rw [splitLines_fileText (fileLines_noBreak h)]
  exact ht

/-- decimal integers -/
def Spec.decimal : Writer := ⟨fun n => n.repr, fun q => q.num.repr⟩

/-- the plain reader reads decimal integers back -/
theorem C67_decimal (n : ℤ) : IntBack .plain decimal n ∧ FloatBack .plain decimal n ∧
    NoEmptyNumber .plain := by
  refine ⟨⟨parseInt_repr n, repr_field n⟩, ⟨?_, ?_⟩, by unfold NoEmptyNumber; decide +kernel⟩
  · have : ((n : ℚ)).num = n := Rat.num_intCast n
    unfold decimal
    simp only [this]
    exact parseFloat_repr n
  · exact repr_field _

namespace Ex

/-- a description with two circuits, an isolated node, demands and LSPs -/
def described (k : Kind) : FileData where
  ifs := [⟨"A", "B", "ab", 10, 100, c k "one", true, 100⟩, ⟨"B", "A", "ba", 10, 100, c k "one", true, 100⟩,
    ⟨"B", "C x", "bc", 20, 40, c k "two", false, 50⟩, ⟨"C x", "B", "cb", 30, 40, c k "two", true, 50⟩]
  nodes := [⟨"D", -4, 12, false⟩, ⟨"A", 0, 0, true⟩, ⟨"B", 0, 0, false⟩, ⟨"C x", 7, 0, false⟩]
  dmds := [⟨"A", "C x", "d", 30⟩, ⟨"A", "C x", "e", 0⟩]
  lsps := [⟨"A", "B", "l", none, none⟩, ⟨"A", "B", "m", some 12, none⟩, ⟨"A", "B", "n", none, some 4⟩]
where
  c : Kind → String → CktId
    | .perf, _ => .none
    | .flex, x => .str x

theorem described_wellFormed (k : Kind) : WellFormed .plain decimal k (described k) := by
  have hf : ∀ x ∈ ["A", "B", "C x", "D", "ab", "ba", "bc", "cb", "d", "e", "l", "m", "n", "one",
      "two"], FieldText x := by
    unfold FieldText LineBreak
    decide +kernel
  have hi : ∀ n, IntBack .plain decimal n := fun n => (C67_decimal n).1
  have hq : ∀ n : ℤ, FloatBack .plain decimal n := fun n => (C67_decimal n).2.1
  have q100 := hq 100
  have q50 := hq 50
  have q12 := hq 12
  norm_num at q100 q50 q12
  cases k <;> constructor
  all_goals first
    | decide +kernel
    | simp [described, described.c, hi, q100, q50, q12, hf]

end Ex

example (k : Kind) : ∃ t, loadText .plain (fileText decimal (Ex.described k)) (emptyState k) =
    .ok () t ∧ t.kind = k ∧ Contains t (Ex.described k) :=
  C67_round_trip (Ex.described_wellFormed k) (C67_decimal 0).2.2

/-! ### C68 -/

/-- C68 is false: an interface line that is disregarded because its key was seen before still
creates its remote node. -/
theorem C68_duplicate_line_false :
    let lines (l : List String) := ["INTERFACES_TABLE", "", "A\tB\tab\t10\t100"] ++ l ++
      ["", "NODES_TABLE", "", "", "DEMANDS_TABLE"]
    let load (l : List String) := finalState (loadModel .plain (lines l)) (emptyState .perf)
    raised (loadModel .plain (lines [])) (emptyState .perf) = none ∧
    raised (loadModel .plain (lines ["A\tZ\tab\t10\t100"])) (emptyState .perf) = none ∧
    (load []).nodeNames = ["A", "B"] ∧ (load ["A\tZ\tab\t10\t100"]).nodeNames = ["A", "B", "Z"] ∧
    (load ["A\tZ\tab\t10\t100"]).ifs.length = 1 := by
  decide +kernel

theorem keepFirst_append_dup {α κ : Type} [DecidableEq κ] (key : α → κ) (a b : List α) {x : α}
    (h : ∃ y ∈ a, key y = key x) : keepFirst key (a ++ x :: b) = keepFirst key (a ++ b) := by
  induction b using List.reverseRecOn with
  | nil => rw [keepFirst_snoc, if_pos h, List.append_nil]
  | append_singleton b z ih =>
    rw [← List.cons_append, ← List.append_assoc, ← List.append_assoc, keepFirst_snoc,
      keepFirst_snoc, ih]
    refine if_congr ?_ rfl rfl
    constructor
    · rintro ⟨y, hy, e⟩
      rcases List.mem_append.1 hy with hy | hy
      · exact ⟨y, List.mem_append_left _ hy, e⟩
      · rcases List.mem_cons.1 hy with rfl | hy
        · obtain ⟨y', hy', e'⟩ := h
          exact ⟨y', List.mem_append_left _ hy', e'.trans e⟩
        · exact ⟨y, List.mem_append_right _ hy, e⟩
    · rintro ⟨y, hy, e⟩
      rcases List.mem_append.1 hy with hy | hy
      · exact ⟨y, List.mem_append_left _ hy, e⟩
      · exact ⟨y, List.mem_append_right _ (List.mem_cons_of_mem _ hy), e⟩

/-- C68 where it is true: an interface line whose key was seen before, and whose remote node was
named by an earlier interface line, changes nothing: the model contains exactly what the file
without that line says. -/
theorem C68_duplicate_line_partial {rd : Reader} {k : Kind} {lines : List String} {d : FileData}
    {t : State} (h : loadModel rd lines (emptyState k) = .ok () t) (hd : Reads rd k lines d)
    {a b : List IfcRec} {r : IfcRec} (he : d.ifs = a ++ r :: b)
    (hdup : ∃ x ∈ a, x.name = r.name ∧ x.node = r.node)
    (hrem : ∃ x ∈ a, x.node = r.remote ∨ x.remote = r.remote) :
    Holds t { d with ifs := a ++ b } := by
  obtain ⟨-, d', hd', hs⟩ := load_ok h
  rw [reads_unique hd' hd] at hs
  have hn : keepFirst id d.names = keepFirst id (FileData.names { d with ifs := a ++ b }) := by
    unfold FileData.names
    rw [he]
    simp only [List.flatMap_append, List.flatMap_cons, List.append_assoc, List.cons_append,
      List.nil_append]
    rw [keepFirst_append_dup, keepFirst_append_dup]
    · obtain ⟨x, hx, hor⟩ := hrem
      refine ⟨r.remote, List.mem_flatMap.2 ⟨x, hx, ?_⟩, rfl⟩
      rcases hor with e | e <;> simp [e]
    · obtain ⟨x, hx, -, e⟩ := hdup
      exact ⟨r.node, List.mem_flatMap.2 ⟨x, hx, by simp [e]⟩, rfl⟩
  refine ⟨?_, ?_, hs.holds.dmds, hs.holds.lsps, hs.holds.unused⟩
  · rw [hs.holds.ifs, he]
    obtain ⟨x, hx, e1, e2⟩ := hdup
    exact keepFirst_append_dup _ _ _ ⟨x, hx, by simp [e1, e2]⟩
  · rw [hs.holds.nodes, hn]

/-- the example file has such a line: `A B ab 77 100` -/
example : ∃ d, Reads .plain .perf (Ex.file .perf) d ∧ ∃ a b r, d.ifs = a ++ r :: b ∧
    (∃ x ∈ a, x.name = r.name ∧ x.node = r.node) ∧ (∃ x ∈ a, x.node = r.remote ∨ x.remote = r.remote) := by
  obtain ⟨d, hd⟩ := (C64_accepts .plain .perf (Ex.file .perf)).1 (by decide +kernel)
  refine ⟨d, hd, ?_⟩
  obtain ⟨rows, ht, hf⟩ := hd.ifs
  have hrows : rows = ["A\tB\tab\t10\t100", "B\tA\tba\t10\t100", "A\tB\tab\t77\t100",
      "B\tC\tbc\t20\t40\tFalse", "C\tB\tcb\t20\t40\tTrue\t50"] := by
    obtain ⟨a, ha, rfl⟩ := table_iff.1 ht
    have : indexFrom (Ex.file .perf) "INTERFACES_TABLE" 0 = some 0 := by decide +kernel
    rw [this] at ha
    cases ha
    decide +kernel
  rw [hrows] at hf
  generalize d.ifs = l at hf ⊢
  have hl : ∀ {line : String} {r : IfcRec} {x y z c : String} {more : List String},
      splitTab line = x :: y :: z :: c :: more → IfcLine .plain .perf line r →
      r.node = x ∧ r.remote = y ∧ r.name = z := by
    rintro line r x y z c more h1 ⟨_, _, _, _, _, h2, -⟩
    rw [hasFields_iff, h1] at h2
    cases h2
    exact ⟨rfl, rfl, rfl⟩
  cases hf with
  | @cons _ r1 _ rs1 h1 hf =>
    cases hf with
    | @cons _ r2 _ rs2 h2 hf =>
      cases hf with
      | @cons _ r3 _ rs3 h3 hf =>
        obtain ⟨a1, a2, a3⟩ := hl (by decide +kernel : splitTab _ = ["A", "B", "ab", "10", "100"]) h1
        obtain ⟨b1, b2, b3⟩ := hl (by decide +kernel : splitTab _ = ["A", "B", "ab", "77", "100"]) h3
        exact ⟨[r1, r2], rs3, r3, rfl, ⟨r1, by simp, by rw [a3, b3], by rw [a1, b1]⟩,
          ⟨r1, by simp, .inr (by rw [a2, b2])⟩⟩

end NTM
