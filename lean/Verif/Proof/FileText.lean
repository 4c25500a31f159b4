import Verif.Proof.FileModel
import Verif.Spec.FileText

/-!
# Reading back a written file
-/

namespace NTM

open Spec

theorem isLineBreak_iff (c : Char) : isLineBreak c = true ↔ LineBreak c := by
  simp [isLineBreak, LineBreak, or_assoc]

theorem splitLinesAux_line (l cs cur : List Char) (h : ∀ c ∈ l, ¬ LineBreak c) :
    splitLinesAux (l ++ cs) false cur = splitLinesAux cs false (cur ++ l) := by
  induction l generalizing cur with
  | nil => simp
  | cons c l ih =>
    have hc : isLineBreak c = false := by
      rw [← Bool.not_eq_true, isLineBreak_iff]
      exact h c (by simp)
    rw [List.cons_append, splitLinesAux]
    simp only [Bool.false_eq_true, false_and, if_false, hc]
    rw [ih _ fun x hx => h x (List.mem_cons_of_mem _ hx)]
    simp

theorem splitLinesAux_lines (ls : List String) (h : ∀ l ∈ ls, ∀ c ∈ l.toList, ¬ LineBreak c) :
    splitLinesAux (ls.flatMap fun l => l.toList ++ ['\n']) false [] = ls.map String.toList := by
  induction ls with
  | nil => rfl
  | cons l ls ih =>
    rw [List.flatMap_cons, List.append_assoc, splitLinesAux_line _ _ _ (h l (by simp))]
    simp only [List.nil_append, List.cons_append]
    rw [splitLinesAux]
    have : isLineBreak '\n' = true := by decide
    simp only [Bool.false_eq_true, false_and, if_false, this, if_true]
    have e : decide ('\n' = '\r') = false := by decide
    rw [e, ih fun x hx => h x (List.mem_cons_of_mem _ hx)]
    rfl

theorem splitLines_fileText {w : Writer} {d : FileData}
    (h : ∀ l ∈ fileLines w d, ∀ c ∈ l.toList, ¬ LineBreak c) :
    splitLines (fileText w d) = fileLines w d := by
  unfold splitLines fileText
  rw [String.toList_ofList, splitLinesAux_lines _ h, List.map_map]
  simp

theorem tsv_hasFields {fs : List String} (h : fs ≠ []) (hf : ∀ f ∈ fs, FieldText f) :
    HasFields (tsv fs) fs :=
  ⟨h, fun f hm hc => (hf f hm _ hc).1 rfl, by rw [tsv, String.toList_ofList]⟩

theorem tsv_cons2 (a b : String) (fs : List String) :
    (tsv (a :: b :: fs)).toList = a.toList ++ '\t' :: (tsv (b :: fs)).toList := by
  simp [tsv, String.toList_ofList, List.intercalate]

theorem tsv_noBreak {fs : List String} (hf : ∀ f ∈ fs, FieldText f) :
    ∀ c ∈ (tsv fs).toList, ¬ LineBreak c := by
  induction fs with
  | nil => intro c hc; simp [tsv, List.intercalate] at hc
  | cons a fs ih =>
    cases fs with
    | nil =>
      intro c hc
      have : c ∈ a.toList := by simpa [tsv, List.intercalate] using hc
      exact (hf a (by simp) c this).2
    | cons b fs =>
      intro c hc
      rw [tsv_cons2] at hc
      rcases List.mem_append.1 hc with hc | hc
      · exact (hf a (by simp) c hc).2
      · rcases List.mem_cons.1 hc with rfl | hc
        · unfold LineBreak; decide
        · exact ih (fun f hm => hf f (List.mem_cons_of_mem _ hm)) c hc

theorem tsv_tab (a b : String) (fs : List String) : '\t' ∈ (tsv (a :: b :: fs)).toList := by
  rw [tsv_cons2]; simp

theorem field_bool (b : Bool) : FieldText (boolText b) := by
  cases b <;> unfold FieldText LineBreak boolText <;> decide

theorem field_empty : FieldText "" := by unfold FieldText; simp

/-! ### the tables of the written file -/

theorem ifcRow_tab (w : Writer) (r : IfcRec) : '\t' ∈ (ifcRow w r).toList := by
  unfold ifcRow; exact tsv_tab _ _ _

theorem nodeRow_tab (w : Writer) (r : NodeRec) : '\t' ∈ (nodeRow w r).toList := tsv_tab _ _ _

theorem dmdRow_tab (w : Writer) (r : DmdRec) : '\t' ∈ (dmdRow w r).toList := tsv_tab _ _ _

theorem lspRow_tab (w : Writer) (r : LspRec) : '\t' ∈ (lspRow w r).toList := tsv_tab _ _ _

theorem takeWhile_rows (rows rest : List String) (h : ∀ l ∈ rows, '\t' ∈ l.toList) :
    (rows ++ "" :: rest).takeWhile (fun l => decide (l ≠ "")) = rows := by
  induction rows with
  | nil => simp
  | cons l rows ih =>
    have : l ≠ "" := by
      rintro rfl
      have := h "" (by simp)
      simp at this
    rw [List.cons_append, List.takeWhile_cons_of_pos (by simpa using this),
      ih fun x hx => h x (List.mem_cons_of_mem _ hx)]

theorem rows_ne {rows : List String} (h : ∀ l ∈ rows, '\t' ∈ l.toList) {title : String}
    (ht : '\t' ∉ title.toList) : title ∉ rows := fun hm => ht (h _ hm)

theorem rows_tab (w : Writer) (d : FileData) :
    (∀ l ∈ d.ifs.map (ifcRow w), '\t' ∈ l.toList) ∧
    (∀ l ∈ d.nodes.map (nodeRow w), '\t' ∈ l.toList) ∧
    (∀ l ∈ d.dmds.map (dmdRow w), '\t' ∈ l.toList) ∧
    (∀ l ∈ d.lsps.map (lspRow w), '\t' ∈ l.toList) := by
  refine ⟨?_, ?_, ?_, ?_⟩ <;> intro l hl <;> obtain ⟨r, -, rfl⟩ := List.mem_map.1 hl
  · exact ifcRow_tab w r
  · exact nodeRow_tab w r
  · exact dmdRow_tab w r
  · exact lspRow_tab w r

theorem table_at {title header : String} {pre rows rest : List String} (hp : title ∉ pre)
    (h : ∀ l ∈ rows, '\t' ∈ l.toList) :
    Table title (pre ++ title :: header :: (rows ++ "" :: rest)) rows :=
  ⟨_, ⟨pre, rfl, hp⟩, (takeWhile_rows rows rest h).symm⟩

/-- the header line of the interface table -/
def ifcHeader : String :=
  "node_object_name\tremote_node_object_name\tname\tcost\tcapacity\tcircuit_id\trsvp_enabled"
      ++ "\tpercent_reservable_bandwidth"

theorem fileLines_eq (w : Writer) (d : FileData) :
    fileLines w d = "INTERFACES_TABLE" :: ifcHeader :: (d.ifs.map (ifcRow w) ++ "" ::
      "NODES_TABLE" :: "name\tlon\tlat\tigp_shortcuts_enabled" :: (d.nodes.map (nodeRow w) ++ "" ::
      "DEMANDS_TABLE" :: "source\tdest\ttraffic\tname" :: (d.dmds.map (dmdRow w) ++ "" ::
      "RSVP_LSP_TABLE" :: "source\tdest\tname\tconfigured_setup_bw\tmanual_metric" ::
      d.lsps.map (lspRow w)))) := by
  unfold fileLines ifcHeader
  simp only [List.append_assoc, List.cons_append, List.nil_append]

theorem fileLines_ifs (w : Writer) (d : FileData) :
    Table "INTERFACES_TABLE" (fileLines w d) (d.ifs.map (ifcRow w)) := by
  rw [fileLines_eq]
  exact table_at (pre := []) (by simp) (rows_tab w d).1

theorem fileLines_nodes (w : Writer) (d : FileData) :
    Table "NODES_TABLE" (fileLines w d) (d.nodes.map (nodeRow w)) := by
  obtain ⟨h1, h2, h3, h4⟩ := rows_tab w d
  have hp : "NODES_TABLE" ∉ "INTERFACES_TABLE" :: ifcHeader :: (d.ifs.map (ifcRow w) ++ [""]) := by
    simp only [List.mem_cons, List.mem_append, not_or, List.not_mem_nil, not_false_eq_true, and_true]
    exact ⟨by decide, by decide, rows_ne h1 (by decide), by decide⟩
  rw [fileLines_eq]
  have := table_at (header := "name\tlon\tlat\tigp_shortcuts_enabled") (rest :=
      "DEMANDS_TABLE" :: "source\tdest\ttraffic\tname" :: (d.dmds.map (dmdRow w) ++ "" ::
      "RSVP_LSP_TABLE" :: "source\tdest\tname\tconfigured_setup_bw\tmanual_metric" ::
      d.lsps.map (lspRow w))) hp h2
  simpa only [List.append_assoc, List.cons_append, List.nil_append] using this

theorem fileLines_dmds (w : Writer) (d : FileData) :
    Table "DEMANDS_TABLE" (fileLines w d) (d.dmds.map (dmdRow w)) := by
  obtain ⟨h1, h2, h3, h4⟩ := rows_tab w d
  have hp : "DEMANDS_TABLE" ∉ "INTERFACES_TABLE" :: ifcHeader :: (d.ifs.map (ifcRow w) ++ "" ::
      "NODES_TABLE" :: "name\tlon\tlat\tigp_shortcuts_enabled" ::
      (d.nodes.map (nodeRow w) ++ [""])) := by
    simp only [List.mem_cons, List.mem_append, not_or, List.not_mem_nil, not_false_eq_true, and_true]
    exact ⟨by decide, by decide, rows_ne h1 (by decide), by decide, by decide, by decide,
      rows_ne h2 (by decide), by decide⟩
  rw [fileLines_eq]
  have := table_at (header := "source\tdest\ttraffic\tname") (rest :=
      "RSVP_LSP_TABLE" :: "source\tdest\tname\tconfigured_setup_bw\tmanual_metric" ::
      d.lsps.map (lspRow w)) hp h3
  simpa only [List.append_assoc, List.cons_append, List.nil_append] using this

theorem fileLines_lsps (w : Writer) (d : FileData) :
    LspTable (fileLines w d) (d.lsps.map (lspRow w)) := by
  obtain ⟨h1, h2, h3, h4⟩ := rows_tab w d
  have hp : "RSVP_LSP_TABLE" ∉ "INTERFACES_TABLE" :: ifcHeader :: (d.ifs.map (ifcRow w) ++ "" ::
      "NODES_TABLE" :: "name\tlon\tlat\tigp_shortcuts_enabled" ::
      (d.nodes.map (nodeRow w) ++ "" :: "DEMANDS_TABLE" :: "source\tdest\ttraffic\tname" ::
      (d.dmds.map (dmdRow w) ++ [""]))) := by
    simp only [List.mem_cons, List.mem_append, not_or, List.not_mem_nil, not_false_eq_true, and_true]
    exact ⟨by decide, by decide, rows_ne h1 (by decide), by decide, by decide, by decide,
      rows_ne h2 (by decide), by decide, by decide, by decide, rows_ne h3 (by decide), by decide⟩
  rw [fileLines_eq]
  refine .inl ⟨"source\tdest\tname\tconfigured_setup_bw\tmanual_metric" ::
    d.lsps.map (lspRow w), ⟨_, ?_, hp⟩, rfl⟩
  simp only [List.append_assoc, List.cons_append, List.nil_append]

/-! ### its lines -/

theorem forall2_map {ρ : Type} {P : String → ρ → Prop} {f : ρ → String} {rs : List ρ}
    (h : ∀ r ∈ rs, P (f r) r) : List.Forall₂ P (rs.map f) rs := by
  induction rs with
  | nil => exact .nil
  | cons r rs ih =>
    exact .cons (h r (by simp)) (ih fun x hx => h x (List.mem_cons_of_mem _ hx))

theorem boolText_iff (b : Bool) : (b = true ↔ boolText b ∈ ["T", "True", "true"]) := by
  cases b <;> decide

theorem ifcFields {rd : Reader} {w : Writer} {k : Kind} {d : FileData} (h : WellFormed rd w k d)
    {r : IfcRec} (hr : r ∈ d.ifs) : ∀ f ∈ [r.node, r.remote, r.name, w.int r.cost,
      w.int r.capacity.num] ++ idColumn r.circuitId ++ [boolText r.rsvp, w.float r.percent],
      FieldText f := by
  obtain ⟨a1, a2, a3⟩ := h.ifNames r hr
  obtain ⟨b1, -, b3, -, -, b6⟩ := h.ifNumbers r hr
  have hid : ∀ f ∈ idColumn r.circuitId, FieldText f := by
    have := h.ifIds r hr
    cases k with
    | perf => rw [this]; simp [idColumn]
    | flex =>
      obtain ⟨⟨x, e, hx⟩, -⟩ := this
      rw [e]
      simpa [idColumn] using hx
  intro f hf
  simp only [List.mem_append, List.mem_cons, List.not_mem_nil, or_false] at hf
  rcases hf with ((rfl | rfl | rfl | rfl | rfl) | hf) | rfl | rfl
  exacts [a1, a2, a3, b1.2, b3.2, hid f hf, field_bool _, b6.2]

theorem ifcRow_reads {rd : Reader} {w : Writer} {k : Kind} {d : FileData}
    (h : WellFormed rd w k d) {r : IfcRec} (hr : r ∈ d.ifs) : IfcLine rd k (ifcRow w r) r := by
  obtain ⟨b1, b2, b3, b4, b5, b6⟩ := h.ifNumbers r hr
  refine ⟨w.int r.cost, w.int r.capacity.num, idColumn r.circuitId,
    [boolText r.rsvp, w.float r.percent], r.capacity.num,
    tsv_hasFields (by simp) (ifcFields h hr), b1.1, b2, b3.1, b4, b5, ?_, boolText_iff _, b6.1⟩
  have := h.ifIds r hr
  cases k with
  | perf => rw [this]; exact ⟨rfl, rfl⟩
  | flex =>
    obtain ⟨⟨x, e, hx⟩, -⟩ := this
    rw [e]
    exact ⟨x, rfl, rfl⟩

theorem nodeFields {rd : Reader} {w : Writer} {k : Kind} {d : FileData} (h : WellFormed rd w k d)
    {r : NodeRec} (hr : r ∈ d.nodes) :
    ∀ f ∈ [r.name, w.int r.lon.num, w.int r.lat.num, boolText r.shortcuts], FieldText f := by
  obtain ⟨a1, a2, -, a4, -⟩ := h.nodeFields r hr
  simpa using ⟨a1, a2.2, a4.2, field_bool _⟩

theorem nodeRow_reads {rd : Reader} {w : Writer} {k : Kind} {d : FileData}
    (h : WellFormed rd w k d) {r : NodeRec} (hr : r ∈ d.nodes) : NodeLine rd (nodeRow w r) r := by
  obtain ⟨a1, a2, a3, a4, a5⟩ := h.nodeFields r hr
  refine ⟨_, tsv_hasFields (by simp) (nodeFields h hr), .inl ⟨_, _, rfl, a2.1, a3⟩,
    .inl ⟨_, _, rfl, a4.1, a5⟩, ?_⟩
  cases e : r.shortcuts <;> simp [boolText]

theorem dmdFields {rd : Reader} {w : Writer} {k : Kind} {d : FileData} (h : WellFormed rd w k d)
    {r : DmdRec} (hr : r ∈ d.dmds) :
    ∀ f ∈ [r.source, r.dest, w.int r.traffic.num, r.name], FieldText f := by
  obtain ⟨a1, a2, a3, -, a4, -⟩ := h.dmdFields r hr
  simpa using ⟨a1, a2, a4.2, a3⟩

theorem dmdRow_reads {rd : Reader} {w : Writer} {k : Kind} {d : FileData}
    (h : WellFormed rd w k d) {r : DmdRec} (hr : r ∈ d.dmds) : DmdLine rd (dmdRow w r) r := by
  obtain ⟨a1, a2, a3, a4, a5, a6, a7⟩ := h.dmdFields r hr
  exact ⟨_, _, _, _, tsv_hasFields (by simp) (dmdFields h hr), a5.1, a6, a7, (if_neg a4).symm⟩

theorem lspFields {rd : Reader} {w : Writer} {k : Kind} {d : FileData} (h : WellFormed rd w k d)
    {r : LspRec} (hr : r ∈ d.lsps) :
    ∀ f ∈ [r.source, r.dest, r.name, (r.setupBw.map w.float).getD "", (r.metric.map w.int).getD ""],
      FieldText f := by
  obtain ⟨a1, a2, a3, a4, a5⟩ := h.lspFields r hr
  have h4 : FieldText ((r.setupBw.map w.float).getD "") := by
    cases e : r.setupBw with
    | none => exact field_empty
    | some q => exact (a4 q e).2
  have h5 : FieldText ((r.metric.map w.int).getD "") := by
    cases e : r.metric with
    | none => exact field_empty
    | some q => exact (a5 q e).2
  intro f hf
  simp only [List.mem_cons, List.not_mem_nil, or_false] at hf
  rcases hf with rfl | rfl | rfl | rfl | rfl
  exacts [a1, a2, a3, h4, h5]

theorem lspRow_reads {rd : Reader} {w : Writer} {k : Kind} {d : FileData}
    (h : WellFormed rd w k d) (he : NoEmptyNumber rd) {r : LspRec} (hr : r ∈ d.lsps) :
    LspLine rd (lspRow w r) r := by
  obtain ⟨a1, a2, a3, a4, a5⟩ := h.lspFields r hr
  refine ⟨_, tsv_hasFields (by simp) (lspFields h hr), ?_, ?_⟩
  · cases e : r.setupBw with
    | none => simp [he.2]
    | some q => simp [(a4 q e).1]
  · cases e : r.metric with
    | none => simp [he.1]
    | some q => simp [(a5 q e).1]

theorem fileLines_noBreak {rd : Reader} {w : Writer} {k : Kind} {d : FileData}
    (h : WellFormed rd w k d) : ∀ l ∈ fileLines w d, ∀ c ∈ l.toList, ¬ LineBreak c := by
  have hlit : ∀ l ∈ ["INTERFACES_TABLE", ifcHeader, "", "NODES_TABLE",
      "name\tlon\tlat\tigp_shortcuts_enabled", "DEMANDS_TABLE", "source\tdest\ttraffic\tname",
      "RSVP_LSP_TABLE", "source\tdest\tname\tconfigured_setup_bw\tmanual_metric"],
      ∀ c ∈ l.toList, ¬ LineBreak c := by
    have : ∀ l ∈ ["INTERFACES_TABLE", ifcHeader, "", "NODES_TABLE",
      "name\tlon\tlat\tigp_shortcuts_enabled", "DEMANDS_TABLE", "source\tdest\ttraffic\tname",
      "RSVP_LSP_TABLE", "source\tdest\tname\tconfigured_setup_bw\tmanual_metric"],
      ∀ c ∈ l.toList, isLineBreak c = false := by decide +kernel
    intro l hl c hc hb
    have h1 := this l hl c hc
    rw [(isLineBreak_iff c).2 hb] at h1
    exact Bool.noConfusion h1
  intro l hl
  rw [fileLines_eq] at hl
  simp only [List.mem_cons, List.mem_append, List.mem_map] at hl
  rcases hl with rfl | rfl | ⟨r, hr, rfl⟩ | rfl | rfl | rfl | ⟨r, hr, rfl⟩ | rfl | rfl | rfl |
    ⟨r, hr, rfl⟩ | rfl | rfl | rfl | ⟨r, hr, rfl⟩
  · exact hlit _ (by simp)
  · exact hlit _ (by simp)
  · exact tsv_noBreak (ifcFields h hr)
  · exact hlit _ (by simp)
  · exact hlit _ (by simp)
  · exact hlit _ (by simp)
  · exact tsv_noBreak (nodeFields h hr)
  · exact hlit _ (by simp)
  · exact hlit _ (by simp)
  · exact hlit _ (by simp)
  · exact tsv_noBreak (dmdFields h hr)
  · exact hlit _ (by simp)
  · exact hlit _ (by simp)
  · exact hlit _ (by simp)
  · exact tsv_noBreak (lspFields h hr)

theorem mem_names_of_node {d : FileData} {x : String} (h : x ∈ d.nodes.map NodeRec.name) :
    x ∈ d.names := List.mem_append_right _ h

theorem fileLines_reads {rd : Reader} {w : Writer} {k : Kind} {d : FileData}
    (h : WellFormed rd w k d) (he : NoEmptyNumber rd) : Reads rd k (fileLines w d) d where
  ifs := ⟨_, fileLines_ifs w d, forall2_map fun _ hr => ifcRow_reads h hr⟩
  nodes := ⟨_, fileLines_nodes w d, forall2_map fun _ hr => nodeRow_reads h hr⟩
  dmds := ⟨_, fileLines_dmds w d, forall2_map fun _ hr => dmdRow_reads h hr⟩
  lsps := ⟨_, fileLines_lsps w d, forall2_map fun _ hr => lspRow_reads h he hr⟩
  ids := by
    rintro rfl r hr
    exact (h.ifIds r hr).2
  dmdEnds r hr := ⟨mem_names_of_node (h.dmdEnds r hr).1, mem_names_of_node (h.dmdEnds r hr).2⟩
  lspEnds r hr := ⟨mem_names_of_node (h.lspEnds r hr).1, mem_names_of_node (h.lspEnds r hr).2⟩

/-! ### what the loaded model contains -/

theorem nodeData_self {nodes : List NodeRec} (hn : (nodes.map NodeRec.name).Nodup) {r : NodeRec}
    (hr : r ∈ nodes) : nodeData nodes r.name = r := by
  have : nodes.filter (fun x => decide (x.name = r.name)) = [r] := by
    induction nodes with
    | nil => cases hr
    | cons y ys ih =>
      rw [List.map_cons, List.nodup_cons] at hn
      rcases List.mem_cons.1 hr with rfl | hr
      · rw [List.filter_cons_of_pos (by simp)]
        congr 1
        rw [List.filter_eq_nil_iff]
        intro z hz he
        exact hn.1 (List.mem_map.2 ⟨z, hz, by simpa using he⟩)
      · rw [List.filter_cons_of_neg, ih hn.2 hr]
        simp only [decide_eq_true_eq]
        intro e
        exact hn.1 (List.mem_map.2 ⟨r, hr, e.symm⟩)
  unfold nodeData
  rw [this]
  rfl

theorem contains_of_holds {rd : Reader} {w : Writer} {k : Kind} {d : FileData} {t : State}
    (h : WellFormed rd w k d) (ht : Holds t d) : Contains t d where
  ifs := ht.ifs.trans (keepFirst_self _ h.ifKeys)
  dmds := ht.dmds.trans (keepFirst_self _ h.dmdKeys)
  lsps := ht.lsps.trans (keepFirst_self _ h.lspKeys)
  unused := ht.unused
  nodes := by
    rw [ht.nodes]
    have hp : (keepFirst id d.names).Perm (d.nodes.map NodeRec.name) := by
      have hn : (keepFirst id d.names).Nodup := by
        have := keepFirst_nodup (id : String → String) d.names
        rwa [List.map_id] at this
      rw [List.perm_ext_iff_of_nodup hn h.nodeKeys]
      intro x
      rw [mem_keepFirst_id]
      constructor
      · intro hx
        rcases List.mem_append.1 hx with hx | hx
        · obtain ⟨r, hr, hx⟩ := List.mem_flatMap.1 hx
          simp only [List.mem_cons, List.not_mem_nil, or_false] at hx
          rcases hx with rfl | rfl
          · exact (h.ifEnds r hr).1
          · exact (h.ifEnds r hr).2
        · exact hx
      · exact mem_names_of_node
    refine (hp.map _).trans ?_
    rw [List.map_map]
    have : d.nodes.map (nodeData d.nodes ∘ NodeRec.name) = d.nodes.map id :=
      List.map_congr_left fun r hr => nodeData_self h.nodeKeys hr
    rw [this, List.map_id]

/-! ### plain decimal numbers -/

theorem digitVal_of_isDigit {c : Char} (h : c.isDigit) : digitVal c = some (c.toNat - '0'.toNat) := by
  unfold digitVal
  rw [if_pos (Char.isDigit_iff_toNat.1 h)]

theorem digitsVal_of_isDigit (cs : List Char) (acc : ℕ) (h : ∀ c ∈ cs, c.isDigit) :
    digitsVal cs acc = some (Nat.ofDigitChars 10 cs acc) := by
  induction cs generalizing acc with
  | nil => rfl
  | cons c cs ih =>
    rw [digitsVal, digitVal_of_isDigit (h c (by simp))]
    simp only []
    rw [ih _ fun x hx => h x (List.mem_cons_of_mem _ hx)]
    rw [Nat.ofDigitChars_cons]

theorem digitsVal_repr (n : ℕ) : digitsVal (Nat.toDigits 10 n) 0 = some n := by
  rw [digitsVal_of_isDigit _ _ fun c hc => Nat.isDigit_of_mem_toDigits (by decide) (by decide) hc,
    Nat.ofDigitChars_ten_toDigits]

theorem parseInt_natRepr (n : ℕ) : parseInt n.repr = some (n : ℤ) := by
  unfold parseInt
  rw [Nat.toList_repr]
  have hd : ∀ c ∈ Nat.toDigits 10 n, c.isDigit :=
    fun c hc => Nat.isDigit_of_mem_toDigits (by decide) (by decide) hc
  have hv := digitsVal_repr n
  cases h : Nat.toDigits 10 n with
  | nil => exact absurd h Nat.toDigits_ne_nil
  | cons c cs =>
    rw [h] at hd hv
    have hc := hd c (by simp)
    have h1 : c ≠ '-' := by rintro rfl; revert hc; decide
    have h2 : c ≠ '+' := by rintro rfl; revert hc; decide
    split
    · rename_i e; cases e
    · rename_i e; cases e; exact absurd rfl h1
    · rename_i e; cases e; exact absurd rfl h2
    · rw [hv]; rfl

theorem parseInt_repr (n : ℤ) : parseInt n.repr = some n := by
  rw [Int.repr_eq_if]
  split
  · rename_i h
    rw [parseInt_natRepr]
    simp only [Option.some.injEq]
    omega
  · rename_i h
    unfold parseInt
    simp only [String.toList_append, Nat.toList_repr]
    have : "-".toList = ['-'] := rfl
    rw [this]
    simp only [List.cons_append, List.nil_append]
    rw [if_neg Nat.toDigits_ne_nil, digitsVal_repr]
    simp
    omega

theorem digits_noDot {cs : List Char} (h : ∀ c ∈ cs, c.isDigit) :
    cs.takeWhile (fun c => decide (c ≠ '.')) = cs ∧ cs.dropWhile (fun c => decide (c ≠ '.')) = [] := by
  have : ∀ c ∈ cs, decide (c ≠ '.') = true := by
    intro c hc
    have := h c hc
    rw [decide_eq_true_eq]
    rintro rfl
    revert this; decide
  exact ⟨List.takeWhile_eq_self_iff.2 this, List.dropWhile_eq_nil_iff.2 this⟩

theorem parseFloat_repr (n : ℤ) : parseFloat n.repr = some (n : ℚ) := by
  have hd : ∀ m : ℕ, ∀ c ∈ Nat.toDigits 10 m, c.isDigit :=
    fun m c hc => Nat.isDigit_of_mem_toDigits (by decide) (by decide) hc
  rw [Int.repr_eq_if]
  split
  · rename_i h
    obtain ⟨m, rfl⟩ := Int.eq_ofNat_of_zero_le h
    have e : ((m : ℤ)).toNat = m := by omega
    rw [e]
    unfold parseFloat
    simp only [Nat.toList_repr]
    have hv := digitsVal_repr m
    cases h : Nat.toDigits 10 m with
    | nil => exact absurd h Nat.toDigits_ne_nil
    | cons c cs =>
      have hdm := hd m
      rw [h] at hdm hv
      have hc := hdm c (by simp)
      have h1 : c ≠ '-' := by rintro rfl; revert hc; decide
      have h2 : c ≠ '+' := by rintro rfl; revert hc; decide
      obtain ⟨w1, w2⟩ := digits_noDot hdm
      split
      · rename_i e; cases e; exact absurd rfl h1
      · rename_i e; cases e; exact absurd rfl h2
      · rw [w1, w2]
        simp [hv]
  · rename_i h
    unfold parseFloat
    simp only [String.toList_append, Nat.toList_repr]
    have : "-".toList = ['-'] := rfl
    rw [this]
    simp only [List.cons_append, List.nil_append]
    obtain ⟨w1, w2⟩ := digits_noDot (hd (-n).toNat)
    rw [w1, w2]
    simp only [if_neg Nat.toDigits_ne_nil, digitsVal_repr]
    have : ((-n).toNat : ℚ) = -(n : ℚ) := by
      have : ((-n).toNat : ℤ) = -n := by omega
      exact_mod_cast this
    simp [this]

theorem digit_field {c : Char} (h : c.isDigit ∨ c = '-') : c ≠ '\t' ∧ ¬ LineBreak c := by
  rcases h with h | rfl
  · constructor
    · rintro rfl; revert h; decide
    · intro hb
      unfold LineBreak at hb
      simp only [List.mem_cons, List.not_mem_nil, or_false] at hb
      rcases hb with rfl | rfl | rfl | rfl | rfl | rfl | rfl | rfl | rfl | rfl <;>
        exact absurd h (by decide)
  · unfold LineBreak; decide

theorem repr_field (n : ℤ) : FieldText n.repr := by
  intro c hc
  apply digit_field
  rw [Int.repr_eq_if] at hc
  split at hc
  · rw [Nat.toList_repr] at hc
    exact .inl (Nat.isDigit_of_mem_toDigits (by decide) (by decide) hc)
  · rw [String.toList_append, Nat.toList_repr] at hc
    rcases List.mem_append.1 hc with hc | hc
    · have e : "-".toList = ['-'] := rfl
      rw [e] at hc
      exact .inr (by simpa using hc)
    · exact .inl (Nat.isDigit_of_mem_toDigits (by decide) (by decide) hc)

end NTM
