import Verif.Proof.FileLoad

/-!
# The loader on a whole file
-/

namespace NTM

open Spec

/-! ### a line determines its record -/

theorem forall2_and {ρ : Type} {P : String → ρ → Prop} {Q : ρ → Prop} {rows : List String}
    {rs : List ρ} (h : List.Forall₂ P rows rs) (hq : ∀ r ∈ rs, Q r) :
    List.Forall₂ (fun l r => P l r ∧ Q r) rows rs := by
  induction h with
  | nil => exact .nil
  | cons h1 _ ih =>
    exact .cons ⟨h1, hq _ (by simp)⟩ (ih fun r hr => hq r (List.mem_cons_of_mem _ hr))

theorem forall2_right {ρ : Type} {P : String → ρ → Prop} {Q : ρ → Prop} {rows : List String}
    {rs : List ρ} (h : List.Forall₂ P rows rs) (hq : ∀ l r, P l r → Q r) : ∀ r ∈ rs, Q r := by
  induction h with
  | nil => simp
  | cons h1 _ ih =>
    intro r hr
    rcases List.mem_cons.1 hr with rfl | hr
    · exact hq _ _ h1
    · exact ih r hr

theorem forall2_unique {ρ : Type} {P : String → ρ → Prop} (hP : ∀ l r r', P l r → P l r' → r = r')
    {rows : List String} {rs rs' : List ρ} (h : List.Forall₂ P rows rs)
    (h' : List.Forall₂ P rows rs') : rs = rs' := by
  induction h generalizing rs' with
  | nil => cases h'; rfl
  | cons h1 _ ih =>
    cases h' with
    | cons h2 h3 => rw [hP _ _ _ h1 h2, ih h3]

theorem ifcLine_unique {rd : Reader} {k : Kind} (l : String) (r r' : IfcRec)
    (h : IfcLine rd k l r) (h' : IfcLine rd k l r') : r = r' := by
  obtain ⟨row, cap, a0, a1, a2, a3, a4, -, a5, a6, -, a7, a8, a9⟩ := ifcLine_iff.1 h
  obtain ⟨row', cap', b0, b1, b2, b3, b4, -, b5, b6, -, b7, b8, b9⟩ := ifcLine_iff.1 h'
  rw [a0] at b0
  cases b0
  obtain ⟨n, m, nm, c, q, i, e, p⟩ := r
  obtain ⟨n', m', nm', c', q', i', e', p'⟩ := r'
  simp only at *
  rw [a4] at b4
  rw [a5] at b5
  rw [a9] at b9
  cases b4; cases b5; cases b9
  subst a1 a2 a3 a6 a7 a8 b1 b2 b3 b6 b7 b8
  rfl

theorem nodeLine_unique {rd : Reader} (l : String) (r r' : NodeRec) (h : NodeLine rd l r)
    (h' : NodeLine rd l r') : r = r' := by
  obtain ⟨a1, a2, a3, a4⟩ := nodeLine_iff.1 h
  obtain ⟨b1, b2, b3, b4⟩ := nodeLine_iff.1 h'
  obtain ⟨n, x, y, s⟩ := r
  obtain ⟨n', x', y', s'⟩ := r'
  simp only at *
  rw [a4] at b4
  cases b4
  subst a1 a2 a3 b1 b2 b3
  rfl

theorem dmdLine_unique {rd : Reader} (l : String) (r r' : DmdRec) (h : DmdLine rd l r)
    (h' : DmdLine rd l r') : r = r' := by
  obtain ⟨t, nm, more, n, hf, a1, a2, -, a3⟩ := h
  obtain ⟨t', nm', more', n', hf', b1, b2, -, b3⟩ := h'
  have := hasFields_unique hf hf'
  obtain ⟨x, y, z, w⟩ := r
  obtain ⟨x', y', z', w'⟩ := r'
  simp only at *
  cases this
  rw [a1] at b1
  cases b1
  subst a2 a3 b2 b3
  rfl

theorem lspLine_unique {rd : Reader} (l : String) (r r' : LspRec) (h : LspLine rd l r)
    (h' : LspLine rd l r') : r = r' := by
  obtain ⟨fs, hf, a1, a2⟩ := h
  obtain ⟨fs', hf', b1, b2⟩ := h'
  have := hasFields_unique hf hf'
  obtain ⟨x, y, z, w, v⟩ := r
  obtain ⟨x', y', z', w', v'⟩ := r'
  simp only at *
  cases this
  subst a1 a2 b1 b2
  rfl

theorem table_unique {title : String} {lines rows rows' : List String} (h : Table title lines rows)
    (h' : Table title lines rows') : rows = rows' := by
  obtain ⟨a, ha, rfl⟩ := table_iff.1 h
  obtain ⟨b, hb, rfl⟩ := table_iff.1 h'
  rw [ha] at hb; cases hb; rfl

/-- a file has at most one reading -/
theorem reads_unique {rd : Reader} {k : Kind} {lines : List String} {d d' : FileData}
    (h : Reads rd k lines d) (h' : Reads rd k lines d') : d = d' := by
  obtain ⟨i, n, m, l⟩ := d
  obtain ⟨i', n', m', l'⟩ := d'
  obtain ⟨r1, t1, f1⟩ := h.ifs
  obtain ⟨r1', t1', f1'⟩ := h'.ifs
  obtain ⟨r2, t2, f2⟩ := h.nodes
  obtain ⟨r2', t2', f2'⟩ := h'.nodes
  obtain ⟨r3, t3, f3⟩ := h.dmds
  obtain ⟨r3', t3', f3'⟩ := h'.dmds
  obtain ⟨r4, t4, f4⟩ := h.lsps
  obtain ⟨r4', t4', f4'⟩ := h'.lsps
  rw [← table_unique t1 t1'] at f1'
  rw [← table_unique t2 t2'] at f2'
  rw [← table_unique t3 t3'] at f3'
  rw [lspTable_iff.1 t4', ← lspTable_iff.1 t4] at f4'
  have e1 := forall2_unique ifcLine_unique f1 f1'
  have e2 := forall2_unique nodeLine_unique f2 f2'
  have e3 := forall2_unique dmdLine_unique f3 f3'
  have e4 := forall2_unique lspLine_unique f4 f4'
  simp only at e1 e2 e3 e4
  subst e1 e2 e3 e4
  rfl

/-! ### the whole file -/

theorem count_map_inj {α β : Type} [DecidableEq α] [DecidableEq β] {f : α → β}
    (hf : Function.Injective f) (l : List α) (x : α) : (l.map f).count (f x) = l.count x := by
  induction l with
  | nil => rfl
  | cons y l ih =>
    rw [List.map_cons, List.count_cons, List.count_cons, ih]
    by_cases h : y = x
    · simp [h]
    · have : f y ≠ f x := fun e => h (hf e)
      simp [h, this]

theorem forEach_reads {ρ : Type} {f : String → Py Unit} {P : String → ρ → Prop}
    {I : List ρ → State → Prop}
    (hstep : ∀ line done s, I done s →
      wp (f line) (fun _ t => ∃ r, P line r ∧ I (done ++ [r]) t) (fun _ _ => ¬ ∃ r, P line r) s)
    (rows : List String) (done : List ρ) {s : State} (h : I done s) :
    wp (forEach rows f) (fun _ t => ∃ rs, List.Forall₂ P rows rs ∧ I (done ++ rs) t)
      (fun _ _ => ¬ ∃ rs, List.Forall₂ P rows rs) s := by
  induction rows generalizing done s with
  | nil =>
    rw [wp_forEach_nil]
    exact ⟨[], .nil, by rwa [List.append_nil]⟩
  | cons line rows ih =>
    rw [wp_forEach_cons]
    refine wp_mono (hstep line done s h) ?_ ?_
    · rintro _ t ⟨r, hr, ht⟩
      refine wp_mono (ih (done ++ [r]) ht) ?_ ?_
      · rintro _ u ⟨rs, hrs, hu⟩
        refine ⟨r :: rs, .cons hr hrs, ?_⟩
        rwa [List.append_assoc] at hu
      · rintro _ _ hno ⟨rs, hrs⟩
        cases hrs with
        | cons _ h2 => exact hno ⟨_, h2⟩
    · rintro _ _ hno ⟨rs, hrs⟩
      cases hrs with
      | cons h1 _ => exact hno ⟨_, h1⟩

theorem flex_ids {rd : Reader} {rows : List String} {rs : List IfcRec}
    (h : List.Forall₂ (IfcLine rd .flex) rows rs) :
    ((rows.filterMap fun l => (splitTab l)[5]?).map CktId.str) = rs.map IfcRec.circuitId := by
  induction h with
  | nil => rfl
  | @cons line r rows rs h1 _ ih =>
    obtain ⟨cost, capacity, col, opts, cap, hf, -, -, -, -, -, ⟨id, rfl, hc⟩, -⟩ := h1
    rw [hasFields_iff] at hf
    have : (splitTab line)[5]? = some id := by rw [hf]; rfl
    rw [List.filterMap_cons, this]
    simp only [List.map_cons]
    rw [ih, hc]

theorem flex_ids_ok {rd : Reader} {rows : List String} {rs : List IfcRec}
    (h : List.Forall₂ (IfcLine rd .flex) rows rs) :
    cktIdsOk rows = true ↔ ∀ r ∈ rs, (rs.map IfcRec.circuitId).count r.circuitId = 2 := by
  have hids := flex_ids h
  unfold cktIdsOk
  simp only [List.all_eq_true, decide_eq_true_eq]
  have hinj : Function.Injective CktId.str := fun a b e => by cases e; rfl
  rw [← hids]
  constructor
  · intro ha r hr
    have : r.circuitId ∈ rs.map IfcRec.circuitId := List.mem_map_of_mem hr
    rw [← hids] at this
    obtain ⟨id, hid, e⟩ := List.mem_map.1 this
    rw [← e, count_map_inj hinj]
    exact ha id hid
  · intro ha id hid
    have : CktId.str id ∈ rs.map IfcRec.circuitId := by rw [← hids]; exact List.mem_map_of_mem hid
    obtain ⟨r, hr, e⟩ := List.mem_map.1 this
    have := ha r hr
    rw [e, count_map_inj hinj] at this
    exact this

theorem loadModel_wp (rd : Reader) (k : Kind) (lines : List String) :
    wp (loadModel rd lines) (fun _ t => t.kind = k ∧ ∃ d, Reads rd k lines d ∧ Stage t d)
      (fun _ _ => ¬ ∃ d, Reads rd k lines d) (emptyState k) := by
  unfold loadModel
  rw [wp_bind, wp_get]
  have hk : (emptyState k).kind = k := rfl
  simp only [hk]
  cases hi : indexFrom lines "INTERFACES_TABLE" 0 with
  | none =>
    simp only []
    rw [wp_raise]
    rintro ⟨d, hd⟩
    obtain ⟨rows, ht, -⟩ := hd.ifs
    obtain ⟨a, ha, -⟩ := table_iff.1 ht
    rw [hi] at ha; cases ha
  | some a =>
    simp only []
    set rows := pySlice lines (a + 2) (findEndIndex (a + 2) lines) with hrows
    have htab : Table "INTERFACES_TABLE" lines rows := table_iff.2 ⟨a, hi, rfl⟩
    have huniq : ∀ rows', Table "INTERFACES_TABLE" lines rows' → rows' = rows := by
      intro rows' h'
      obtain ⟨b, hb, rfl⟩ := table_iff.1 h'
      rw [hi] at hb; cases hb; rfl
    by_cases hc : k = .flex ∧ ¬ cktIdsOk rows = true
    · rw [if_pos hc, wp_raise]
      rintro ⟨d, hd⟩
      obtain ⟨rfl, hc⟩ := hc
      obtain ⟨rows', ht, hf⟩ := hd.ifs
      rw [huniq _ ht] at hf
      exact hc ((flex_ids_ok hf).2 (hd.ids rfl))
    rw [if_neg hc, wp_bind]
    refine wp_mono (forEach_reads (P := IfcLine rd k)
      (I := fun rs t => t.kind = k ∧ Stage t ⟨rs, [], [], []⟩) ?_ rows [] ⟨hk, stage_empty k⟩) ?_ ?_
    · rintro line done s ⟨h1, h2⟩
      refine wp_mono (loadIfcLine_wp rd line h2) ?_ ?_
      · rintro _ t ⟨e, r, hr, ht⟩
        rw [h1] at e hr
        exact ⟨r, hr, e, ht⟩
      · intro _ _ h; rwa [h1] at h
    swap
    · rintro _ _ hno ⟨d, hd⟩
      obtain ⟨rows', ht, hf⟩ := hd.ifs
      rw [huniq _ ht] at hf
      exact hno ⟨_, hf⟩
    rintro _ t1 ⟨rs, hrs, hk1, hs1⟩
    rw [List.nil_append] at hs1
    cases hn : indexFrom lines "NODES_TABLE" 0 with
    | none =>
      simp only []
      rw [wp_raise]
      rintro ⟨d, hd⟩
      obtain ⟨rows, ht, -⟩ := hd.nodes
      obtain ⟨a, ha, -⟩ := table_iff.1 ht
      rw [hn] at ha; cases ha
    | some b =>
      simp only []
      set nrows := pySlice lines (b + 2) (findEndIndex (b + 2) lines) with hnrows
      have hntab : Table "NODES_TABLE" lines nrows := table_iff.2 ⟨b, hn, rfl⟩
      have hnuniq : ∀ rows', Table "NODES_TABLE" lines rows' → rows' = nrows := by
        intro rows' h'
        obtain ⟨b', hb, rfl⟩ := table_iff.1 h'
        rw [hn] at hb; cases hb; rfl
      rw [wp_bind]
      refine wp_mono (forEach_reads (P := NodeLine rd)
        (I := fun ns t => t.kind = k ∧ Stage t ⟨rs, ns, [], []⟩) ?_ nrows [] ⟨hk1, hs1⟩) ?_ ?_
      · rintro line done s ⟨h1, h2⟩
        refine wp_mono (loadNodeLine_wp rd line h2) ?_ fun _ _ h => h
        rintro _ t ⟨e, r, hr, ht⟩
        exact ⟨r, hr, e.trans h1, ht⟩
      swap
      · rintro _ _ hno ⟨d, hd⟩
        obtain ⟨rows', ht, hf⟩ := hd.nodes
        rw [hnuniq _ ht] at hf
        exact hno ⟨_, hf⟩
      rintro _ t2 ⟨ns, hns, hk2, hs2⟩
      rw [List.nil_append] at hs2
      have hnames : ∀ d, Reads rd k lines d →
          d.names = FileData.names ⟨rs, ns, [], []⟩ := by
        intro d hd
        obtain ⟨r1, t1, f1⟩ := hd.ifs
        obtain ⟨r2, t2, f2⟩ := hd.nodes
        rw [huniq _ t1] at f1
        rw [hnuniq _ t2] at f2
        unfold FileData.names
        rw [forall2_unique ifcLine_unique f1 hrs, forall2_unique nodeLine_unique f2 hns]
      cases hd : indexFrom lines "DEMANDS_TABLE" 0 with
      | none =>
        simp only []
        rw [wp_raise]
        rintro ⟨d, hd'⟩
        obtain ⟨rows, ht, -⟩ := hd'.dmds
        obtain ⟨a, ha, -⟩ := table_iff.1 ht
        rw [hd] at ha; cases ha
      | some c =>
        simp only []
        set drows := pySlice lines (c + 2) (findEndIndex (c + 2) lines) with hdrows
        have hdtab : Table "DEMANDS_TABLE" lines drows := table_iff.2 ⟨c, hd, rfl⟩
        have hduniq : ∀ rows', Table "DEMANDS_TABLE" lines rows' → rows' = drows := by
          intro rows' h'
          obtain ⟨b', hb, rfl⟩ := table_iff.1 h'
          rw [hd] at hb; cases hb; rfl
        rw [wp_bind]
        refine wp_mono (forEach_reads (P := DmdLineOk rd (FileData.names ⟨rs, ns, [], []⟩))
          (I := fun ds t => t.kind = k ∧ Stage t ⟨rs, ns, ds, []⟩) ?_ drows [] ⟨hk2, hs2⟩) ?_ ?_
        · rintro line done s ⟨h1, h2⟩
          refine wp_mono (loadDmdLine_wp rd line h2) ?_ fun _ _ h => h
          rintro _ t ⟨e, r, hr, ht⟩
          exact ⟨r, hr, e.trans h1, ht⟩
        swap
        · rintro _ _ hno ⟨d, hd'⟩
          obtain ⟨rows', ht, hf⟩ := hd'.dmds
          rw [hduniq _ ht] at hf
          refine hno ⟨d.dmds, ?_⟩
          have := hd'.dmdEnds
          rw [hnames d hd'] at this
          exact forall2_and hf this
        rintro _ t3 ⟨ds, hds, hk3, hs3⟩
        rw [List.nil_append] at hs3
        have hltab : LspTable lines (match indexFrom lines "RSVP_LSP_TABLE" 0 with
            | none => []
            | some a => lines.drop (a + 2)) := lspTable_iff.2 rfl
        have hids : k = .flex → ∀ r ∈ rs, (rs.map IfcRec.circuitId).count r.circuitId = 2 := by
          rintro rfl
          have : cktIdsOk rows = true := by
            by_contra h
            exact hc ⟨rfl, h⟩
          exact (flex_ids_ok hrs).1 this
        have hfinal : ∀ {lrows : List String}, LspTable lines lrows → ∀ {ls : List LspRec} {t : State},
            List.Forall₂ (LspLineOk rd (FileData.names ⟨rs, ns, [], []⟩)) lrows ls → t.kind = k →
            Stage t ⟨rs, ns, ds, ls⟩ → t.kind = k ∧ ∃ d, Reads rd k lines d ∧ Stage t d := by
          intro lrows hl ls t hf hk ht
          refine ⟨hk, _, ⟨⟨rows, htab, hrs⟩, ⟨nrows, hntab, hns⟩, ⟨drows, hdtab, ?_⟩, ⟨lrows, hl, ?_⟩,
            hids, ?_, ?_⟩, ht⟩
          · exact hds.imp fun _ _ h => h.1
          · exact hf.imp fun _ _ h => h.1
          · exact forall2_right hds fun _ _ h => h.2
          · exact forall2_right hf fun _ _ h => h.2
        cases hl : indexFrom lines "RSVP_LSP_TABLE" 0 with
        | none =>
          simp only []
          rw [wp_pure]
          rw [hl] at hltab
          exact hfinal hltab .nil hk3 hs3
        | some e =>
          simp only []
          rw [hl] at hltab
          refine wp_mono (forEach_reads (P := LspLineOk rd (FileData.names ⟨rs, ns, [], []⟩))
            (I := fun ls t => t.kind = k ∧ Stage t ⟨rs, ns, ds, ls⟩) ?_ (lines.drop (e + 2)) []
            ⟨hk3, hs3⟩) ?_ ?_
          · rintro line done s ⟨h1, h2⟩
            refine wp_mono (loadLspLine_wp rd line h2) ?_ fun _ _ h => h
            rintro _ t ⟨e, r, hr, ht⟩
            exact ⟨r, hr, e.trans h1, ht⟩
          · rintro _ t ⟨ls, hls, hk4, hs4⟩
            exact hfinal hltab hls hk4 hs4
          · rintro _ _ hno ⟨d, hd'⟩
            obtain ⟨rows', ht, hf⟩ := hd'.lsps
            have := lspTable_iff.1 ht
            rw [hl] at this
            rw [this] at hf
            refine hno ⟨d.lsps, ?_⟩
            have := hd'.lspEnds
            rw [hnames d hd'] at this
            exact forall2_and hf this

/-- A file is accepted if and only if it has a reading, and then the model holds that reading. -/
theorem load_reads {rd : Reader} {k : Kind} {lines : List String} {d : FileData}
    (h : Reads rd k lines d) :
    ∃ t, loadModel rd lines (emptyState k) = .ok () t ∧ t.kind = k ∧ Stage t d := by
  have hw := loadModel_wp rd k lines
  cases hr : loadModel rd lines (emptyState k) with
  | ok u t =>
    obtain ⟨hk, d', hd', ht⟩ := of_wp_ok hw hr
    rw [reads_unique h hd']
    exact ⟨t, rfl, hk, ht⟩
  | error e t => exact absurd ⟨d, h⟩ (of_wp_error hw hr)

theorem load_ok {rd : Reader} {k : Kind} {lines : List String} {t : State}
    (h : loadModel rd lines (emptyState k) = .ok () t) :
    t.kind = k ∧ ∃ d, Reads rd k lines d ∧ Stage t d :=
  of_wp_ok (loadModel_wp rd k lines) h

end NTM
