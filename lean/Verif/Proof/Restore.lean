import Verif.Proof.SrlgMatch

/-!
# What the repair calls restore
-/

namespace NTM

open Spec

theorem getSrlg_eq {s : State} (hw : Wired s) {g : ℕ} (hg : g ∈ s.srlgs) :
    s.getSrlg (s.srlg g).name = .ok g := by
  have hf : s.srlgs.filter (fun h => (s.srlg h).name = (s.srlg g).name) = [g] := by
    have hnd := hw.srlgs.1
    have hin := hw.srlgs.2
    have : ∀ l : List ℕ, l.Nodup → (∀ h ∈ l, h ∈ s.srlgs) → g ∈ l →
        l.filter (fun h => (s.srlg h).name = (s.srlg g).name) = [g] := by
      intro l hl hs hgl
      have h1 : l.filter (fun h => (s.srlg h).name = (s.srlg g).name) = l.filter (fun h => h = g) := by
        refine List.filter_congr fun h hh => ?_
        have : (s.srlg h).name = (s.srlg g).name ↔ h = g :=
          ⟨fun e => hin h (hs h hh) g hg e, fun e => by rw [e]⟩
        simp only [this]
      rw [h1]
      rw [List.filter_eq, List.count_eq_one_of_mem hl hgl]
      rfl
    exact this _ hnd (fun _ h => h) hg
  unfold State.getSrlg
  rw [hf]

/-- `fail_srlg` does not raise on a validated model -/
theorem failSrlg_eq {s : State} (hw : Wired s) (hid : IdsMatch s) {g : ℕ} (hg : g ∈ s.srlgs) :
    failSrlg (s.srlg g).name s =
      .ok () ((s.fell (srlgReach s g) (srlgMembers s g)).setSrlg g true) := by
  have hno : wp (failSrlg (s.srlg g).name) (fun _ _ => True) (fun _ _ => False) s := by
    unfold failSrlg
    simp only [wp_bind, wp_get, wp_liftE, getSrlg_eq hw hg]
    refine wp_mono (wp_forEach (I := fun t => SameNet s t ∧ IdsMatch t) (E := fun _ _ => False) _ _
      ?_ ⟨SameNet.frame.refl s, hid⟩) ?_ (fun _ _ h => h)
    · rintro n hn t ⟨hs, hm⟩
      rw [wp_bind, wp_get]
      refine wp_ite (fun _ => ?_) (fun _ => ⟨hs, hm⟩)
      rw [wp_ok (failNode_eq (hw.congr hs) hm (by rw [hs.nodes]; exact hn))]
      exact ⟨SameNet.frame.trans hs (fell_sameNet _ _ _), hm.congr (fell_sameNet _ _ _) (fell_cktId _ _ _)⟩
    · rintro _ t ht
      refine wp_mono (wp_forEach (I := fun t => SameNet s t ∧ IdsMatch t) (E := fun _ _ => False) _ _
        ?_ ht) ?_ (fun _ _ h => h)
      · rintro i hi u ⟨hs, hm⟩
        rw [wp_bind, wp_get]
        refine wp_ite (fun _ => ?_) (fun _ => ⟨hs, hm⟩)
        have hiu : i ∈ u.ifs := by rw [hs.ifs]; exact hi
        obtain ⟨j, hj, hij⟩ := (hw.congr hs).twin i hiu
        rw [wp_ok (failInterface_eq (hw.congr hs) hm hiu hj hij)]
        exact ⟨SameNet.frame.trans hs (fell_sameNet _ _ _), hm.congr (fell_sameNet _ _ _) (fell_cktId _ _ _)⟩
      · intro _ u _
        trivial
  cases hx : failSrlg (s.srlg g).name s with
  | error e t => exact (of_wp_error hno hx).elim
  | ok a t =>
    obtain ⟨k, hk, hname, rfl⟩ := of_wp_ok (failSrlg_spec hw _) hx
    rw [hw.srlgs.2 k hk g hg hname]

/-- everything the histories keep -/
def Base (s : State) : Prop := MatchInv s ∧ EndsInv s ∧ DownInv s

theorem FailInv.and {I J : State → Prop} (hI : FailInv I) (hJ : FailInv J) :
    FailInv (fun s => I s ∧ J s) where
  wired s h := hI.wired s h.1
  zero s i h hi := ⟨hI.zero s i h.1 hi, hJ.zero s i h.2 hi⟩
  valid env s h := wp_and (hI.valid env s h.1) (hJ.valid env s h.2)
  held s i h hi hh := ⟨hI.held s i h.1 hi hh, hJ.held s i h.2 hi hh⟩
  bring s i j h hi hj hij h1 h2 h3 := by
    have a := hI.bring s i j h.1 hi hj hij h1 h2 h3
    have b := hJ.bring s i j h.2 hi hj hij h1 h2 h3
    split at a <;> rename_i hc
    · rw [if_pos hc] at b ⊢; exact ⟨a, b⟩
    · rw [if_neg hc] at b ⊢; exact ⟨a, b⟩
  nodeUp s n h hn hh := ⟨hI.nodeUp s n h.1 hn hh, hJ.nodeUp s n h.2 hn hh⟩
  nodeHeld s n h hn hh := ⟨hI.nodeHeld s n h.1 hn hh, hJ.nodeHeld s n h.2 hn hh⟩
  fell s F N h hF hN := ⟨hI.fell s F N h.1 hF hN, hJ.fell s F N h.2 hF hN⟩
  srlgUp s g h hg := ⟨hI.srlgUp s g h.1 hg, hJ.srlgUp s g h.2 hg⟩
  srlgDown s g h hg := ⟨hI.srlgDown s g h.1 hg, hJ.srlgDown s g h.2 hg⟩

theorem baseInv : FailInv Base := matchInv.and (endsInv.and downInv)

/-- from `w` to `t` objects only come up; memberships and SRLG states are unchanged -/
structure Climb (w t : State) : Prop where
  net : SameNet w t
  ifcSrlgs : ∀ i, (t.ifc i).srlgs = (w.ifc i).srlgs
  nodeSrlgs : ∀ n, (t.node n).srlgs = (w.node n).srlgs
  srlg : t.srlg = w.srlg
  up : ∀ i ∈ w.ifs, (w.ifc i).failed = false → (t.ifc i).failed = false
  nup : ∀ n ∈ w.nodes, (w.node n).failed = false → (t.node n).failed = false

theorem Climb.refl (w : State) : Climb w w :=
  ⟨SameNet.frame.refl w, fun _ => rfl, fun _ => rfl, rfl, fun _ _ h => h, fun _ _ h => h⟩

theorem Climb.trans {w t u : State} (h : Climb w t) (g : Climb t u) : Climb w u where
  net := SameNet.frame.trans h.net g.net
  ifcSrlgs i := (g.ifcSrlgs i).trans (h.ifcSrlgs i)
  nodeSrlgs i := (g.nodeSrlgs i).trans (h.nodeSrlgs i)
  srlg := g.srlg.trans h.srlg
  up i hi hf := g.up i (by rw [h.net.ifs]; exact hi) (h.up i hi hf)
  nup i hi hf := g.nup i (by rw [h.net.nodes]; exact hi) (h.nup i hi hf)

theorem Climb.ifcHeld {w t : State} (h : Climb w t) (i : ℕ) : t.ifcHeld i = w.ifcHeld i := by
  unfold State.ifcHeld
  rw [h.ifcSrlgs, h.srlg]

theorem Climb.nodeHeld {w t : State} (h : Climb w t) (i : ℕ) : t.nodeHeld i = w.nodeHeld i := by
  unfold State.nodeHeld
  rw [h.nodeSrlgs, h.srlg]

theorem climb_setReserved (s : State) (i : ℕ) : Climb s (s.setReserved i 0) where
  net := setReserved_net s i 0
  ifcSrlgs k := updIfc_field s i k _ (·.srlgs) fun _ => rfl
  nodeSrlgs _ := rfl
  srlg := rfl
  up k _ hf := by
    have := updIfc_field s i k (fun x => { x with reservedRaw := 0 }) (·.failed) fun _ => rfl
    change ((s.setReserved i 0).ifc k).failed = _ at this
    rw [this]; exact hf
  nup _ _ h := h

theorem climb_checked {s t : State} (he : EndsAgree s) (h : Checked s t) : Climb s t where
  net := h.sameNet
  ifcSrlgs := h.srlg.2.2.2.1
  nodeSrlgs n := by rw [h.srlg.2.1]
  srlg := h.srlg.1
  up i _ hf := by rw [h.failed he]; exact hf
  nup n _ hf := by rw [h.srlg.2.1]; exact hf

theorem climb_held {s : State} (hd : MemberIfcsDown s) {i : ℕ} (hi : i ∈ s.ifs)
    (hh : s.ifcHeld i = true) : Climb s (s.downIfc i) where
  net := downIfc_net s i
  ifcSrlgs := downIfc_srlgs s i
  nodeSrlgs _ := rfl
  srlg := rfl
  up k hk hf := by
    rw [downIfc_failed]
    split
    · next e =>
      subst e
      obtain ⟨g, hg, hgf⟩ := ifcHeld_iff.1 hh
      rw [hd k hi g hg hgf] at hf
      cases hf
    · exact hf
  nup _ _ h := h

theorem climb_upIfc (s : State) (i : ℕ) : Climb s (s.upIfc i) where
  net := upIfc_net s i
  ifcSrlgs := upIfc_srlgs s i
  nodeSrlgs _ := rfl
  srlg := rfl
  up k hk hf := by
    rw [upIfc_failed]
    split
    · rfl
    · exact hf
  nup _ _ h := h

theorem climb_upNode (s : State) (i : ℕ) : Climb s (s.upNode i) where
  net := upNode_net s i
  ifcSrlgs _ := rfl
  nodeSrlgs := upNode_srlgs s i
  srlg := rfl
  up k hk hf := hf
  nup k hk hf := by
    rw [upNode_failed]
    split
    · rfl
    · exact hf

theorem climbIfcs (w : State) : UpInv (fun t => Base t ∧ Climb w t ∧ t.node = w.node) where
  wired s h := h.1.1.1
  zero s i h hi := ⟨baseInv.zero s i h.1 hi, h.2.1.trans (climb_setReserved s i), h.2.2⟩
  valid env s h := by
    have a := wp_and (baseInv.valid env s h.1) (validate_checked env h.1.1.1.ids)
    refine wp_mono a ?_ ?_
    all_goals
      rintro _ t ⟨hb, hc⟩
      exact ⟨hb, h.2.1.trans (climb_checked h.1.2.1.2.1 hc), hc.srlg.2.1.trans h.2.2⟩
  held s i h hi hh := ⟨baseInv.held s i h.1 hi hh, h.2.1.trans (climb_held h.1.2.2.2.2 hi hh), h.2.2⟩
  bring s i j h hi hj hij h1 h2 h3 := by
    have hb := baseInv.bring s i j h.1 hi hj hij h1 h2 h3
    have hh := ifcHeld_opposite h.1.1.2.2.1 hi hj hij
    rw [h3] at hh
    rw [if_neg (by simp [← hh])] at hb ⊢
    exact ⟨hb, h.2.1.trans ((climb_upIfc s i).trans (climb_upIfc _ j)), h.2.2⟩

theorem climbAll (w : State) : NodeUpInv (fun t => Base t ∧ Climb w t) where
  wired s h := h.1.1.1
  zero s i h hi := ⟨baseInv.zero s i h.1 hi, h.2.trans (climb_setReserved s i)⟩
  valid env s h := by
    have a := wp_and (baseInv.valid env s h.1) (validate_checked env h.1.1.1.ids)
    refine wp_mono a ?_ ?_
    all_goals
      rintro _ t ⟨hb, hc⟩
      exact ⟨hb, h.2.trans (climb_checked h.1.2.1.2.1 hc)⟩
  held s i h hi hh := ⟨baseInv.held s i h.1 hi hh, h.2.trans (climb_held h.1.2.2.2.2 hi hh)⟩
  bring s i j h hi hj hij h1 h2 h3 := by
    have hb := baseInv.bring s i j h.1 hi hj hij h1 h2 h3
    have hh := ifcHeld_opposite h.1.1.2.2.1 hi hj hij
    rw [h3] at hh
    rw [if_neg (by simp [← hh])] at hb ⊢
    exact ⟨hb, h.2.trans ((climb_upIfc s i).trans (climb_upIfc _ j))⟩
  nodeUp s n h hn hh := ⟨baseInv.nodeUp s n h.1 hn hh, h.2.trans (climb_upNode s n)⟩
  nodeHeld s n h hn hh := by
    refine ⟨baseInv.nodeHeld s n h.1 hn hh, ?_⟩
    obtain ⟨g, hg, hf⟩ := nodeHeld_iff.1 hh
    rw [downNode_self (h.1.2.2.2.1 n hn g hg hf)]
    exact h.2

theorem wp_ignoreModelExn {x : Py Unit} {P : State → Prop} {s : State}
    (h : wp x (fun _ t => P t) (fun _ t => P t) s) :
    wp (ignoreModelExn x) (fun _ t => P t) (fun _ t => P t) s := by
  unfold wp ignoreModelExn pyTry at *
  cases hx : x s with
  | ok a t => simp only [hx] at h ⊢; exact h
  | error e t =>
    simp only [hx] at h ⊢
    cases e <;> exact h

/-- an interface that nothing holds down is brought up -/
theorem unfailInterface_up (env : Env) (e : Bool) {s : State} (h : Base s) {i : ℕ} (hi : i ∈ s.ifs)
    (h1 : (s.node (s.ifc i).node).failed = false) (h2 : (s.node (s.ifc i).remote).failed = false)
    (h3 : s.ifcHeld i = false) :
    wp (unfailInterface env (s.ifc i).name (s.tail i) e) (fun _ t => (t.ifc i).failed = false)
      (fun _ t => (t.ifc i).failed = false) s := by
  have hw := h.1.1
  obtain ⟨r, hr, hir⟩ := hw.twin i hi
  have hrem := remote_eq h.1.2.1 hi hr hir
  unfold wp
  rw [unfailInterface_eq env _ _ e hw (getIfc_eq hw hi) hrem, if_pos ⟨h1, h2⟩]
  change wp (do bringUp r i; NTM.validate env) (fun _ t => (t.ifc i).failed = false)
    (fun _ t => (t.ifc i).failed = false) s
  have e1 : (s.ifc r).node = (s.ifc i).remote :=
    hw.node_inj (hw.ends r hr).1 (hw.ends i hi).2 hir.2.1.symm
  have e2 : (s.ifc r).remote = (s.ifc i).node :=
    hw.node_inj (hw.ends r hr).2 (hw.ends i hi).1 hir.1.symm
  have u1 : (s.node (s.ifc r).node).failed = false := by rw [e1]; exact h2
  have u2 : (s.node (s.ifc r).remote).failed = false := by rw [e2]; exact h1
  have hh := ifcHeld_opposite h.1.2.2.1 hi hr hir
  rw [wp_bind]
  refine wp_mono (bringUp_spec hw hr hi (opposite_symm hir) u1 u2) ?_ ?_
  · rintro _ t ⟨k1, k2, rfl⟩
    rw [bring_up]
    set t := (((s.upIfc r).upIfc i).setReserved r 0).setReserved i 0 with ht
    have hb : Base t := by
      have := baseInv.bring s r i h hr hi (opposite_symm hir) u1 u2 k1
      rw [if_neg (by simp [k2])] at this
      exact baseInv.zero _ _ (baseInv.zero _ _ this hr) hi
    have hup : (t.ifc i).failed = false := by
      have c := (climb_setReserved ((s.upIfc r).upIfc i) r).trans (climb_setReserved _ i)
      exact c.up i hi (by rw [upIfc_failed, if_pos rfl])
    refine wp_mono (validate_checked env hb.1.1.ids) ?_ ?_
    all_goals
      rintro _ u hu
      rw [hu.failed hb.2.1.2.1]
      exact hup
  · rintro _ t (⟨k1, -⟩ | ⟨-, k2, -⟩)
    · rw [← hh, h3] at k1; cases k1
    · rw [h3] at k2; cases k2

/-- a node that nothing holds down is brought up -/
theorem unfailNode_up (env : Env) {s : State} (h : Base s) {n : ℕ} (hn : n ∈ s.nodes)
    (hh : s.nodeHeld n = false) :
    wp (unfailNode env (s.node n).name) (fun _ t => (t.node n).failed = false)
      (fun _ t => (t.node n).failed = false) s := by
  unfold unfailNode
  simp only [wp_bind, wp_get, wp_liftE, getNode_eq h.1.1 hn]
  rw [wp_ok (show setNodeFailed n false s = .ok () (s.upNode n) by
    rw [setNodeFailed_false, if_neg (by simp [hh])])]
  have hb := baseInv.nodeUp s n h hn hh
  have hI := climbIfcs (s.upNode n)
  have hup : ∀ t, (Base t ∧ Climb (s.upNode n) t ∧ t.node = (s.upNode n).node) →
      (t.node n).failed = false := by
    rintro t ⟨-, -, e⟩
    rw [e, upNode_failed, if_pos rfl]
  refine wp_mono (Stays.forEach (I := fun t => Base t ∧ Climb (s.upNode n) t ∧
    t.node = (s.upNode n).node) _ _ (fun i _ => ?_) _ ⟨hb, Climb.refl _, rfl⟩)
    (fun _ t h => hup t h) (fun _ t h => hup t h)
  refine Stays.bind Stays.get fun u => Stays.ite ?_ (Stays.pure ())
  refine Stays.bind (hI.unfailInterface env _ _ _) fun _ => Stays.bind Stays.get fun v => ?_
  exact Stays.bind (Stays.liftE _) fun r => hI.unfailInterface env _ _ _

theorem unfailSrlg_spec (env : Env) {s : State} (h : Base s) {g : ℕ} (hg : g ∈ s.srlgs) :
    wp (unfailSrlg env (s.srlg g).name) (fun _ t => Base t ∧ Climb (s.setSrlg g false) t ∧
        (∀ n ∈ s.nodes, g ∈ (s.node n).srlgs → (s.setSrlg g false).nodeHeld n = false →
          (t.node n).failed = false) ∧
        (∀ i ∈ s.ifs, g ∈ (s.ifc i).srlgs → (s.setSrlg g false).ifcHeld i = false →
          (t.node (s.ifc i).node).failed = false → (t.node (s.ifc i).remote).failed = false →
          (t.ifc i).failed = false)) (fun _ t => Base t ∧ Climb (s.setSrlg g false) t) s := by
  unfold unfailSrlg
  simp only [wp_bind, wp_get, wp_liftE, getSrlg_eq h.1.1 hg, wp_modify]
  change wp (forEach s.nodes _) _ _ (s.setSrlg g false)
  set w := s.setSrlg g false with hwdef
  have hbw : Base w := baseInv.srlgUp s g h hg
  refine wp_mono (wp_forEach_idx (s := w)
    (I := fun done t => Base t ∧ Climb w t ∧ ∀ n ∈ done, g ∈ (s.node n).srlgs →
      w.nodeHeld n = false → (t.node n).failed = false)
    (E := fun _ t => Base t ∧ Climb w t) _ s.nodes [] ?_
    ⟨hbw, Climb.refl w, by simp⟩) ?_ (fun _ _ h => h)
  · rintro pre n post he t ⟨hb, hc, hup⟩
    have hns : n ∈ s.nodes := by rw [he]; simp
    have hnt : n ∈ t.nodes := by rw [hc.net.nodes]; exact hns
    have hpre : ∀ m ∈ pre, m ∈ t.nodes := by
      intro m hm
      rw [hc.net.nodes]
      change m ∈ s.nodes
      rw [he]; simp [hm]
    rw [wp_bind, wp_get]
    refine wp_ite (fun hm => ?_) (fun hm => ?_)
    · have hmem : g ∈ (t.node n).srlgs := (memNode_iff hb.1.1 hnt).1 hm
      have hstay : wp (unfailNode env (t.node n).name) (fun _ u => Base u ∧ Climb t u)
          (fun _ u => Base u ∧ Climb t u) t :=
        (climbAll t).unfailNode env _ t ⟨hb, Climb.refl t⟩
      have hthis : wp (unfailNode env (t.node n).name)
          (fun _ u => (Base u ∧ Climb t u) ∧ (t.nodeHeld n = false → (u.node n).failed = false))
          (fun _ u => (Base u ∧ Climb t u) ∧ (t.nodeHeld n = false → (u.node n).failed = false)) t := by
        refine wp_and hstay ?_
        cases hh : t.nodeHeld n with
        | true =>
          exact wp_mono (wp_trivial _) (fun _ _ _ => by simp) (fun _ _ _ => by simp)
        | false =>
          exact wp_mono (unfailNode_up env hb hnt hh) (fun _ _ h _ => h) (fun _ _ h _ => h)
      refine wp_mono (wp_ignoreModelExn hthis) ?_ ?_
      · rintro _ u ⟨⟨hbu, hcu⟩, hu⟩
        refine ⟨hbu, hc.trans hcu, ?_⟩
        intro m hm' hgm hheld
        simp only [List.nil_append, List.mem_append, List.mem_singleton] at hm'
        rcases hm' with hm' | rfl
        · exact hcu.nup m (hpre m hm') (hup m (by simpa using hm') hgm hheld)
        · exact hu (by rw [hc.nodeHeld]; exact hheld)
      · rintro _ u ⟨⟨hbu, hcu⟩, -⟩
        exact ⟨hbu, hc.trans hcu⟩
    · refine ⟨hb, hc, ?_⟩
      intro m hm' hgm hheld
      simp only [List.nil_append, List.mem_append, List.mem_singleton] at hm'
      rcases hm' with hm' | rfl
      · exact hup m (by simpa using hm') hgm hheld
      · refine absurd ((memNode_iff hb.1.1 hnt).2 ?_) hm
        rw [hc.nodeSrlgs]; exact hgm
  · rintro _ v ⟨hbv, hcv, hupv⟩
    rw [List.nil_append] at hupv
    refine wp_mono (wp_forEach_idx (s := v)
      (I := fun done t => (Base t ∧ Climb v t ∧ t.node = v.node) ∧
        ∀ i ∈ done, g ∈ (s.ifc i).srlgs → w.ifcHeld i = false →
          (v.node (s.ifc i).node).failed = false → (v.node (s.ifc i).remote).failed = false →
          (t.ifc i).failed = false)
      (E := fun _ t => Base t ∧ Climb v t ∧ t.node = v.node) _ s.ifs [] ?_
      ⟨⟨hbv, Climb.refl v, rfl⟩, by simp⟩) ?_ ?_
    · rintro pre i post he t ⟨⟨hb, hc, hnode⟩, hup⟩
      have his : i ∈ s.ifs := by rw [he]; simp
      have hwt := hcv.trans hc
      have hit : i ∈ t.ifs := by rw [hwt.net.ifs]; exact his
      have hpre : ∀ m ∈ pre, m ∈ t.ifs := by
        intro m hm
        rw [hwt.net.ifs]
        change m ∈ s.ifs
        rw [he]; simp [hm]
      rw [wp_bind, wp_get]
      refine wp_ite (fun hm => ?_) (fun hm => ?_)
      · have hstay : wp (unfailInterface env (t.ifc i).name (t.tail i) false)
            (fun _ u => Base u ∧ Climb t u ∧ u.node = t.node)
            (fun _ u => Base u ∧ Climb t u ∧ u.node = t.node) t :=
          (climbIfcs t).unfailInterface env _ _ _ t ⟨hb, Climb.refl t, rfl⟩
        have hthis : wp (unfailInterface env (t.ifc i).name (t.tail i) false)
            (fun _ u => (Base u ∧ Climb t u ∧ u.node = t.node) ∧ (t.ifcHeld i = false →
              (t.node (t.ifc i).node).failed = false → (t.node (t.ifc i).remote).failed = false →
              (u.ifc i).failed = false))
            (fun _ u => (Base u ∧ Climb t u ∧ u.node = t.node) ∧ (t.ifcHeld i = false →
              (t.node (t.ifc i).node).failed = false → (t.node (t.ifc i).remote).failed = false →
              (u.ifc i).failed = false)) t := by
          refine wp_and hstay ?_
          by_cases hh : t.ifcHeld i = false ∧ (t.node (t.ifc i).node).failed = false ∧
              (t.node (t.ifc i).remote).failed = false
          · exact wp_mono (unfailInterface_up env false hb hit hh.2.1 hh.2.2 hh.1)
              (fun _ _ h _ _ _ => h) (fun _ _ h _ _ _ => h)
          · exact wp_mono (wp_trivial _) (fun _ _ _ a b c => absurd ⟨a, b, c⟩ hh)
              (fun _ _ _ a b c => absurd ⟨a, b, c⟩ hh)
        refine wp_mono (wp_ignoreModelExn hthis) ?_ ?_
        · rintro _ u ⟨⟨hbu, hcu, hnu⟩, hu⟩
          refine ⟨⟨hbu, hc.trans hcu, hnu.trans hnode⟩, ?_⟩
          intro m hm' hgm hheld hn1 hn2
          simp only [List.nil_append, List.mem_append, List.mem_singleton] at hm'
          rcases hm' with hm' | rfl
          · exact hcu.up m (hpre m hm') (hup m (by simpa using hm') hgm hheld hn1 hn2)
          · refine hu (by rw [hwt.ifcHeld]; exact hheld) ?_ ?_
            · rw [hnode, hwt.net.node]; exact hn1
            · rw [hnode, hwt.net.remote]; exact hn2
        · rintro _ u ⟨⟨hbu, hcu, hnu⟩, -⟩
          exact ⟨hbu, hc.trans hcu, hnu.trans hnode⟩
      · refine ⟨⟨hb, hc, hnode⟩, ?_⟩
        intro m hm' hgm hheld hn1 hn2
        simp only [List.nil_append, List.mem_append, List.mem_singleton] at hm'
        rcases hm' with hm' | rfl
        · exact hup m (by simpa using hm') hgm hheld hn1 hn2
        · refine absurd ((memSrlg_iff hb.1.1 hit).2 ?_) hm
          rw [hwt.ifcSrlgs]; exact hgm
    · rintro _ t ⟨⟨hb, hc, hnode⟩, hup⟩
      rw [List.nil_append] at hup
      refine ⟨hb, hcv.trans hc, ?_, ?_⟩
      · intro n hn hgn hheld
        rw [hnode]; exact hupv n hn hgn hheld
      · intro i hi hgi hheld hn1 hn2
        rw [hnode] at hn1 hn2
        exact hup i hi hgi hheld hn1 hn2
    · rintro _ t ⟨hb, hc, -⟩
      exact ⟨hb, hcv.trans hc⟩

end NTM
