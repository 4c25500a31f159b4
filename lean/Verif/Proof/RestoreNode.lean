import Verif.Proof.Restore

/-!
# What `unfail_node` restores
-/

namespace NTM

open Spec

/-- a call to restore interface `i` leaves interface `k` alone: it has nothing to do, or `k` is
neither `i` nor its remote interface -/
def Spared (s : State) (i k : ℕ) : Prop :=
  (s.node (s.ifc i).node).failed = false → (s.node (s.ifc i).remote).failed = false →
    k ≠ i ∧ ¬ Opposite s i k

/-- what `unfail_interface` does to the status of the interfaces: if both ends are up and the call
returns, the interface is up; and only the interface and its remote interface are touched -/
theorem unfailInterface_only (env : Env) (e : Bool) {s : State} (h : Base s) {i : ℕ}
    (hi : i ∈ s.ifs) :
    wp (unfailInterface env (s.ifc i).name (s.tail i) e)
      (fun _ t => ((s.node (s.ifc i).node).failed = false →
          (s.node (s.ifc i).remote).failed = false → (t.ifc i).failed = false) ∧
        ∀ k ∈ s.ifs, Spared s i k → (t.ifc k).failed = (s.ifc k).failed)
      (fun _ t => ∀ k ∈ s.ifs, Spared s i k → (t.ifc k).failed = (s.ifc k).failed)
      s := by
  have hw := h.1.1
  obtain ⟨r, hr, hir⟩ := hw.twin i hi
  have hrem := remote_eq h.1.2.1 hi hr hir
  unfold wp
  rw [unfailInterface_eq env _ _ e hw (getIfc_eq hw hi) hrem]
  by_cases hup : (s.node (s.ifc i).node).failed = false ∧ (s.node (s.ifc i).remote).failed = false
  · rw [if_pos hup]
    obtain ⟨h1, h2⟩ := hup
    change wp (do bringUp r i; NTM.validate env) _ _ s
    have e1 : (s.ifc r).node = (s.ifc i).remote :=
      hw.node_inj (hw.ends r hr).1 (hw.ends i hi).2 hir.2.1.symm
    have e2 : (s.ifc r).remote = (s.ifc i).node :=
      hw.node_inj (hw.ends r hr).2 (hw.ends i hi).1 hir.1.symm
    have u1 : (s.node (s.ifc r).node).failed = false := by rw [e1]; exact h2
    have u2 : (s.node (s.ifc r).remote).failed = false := by rw [e2]; exact h1
    have hne : ∀ k, ¬ Opposite s i k → k ≠ r := by rintro k hk rfl; exact hk hir
    rw [wp_bind]
    refine wp_mono (bringUp_spec hw hr hi (opposite_symm hir) u1 u2) ?_ ?_
    · rintro _ t ⟨k1, k2, rfl⟩
      rw [bring_up]
      set t := (((s.upIfc r).upIfc i).setReserved r 0).setReserved i 0 with ht
      have hb : Base t := by
        have := baseInv.bring s r i h hr hi (opposite_symm hir) u1 u2 k1
        rw [if_neg (by simp [k2])] at this
        exact baseInv.zero _ _ (baseInv.zero _ _ this hr) hi
      have hfl : ∀ k, (t.ifc k).failed = (((s.upIfc r).upIfc i).ifc k).failed := by
        intro k
        have a := updIfc_field ((s.upIfc r).upIfc i) r k (fun x => { x with reservedRaw := 0 })
          (·.failed) fun _ => rfl
        have b := updIfc_field (((s.upIfc r).upIfc i).setReserved r 0) i k
          (fun x => { x with reservedRaw := 0 }) (·.failed) fun _ => rfl
        exact b.trans a
      refine wp_mono (validate_checked env hb.1.1.ids) ?_ ?_
      · rintro _ u hu
        refine ⟨fun _ _ => ?_, fun k _ hsp => ?_⟩
        · rw [hu.failed hb.2.1.2.1, hfl, upIfc_failed, if_pos rfl]
        · obtain ⟨hki, hko⟩ := hsp h1 h2
          rw [hu.failed hb.2.1.2.1, hfl, upIfc_failed, if_neg hki, upIfc_failed,
            if_neg (hne k hko)]
      · rintro _ u hu k _ hsp
        obtain ⟨hki, hko⟩ := hsp h1 h2
        rw [hu.failed hb.2.1.2.1, hfl, upIfc_failed, if_neg hki, upIfc_failed, if_neg (hne k hko)]
    · rintro _ t (⟨-, rfl⟩ | ⟨-, -, rfl⟩) k _ hsp <;> obtain ⟨hki, hko⟩ := hsp h1 h2
      · rw [downIfc_failed, if_neg (hne k hko)]
      · rw [downIfc_failed, if_neg hki]
        refine (updIfc_field (s.upIfc r) r k (fun x => { x with reservedRaw := 0 })
          (·.failed) fun _ => rfl).trans ?_
        rw [upIfc_failed, if_neg (hne k hko)]
  · rw [if_neg hup]
    cases e with
    | true => exact fun _ _ _ => rfl
    | false => exact ⟨fun a b => absurd ⟨a, b⟩ hup, fun _ _ _ => rfl⟩

/-- the interface `k` neither starts nor ends at the node `n`, or one of its ends is failed and is
not `n` -/
def Away (s : State) (n : ℕ) (k : ℕ) : Prop :=
  ((s.ifc k).node ≠ n ∧ (s.ifc k).remote ≠ n) ∨
    ((s.ifc k).node ≠ n ∧ (s.node (s.ifc k).node).failed = true) ∨
    ((s.ifc k).remote ≠ n ∧ (s.node (s.ifc k).remote).failed = true)

theorem unfailNode_spec (env : Env) {s : State} (h : Base s) {n : ℕ} (hn : n ∈ s.nodes)
    (hh : s.nodeHeld n = false) :
    wp (unfailNode env (s.node n).name) (fun _ t => Base t ∧ Climb (s.upNode n) t ∧
        t.node = (s.upNode n).node ∧
        (∀ k ∈ s.ifs, Away s n k → (t.ifc k).failed = (s.ifc k).failed) ∧
        ∀ i ∈ s.ifs, s.tail i = (s.node n).name → (t.node (s.ifc i).remote).failed = false →
          (t.ifc i).failed = false)
      (fun _ t => Base t ∧ Climb (s.upNode n) t ∧ t.node = (s.upNode n).node ∧
        ∀ k ∈ s.ifs, Away s n k → (t.ifc k).failed = (s.ifc k).failed) s := by
  unfold unfailNode
  simp only [wp_bind, wp_get, wp_liftE, getNode_eq h.1.1 hn]
  rw [wp_ok (show setNodeFailed n false s = .ok () (s.upNode n) by
    rw [setNodeFailed_false, if_neg (by simp [hh])])]
  have hb := baseInv.nodeUp s n h hn hh
  set w := s.upNode n with hwdef
  set nm := (s.node n).name with hnm
  have hI := climbIfcs w
  have wnet : SameNet s w := upNode_net s n
  have tailw : ∀ k, w.tail k = s.tail k := wnet.tail
  have headw : ∀ k, w.head k = s.head k := wnet.head
  have upn : (w.node n).failed = false := by rw [hwdef, upNode_failed, if_pos rfl]
  let G : State → Prop := fun t => (Base t ∧ Climb w t ∧ t.node = w.node) ∧
    ∀ k ∈ s.ifs, Away s n k → (t.ifc k).failed = (s.ifc k).failed
  -- one call to `unfail_interface` on an interface at the node or facing it
  have hone : ∀ t, G t → ∀ i ∈ s.ifs, ((s.ifc i).node = n ∨ (s.ifc i).remote = n) →
      wp (unfailInterface env (t.ifc i).name (t.tail i) false)
        (fun _ u => G u ∧ Climb t u ∧ ((t.node (t.ifc i).node).failed = false →
          (t.node (t.ifc i).remote).failed = false → (u.ifc i).failed = false))
        (fun _ u => G u) t := by
    rintro t ⟨⟨hbt, hct, hnt⟩, haw⟩ i hi hia
    have hnet : SameNet s t := SameNet.frame.trans wnet hct.net
    have hit : i ∈ t.ifs := by rw [hnet.ifs]; exact hi
    have a := (climbIfcs t).unfailInterface env (t.ifc i).name (t.tail i) false t
      ⟨hbt, Climb.refl t, rfl⟩
    have b := unfailInterface_only env false hbt hit
    have off : ∀ k ∈ s.ifs, Away s n k → Spared t i k := by
      intro k hk hka f1 f2
      have nd : ∀ m, m ≠ n → (t.node m).failed = (s.node m).failed := by
        intro m hm
        rw [hnt, hwdef, upNode_failed, if_neg hm]
      rw [hnet.node] at f1
      rw [hnet.remote] at f2
      have main : ((s.ifc k).node = (s.ifc i).node ∧ (s.ifc k).remote = (s.ifc i).remote) ∨
          ((s.ifc k).node = (s.ifc i).remote ∧ (s.ifc k).remote = (s.ifc i).node) → False := by
        intro hc
        rcases hka with ⟨n1, n2⟩ | ⟨n1, d1⟩ | ⟨n2, d2⟩
        · rcases hc with ⟨c1, c2⟩ | ⟨c1, c2⟩ <;> rw [c1] at n1 <;> rw [c2] at n2 <;> tauto
        · rw [← nd _ n1] at d1
          rcases hc with ⟨c1, c2⟩ | ⟨c1, c2⟩ <;> rw [c1] at d1 <;> simp_all
        · rw [← nd _ n2] at d2
          rcases hc with ⟨c1, c2⟩ | ⟨c1, c2⟩ <;> rw [c2] at d2 <;> simp_all
      refine ⟨by rintro rfl; exact main (.inl ⟨rfl, rfl⟩), ?_⟩
      rintro ⟨o1, o2, -⟩
      rw [hnet.tail, hnet.head] at o1
      rw [hnet.tail, hnet.head] at o2
      exact main (.inr ⟨h.1.1.node_inj (h.1.1.ends k hk).1 (h.1.1.ends i hi).2 o2.symm,
        h.1.1.node_inj (h.1.1.ends k hk).2 (h.1.1.ends i hi).1 o1.symm⟩)
    refine wp_mono (wp_and a b) ?_ ?_
    · rintro _ u ⟨⟨hbu, hcu, hnu⟩, hup, hfr⟩
      refine ⟨⟨⟨hbu, hct.trans hcu, hnu.trans hnt⟩, fun k hk hka => ?_⟩, hcu, hup⟩
      rw [hfr k (by rw [hnet.ifs]; exact hk) (off k hk hka)]
      exact haw k hk hka
    · rintro _ u ⟨⟨hbu, hcu, hnu⟩, hfr⟩
      refine ⟨⟨hbu, hct.trans hcu, hnu.trans hnt⟩, fun k hk hka => ?_⟩
      rw [hfr k (by rw [hnet.ifs]; exact hk) (off k hk hka)]
      exact haw k hk hka
  have hon : ∀ i, i ∈ w.ifcsOn nm ↔ i ∈ s.ifs ∧ s.tail i = nm := by
    intro i
    unfold State.ifcsOn
    rw [List.mem_filter, wnet.ifs]
    simp only [tailw, decide_eq_true_eq]
  refine wp_mono (wp_forEach_idx (s := w)
    (I := fun done t => G t ∧ ∀ i ∈ done, (w.node (s.ifc i).remote).failed = false →
      (t.ifc i).failed = false) (E := fun _ t => G t) _ (w.ifcsOn nm) [] ?_
      ⟨⟨⟨hb, Climb.refl w, rfl⟩, fun _ _ _ => rfl⟩, by simp⟩) ?_ ?_
  · rintro pre i post he t ⟨hG, hup⟩
    obtain ⟨hi, hti⟩ := (hon i).1 (by rw [he]; simp)
    have hnet : SameNet s t := SameNet.frame.trans wnet hG.1.2.1.net
    have hnode : (t.ifc i).node = (s.ifc i).node := hnet.node i
    have hrem : (t.ifc i).remote = (s.ifc i).remote := hnet.remote i
    have hni : (s.ifc i).node = n := h.1.1.node_inj (h.1.1.ends i hi).1 hn hti
    have hpre : ∀ j ∈ pre, j ∈ s.ifs := fun j hj => ((hon j).1 (by rw [he]; simp [hj])).1
    rw [wp_bind, wp_get]
    refine wp_ite (fun hr => ?_) (fun hr => ?_)
    · rw [wp_bind]
      have ht1 := hone t hG i hi (.inl hni)
      rw [hnet.tail, hti] at ht1
      refine wp_mono ht1 ?_ (fun _ _ h => h)
      rintro _ u ⟨hGu, hcu, hupu⟩
      have hneu : SameNet s u := SameNet.frame.trans wnet hGu.1.2.1.net
      rw [wp_bind, wp_get, wp_bind, wp_liftE]
      cases hx : u.remoteIfc i with
      | error e => exact hGu
      | ok r =>
        have hiu : i ∈ u.ifs := by rw [hneu.ifs]; exact hi
        obtain ⟨hru, hopp, -⟩ := remote_opposite hiu hx
        have hrs : r ∈ s.ifs := by rw [← hneu.ifs]; exact hru
        have hrn : (s.ifc r).remote = n := by
          refine h.1.1.node_inj (h.1.1.ends r hrs).2 hn ?_
          change s.head r = nm
          rw [← hneu.head, ← hopp.1, hneu.tail, hti]
        refine wp_mono (hone u hGu r hrs (.inr hrn)) ?_ (fun _ _ h => h)
        · rintro _ v ⟨hGv, hcv, -⟩
          refine ⟨hGv, fun j hj hjr => ?_⟩
          simp only [List.nil_append, List.mem_append, List.mem_singleton] at hj
          rcases hj with hj | rfl
          · refine hcv.up j (by rw [hneu.ifs]; exact hpre j hj) (hcu.up j ?_ ?_)
            · rw [hnet.ifs]; exact hpre j hj
            · exact hup j (by simpa using hj) hjr
          · refine hcv.up j (by rw [hneu.ifs]; exact hi) (hupu ?_ ?_)
            · rw [hnode, hni, hG.1.2.2]; exact upn
            · rw [hrem, hG.1.2.2]; exact hjr
    · refine ⟨hG, fun j hj hjr => ?_⟩
      simp only [List.nil_append, List.mem_append, List.mem_singleton] at hj
      rcases hj with hj | rfl
      · exact hup j (by simpa using hj) hjr
      · rw [hrem, hG.1.2.2] at hr
        exact absurd hjr hr
  · rintro _ t ⟨⟨⟨h1, h2, h3⟩, h4⟩, h5⟩
    refine ⟨h1, h2, h3, h4, fun i hi hti hr => ?_⟩
    refine h5 i ?_ (by rw [← h3]; exact hr)
    rw [List.nil_append]
    exact (hon i).2 ⟨hi, hti⟩
  · rintro _ t ⟨⟨h1, h2, h3⟩, h4⟩
    exact ⟨h1, h2, h3, h4⟩

end NTM
