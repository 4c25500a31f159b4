import Verif.Proof.Membership
import Verif.Proof.Rounding

/-!
# SRLG membership stays symmetric across circuits
-/

namespace NTM

open Spec

/-- the reservations of `t` are those of `s`, or zero -/
def Looser (s t : State) : Prop :=
  ∀ i, (t.ifc i).capacity = (s.ifc i).capacity ∧ (t.ifc i).pct = (s.ifc i).pct ∧
    (t.ifc i).rsvpEnabled = (s.ifc i).rsvpEnabled ∧
    ((t.ifc i).reservedRaw = (s.ifc i).reservedRaw ∨ (t.ifc i).reservedRaw = 0)

theorem Looser.refl (s : State) : Looser s s := fun _ => ⟨rfl, rfl, rfl, .inl rfl⟩

theorem Looser.trans {s t u : State} (h : Looser s t) (g : Looser t u) : Looser s u := by
  intro i
  obtain ⟨h1, h2, h3, h4⟩ := h i
  obtain ⟨g1, g2, g3, g4⟩ := g i
  refine ⟨g1.trans h1, g2.trans h2, g3.trans h3, ?_⟩
  rcases g4 with g4 | g4
  · rw [g4]; exact h4
  · exact .inr g4

theorem ready_congr {s t : State} (h : RsvpReady s) (hi : t.ifs = s.ifs) (hl : Looser s t) :
    RsvpReady t := by
  intro i him
  rw [hi] at him
  obtain ⟨h1, h2⟩ := h i him
  obtain ⟨l1, l2, l3, l4⟩ := hl i
  refine ⟨by rw [l1, l2]; exact h1, ?_⟩
  have hen : (s.ifc i).rsvpEnabled = true := by
    by_contra hc
    unfold State.reservable at h2
    rw [if_neg hc] at h2
    norm_num at h2
  unfold State.reservable State.reservedBw at *
  rw [if_pos hen] at h2
  rw [if_pos (l3.trans hen), l1, l2]
  rcases l4 with l4 | l4
  · rw [l4]; exact h2
  · rw [l4, pyRound_zero, sub_zero]
    exact pyRound_nonneg 1 h1

theorem looser_updIfc (s : State) (i : ℕ) (f : Ifc → Ifc)
    (hf : ∀ x, (f x).capacity = x.capacity ∧ (f x).pct = x.pct ∧ (f x).rsvpEnabled = x.rsvpEnabled ∧
      ((f x).reservedRaw = x.reservedRaw ∨ (f x).reservedRaw = 0)) : Looser s (s.updIfc i f) := by
  intro k
  unfold State.updIfc
  simp only []
  split
  · exact hf _
  · exact ⟨rfl, rfl, rfl, .inl rfl⟩

theorem looser_fell (s : State) (F N : ℕ → Bool) : Looser s (s.fell F N) := by
  intro k
  unfold State.fell
  simp only []
  split
  · exact ⟨rfl, rfl, rfl, .inr rfl⟩
  · exact ⟨rfl, rfl, rfl, .inl rfl⟩

/-- the invariant behind C46 -/
def MatchInv (s : State) : Prop := Wired s ∧ IdsMatch s ∧ SrlgsMatch s ∧ RsvpReady s

theorem MatchInv.congr {s t : State} (h : MatchInv s) (hn : SameNet s t)
    (hc : ∀ i, (t.ifc i).cktId = (s.ifc i).cktId) (hs : ∀ i, (t.ifc i).srlgs = (s.ifc i).srlgs)
    (hl : Looser s t) : MatchInv t :=
  ⟨h.1.congr hn, h.2.1.congr hn hc, srlgsMatch_congr h.2.2.1 hn hs, ready_congr h.2.2.2 hn.ifs hl⟩

theorem MatchInv.fell {s : State} (h : MatchInv s) (F N : ℕ → Bool) : MatchInv (s.fell F N) :=
  h.congr (fell_sameNet s F N) (fell_cktId s F N) (fell_ifcSrlgs s F N) (looser_fell s F N)

theorem updIfc_field {β : Type} (s : State) (i k : ℕ) (f : Ifc → Ifc) (p : Ifc → β)
    (h : ∀ x, p (f x) = p x) : p ((s.updIfc i f).ifc k) = p (s.ifc k) := by
  unfold State.updIfc
  simp only []
  split
  · exact h _
  · rfl

theorem MatchInv.updIfc {s : State} (h : MatchInv s) (i : ℕ) (f : Ifc → Ifc)
    (hf : ∀ x, (f x).name = x.name ∧ (f x).node = x.node ∧ (f x).remote = x.remote ∧
      (f x).cktId = x.cktId)
    (hs : ∀ x, (f x).srlgs = x.srlgs)
    (hl : ∀ x, (f x).capacity = x.capacity ∧ (f x).pct = x.pct ∧ (f x).rsvpEnabled = x.rsvpEnabled ∧
      ((f x).reservedRaw = x.reservedRaw ∨ (f x).reservedRaw = 0)) : MatchInv (s.updIfc i f) :=
  h.congr (upIfc_sameNet s i f hf) (fun k => updIfc_field s i k f (·.cktId) fun x => (hf x).2.2.2)
    (fun k => updIfc_field s i k f (·.srlgs) hs) (looser_updIfc s i f hl)

theorem MatchInv.up {s : State} (h : MatchInv s) (i : ℕ) : MatchInv (s.upIfc i) :=
  h.updIfc i _ (fun _ => ⟨rfl, rfl, rfl, rfl⟩) (fun _ => rfl) (fun _ => ⟨rfl, rfl, rfl, .inl rfl⟩)

theorem MatchInv.down {s : State} (h : MatchInv s) (i : ℕ) : MatchInv (s.downIfc i) :=
  h.updIfc i _ (fun _ => ⟨rfl, rfl, rfl, rfl⟩) (fun _ => rfl) (fun _ => ⟨rfl, rfl, rfl, .inr rfl⟩)

theorem MatchInv.node {s : State} (h : MatchInv s) (n : ℕ) (f : Node → Node)
    (hf : ∀ x, (f x).name = x.name) : MatchInv (s.updNode n f) :=
  h.congr (upNode_sameNet s n f hf) (fun _ => rfl) (fun _ => rfl) (Looser.refl s)

theorem MatchInv.srlg {s : State} (h : MatchInv s) (g : ℕ) (b : Bool) : MatchInv (s.setSrlg g b) :=
  h.congr (setSrlg_sameNet s g b) (fun _ => rfl) (fun _ => rfl) (Looser.refl s)

theorem MatchInv.all_matchable {s : State} (h : MatchInv s) {i : ℕ} (hi : i ∈ s.ifs) :
    i ∈ s.matchable := mem_matchable.2 ⟨hi, (h.2.2.2 i hi).2⟩

theorem Paired.idsMatch {s u : State} (hw : Wired s) (hr : RsvpReady s) (hp : Paired s u) :
    IdsMatch u := by
  have hwell : PairedWell s u := { hp with single := hw.single, set := hw.ids }
  have hn : SameNet s u := hp.checked'.sameNet
  cases hk : s.kind with
  | flex => exact (hw.idsMatch hk).congr hn (hp.flexIds hk)
  | perf =>
    have hin : ∀ i ∈ s.ifs, ∃ c ∈ u.circuits, IsEnd i c ∧ (u.ifc i).cktId = (u.ifc c.1).cktId := by
      intro i hi
      obtain ⟨c, hc, he⟩ := hp.cover hw.single hw.ids i (mem_matchable.2 ⟨hi, (hr i hi).2⟩)
      refine ⟨c, hc, he, ?_⟩
      rcases he with rfl | rfl
      · rfl
      · exact (hp.sameId hw.ids c hc).symm
    constructor
    · intro i hi j hj ht hid
      rw [hn.ifs] at hi hj
      rw [hn.tail, hn.tail] at ht
      obtain ⟨c, hc, hci, hcid⟩ := hin i hi
      obtain ⟨d, hd, hdj, hdid⟩ := hin j hj
      have hcd : c = d := by
        by_contra hne
        have hpw := (hp.numIds hk).2.1
        have : Std.Symm fun c d : ℕ × ℕ => (u.ifc c.1).cktId ≠ (u.ifc d.1).cktId :=
          ⟨fun _ _ h => h.symm⟩
        exact hpw.forall hc hd hne (by rw [← hcid, ← hdid, hid])
      subst hcd
      have ho := hwell.opposite hc
      rcases hci with e1 | e1 <;> rcases hdj with e2 | e2
      · rw [e1, e2]
      · rw [← e1, ← e2] at ho
        exact hw.single hk i hi j hj ht (by rw [ho.2.1, ← ht, ho.1])
      · rw [← e1, ← e2] at ho
        exact hw.single hk i hi j hj ht (by rw [← ho.1, ← ht, ho.2.1])
      · rw [e1, e2]
    · intro i hi j hj hij
      rw [hn.ifs] at hi hj
      rw [hn.opposite] at hij
      obtain ⟨c, hc, hci, -⟩ := hin i hi
      have ho := hwell.opposite hc
      have he := hp.ends c hc
      have hsame := hp.sameId hw.ids c hc
      rcases hci with e1 | e1
      · rw [e1] at hij ⊢
        rw [hw.twin_unique hj he.2.1 hij ho]
        exact hsame
      · rw [e1] at hij ⊢
        rw [hw.twin_unique hj he.1 hij (opposite_symm ho)]
        exact hsame.symm

theorem Paired.matchInv {s u : State} (h : MatchInv s) (hp : Paired s u) : MatchInv u := by
  obtain ⟨B, I, hu⟩ := hp.eq
  have hn : SameNet s u := hp.checked'.sameNet
  have hsr : ∀ i, (u.ifc i).srlgs = (s.ifc i).srlgs := by intro i; rw [hu]; rfl
  have hl : Looser s u := by intro i; rw [hu]; exact ⟨rfl, rfl, rfl, .inl rfl⟩
  exact ⟨h.1.congr hn, hp.idsMatch h.1 h.2.2.2, srlgsMatch_congr h.2.2.1 hn hsr,
    ready_congr h.2.2.2 hn.ifs hl⟩

theorem matchInv_validate (env : Env) : Stays MatchInv (validate env) := by
  intro s h
  refine wp_mono (validate_spec env s) ?_ ?_
  · rintro _ t ⟨u, h1, rfl, -⟩
    rw [repair_fell]
    exact (h1.matchInv h).fell _ _
  · rintro _ t ⟨B, I, ⟨C, rfl, h2, h3⟩ | ⟨u, h1, rfl | rfl, -⟩⟩
    · have hne : ¬ Unmatched s := by
        rintro ⟨i, hi, hno⟩
        have hi' := (mem_matchable.1 hi).1
        obtain ⟨j, hj, hij⟩ := h.1.twin i hi'
        exact hno ⟨j, h.all_matchable hj, hij.2.1.symm, hij.1.symm⟩
      rcases h3 with ⟨-, hu⟩ | ⟨hk, -⟩
      · exact absurd hu hne
      · have hn : SameNet s (s.withCkt C B I) :=
          Checked.sameNet ⟨C, B, I, fun _ => false, rfl, h2, by simp⟩
        exact h.congr hn (h2 hk) (fun _ => rfl) (fun _ => ⟨rfl, rfl, rfl, .inl rfl⟩)
    · exact h1.matchInv h
    · rw [repair_fell]
      exact (h1.matchInv h).fell _ _

theorem matchInv : FailInv MatchInv where
  wired s h := h.1
  zero s i h _ := h.updIfc i _ (fun _ => ⟨rfl, rfl, rfl, rfl⟩) (fun _ => rfl)
    (fun _ => ⟨rfl, rfl, rfl, .inr rfl⟩)
  valid := matchInv_validate
  fell s F N h _ _ := h.fell F N
  srlgUp s g h _ := h.srlg g false
  srlgDown s g h _ := (h.fell _ _).srlg g true
  held s i h _ _ := h.down i
  bring s i j h _ _ _ _ _ _ := by
    split
    · exact (h.up i).down j
    · exact (h.up i).up j
  nodeUp s n h _ _ := h.node n _ fun _ => rfl
  nodeHeld s n h _ _ := h.node n _ fun _ => rfl

theorem matchMem : NodeMemInv MatchInv where
  toFailInv := matchInv
  new _ _ h hn := ⟨withSrlg_wired h.1 hn, h.2.1, h.2.2.1, h.2.2.2⟩
  join _ n _ h _ := h.node n _ fun _ => rfl
  leave _ n _ h := h.node n _ fun _ => rfl

theorem looser_join (s : State) (i g : ℕ) : Looser s (s.ifcJoin i g) :=
  looser_updIfc s i _ fun _ => ⟨rfl, rfl, rfl, .inl rfl⟩

theorem looser_leave (s : State) (i g : ℕ) : Looser s (s.ifcLeave i g) :=
  looser_updIfc s i _ fun _ => ⟨rfl, rfl, rfl, .inl rfl⟩

theorem ifcLeave_cktId (s : State) (i g k : ℕ) :
    ((s.ifcLeave i g).ifc k).cktId = (s.ifc k).cktId :=
  updIfc_field s i k _ (·.cktId) fun _ => rfl

theorem matchInv_joinBoth (i g : ℕ) (s : State) (h : MatchInv s) (hi : i ∈ s.ifs) :
    wp (do
      modify fun s => s.ifcJoin i g
      let s ← get
      let r ← liftE (s.remoteIfc i)
      modify fun s => s.ifcJoin r g) (fun _ t => MatchInv t) (fun _ t => MatchInv t) s := by
  simp only [wp_bind, wp_modify, wp_get, wp_liftE]
  have hn := ifcJoin_net s i g
  have hm : IdsMatch (s.ifcJoin i g) := h.2.1.congr hn
    fun k => updIfc_field s i k _ (·.cktId) fun _ => rfl
  obtain ⟨j, hj, hij⟩ := h.1.twin i hi
  rw [remote_eq hm (i := i) (j := j) hi hj ((hn.opposite i j).2 hij)]
  simp only []
  have hn2 := SameNet.frame.trans hn (ifcJoin_net (s.ifcJoin i g) j g)
  refine ⟨h.1.congr hn2, hm.congr (ifcJoin_net _ j g)
      (fun k => updIfc_field _ j k _ (·.cktId) fun _ => rfl), ?_,
    ready_congr h.2.2.2 hn2.ifs ((looser_join s i g).trans (looser_join _ j g))⟩
  intro k hk0 l hl0 hkl0 x hx
  have hkl := (hn2.opposite k l).1 hkl0
  have hk : k ∈ s.ifs := hk0
  have hl : l ∈ s.ifs := hl0
  rw [mem_ifcJoin, mem_ifcJoin] at hx ⊢
  rcases hx with (hx | ⟨rfl, rfl⟩) | ⟨rfl, rfl⟩
  · exact .inl (.inl (h.2.2.1 k hk l hl hkl x hx))
  · exact .inr ⟨h.1.twin_unique hk hj (opposite_symm hkl) hij, rfl⟩
  · exact .inl (.inr ⟨h.1.twin_unique hk hi (opposite_symm hkl) (opposite_symm hij), rfl⟩)

theorem matchInv_ifcAdd (i : ℕ) (name : String) (create : Bool) (s : State) (h : MatchInv s)
    (hi : i ∈ s.ifs) :
    wp (ifcAddToSrlg i name create) (fun _ t => MatchInv t) (fun _ t => MatchInv t) s := by
  unfold ifcAddToSrlg
  rw [wp_bind, wp_get]
  cases he : s.getSrlg name with
  | error e =>
    simp only []
    refine wp_ite (fun _ => ?_) (fun _ => h)
    rw [wp_bind]
    refine wp_mono (newSrlg_spec s name) ?_ ?_
    · rintro g t ⟨rfl, rfl, hn⟩
      exact matchInv_joinBoth i s.next _ (matchMem.new s name h hn) hi
    · rintro _ t rfl; exact h
  | ok g => exact matchInv_joinBoth i g s h hi

/-- `t` is `s` with `g` removed from the SRLGs of the circuit of `i` -/
theorem MatchInv.leave {s t : State} (h : MatchInv s) {i j g : ℕ} (hi : i ∈ s.ifs) (hj : j ∈ s.ifs)
    (hij : Opposite s i j) (hn : SameNet s t) (hc : ∀ k, (t.ifc k).cktId = (s.ifc k).cktId)
    (hl : Looser s t)
    (hs : ∀ k x, x ∈ (t.ifc k).srlgs ↔ x ∈ (s.ifc k).srlgs ∧ ¬ ((k = i ∨ k = j) ∧ x = g)) :
    MatchInv t := by
  refine ⟨h.1.congr hn, h.2.1.congr hn hc, ?_, ready_congr h.2.2.2 hn.ifs hl⟩
  intro k hk l hl hkl x hx
  rw [hn.ifs] at hk hl
  rw [hn.opposite] at hkl
  rw [hs] at hx ⊢
  refine ⟨h.2.2.1 k hk l hl hkl x hx.1, ?_⟩
  rintro ⟨rfl | rfl, rfl⟩
  · exact hx.2 ⟨.inr (h.1.twin_unique hl hj hkl hij), rfl⟩
  · exact hx.2 ⟨.inl (h.1.twin_unique hl hi hkl (opposite_symm hij)), rfl⟩

theorem matchInv_setIfc (i : ℕ) : Stays MatchInv (setIfcFailed i false) := by
  intro s h
  unfold wp
  rw [setIfcFailed_false]
  by_cases hh : s.ifcHeld i = true
  · rw [if_pos hh]; exact h.down i
  · rw [if_neg hh]
    split
    · next x t hx =>
      split at hx
      · cases hx; exact h.up i
      · cases hx; exact h.down i
    · next hx => split at hx <;> cases hx

theorem matchInv_ifcRemove (i : ℕ) (name : String) (s : State) (h : MatchInv s) (hi : i ∈ s.ifs) :
    wp (ifcRemoveFromSrlg i name) (fun _ t => MatchInv t) (fun _ t => MatchInv t) s := by
  unfold ifcRemoveFromSrlg
  simp only [wp_bind, wp_get]
  cases he : s.getSrlg name with
  | error e => exact h
  | ok g =>
    simp only []
    refine wp_ite (fun _ => ?_) (fun _ => h)
    refine wp_ite (fun hgi => ?_) (fun _ => h)
    simp only [wp_bind, wp_set, wp_get, wp_liftE]
    have hn := ifcLeave_net s i g
    have hm : IdsMatch (s.ifcLeave i g) := h.2.1.congr hn
      fun k => updIfc_field s i k _ (·.cktId) fun _ => rfl
    obtain ⟨j, hj, hij⟩ := h.1.twin i hi
    rw [remote_eq hm (i := i) (j := j) hi hj ((hn.opposite i j).2 hij)]
    simp only []
    by_cases hji : j = i
    · subst hji
      have hmi : MatchInv (s.ifcLeave j g) := h.leave hi hj hij hn
        (fun k => updIfc_field s j k _ (·.cktId) fun _ => rfl) (looser_leave s j g)
        (fun k x => by rw [mem_ifcLeave, or_self])
      split
      · split
        · next hx => exact absurd hx (by rw [mem_ifcLeave]; simp)
        · exact hmi
      · exact hmi
    · have hgj : g ∈ ((s.ifcLeave i g).ifc j).srlgs := by
        rw [mem_ifcLeave]
        exact ⟨h.2.2.1 j hj i hi (opposite_symm hij) g hgi, fun h => hji h.1⟩
      rw [if_pos ((memSrlg_iff (h.1.congr hn) (i := j) hj).2 hgj), if_pos hgj]
      have hn2 := SameNet.frame.trans hn (ifcLeave_net (s.ifcLeave i g) j g)
      refine matchInv_setIfc i _ (h.leave (g := g) hi hj hij hn2 ?_
        ((looser_leave s i g).trans (looser_leave _ j g)) ?_)
      · intro k
        rw [ifcLeave_cktId, ifcLeave_cktId]
      · intro k x
        rw [mem_ifcLeave, mem_ifcLeave]
        tauto

/-- every call of C46 keeps the invariant -/
theorem matchInv_step (env : Env) (c : Call) (s : State) (h : MatchInv s) (ho : c.OnModel s)
    (h0 : c ≠ .simulate) : MatchInv (finalState (c.run env) s) := by
  cases c with
  | joinIfc i a b => exact final_of_wp (matchInv_ifcAdd i a b s h ho)
  | leaveIfc i a => exact final_of_wp (matchInv_ifcRemove i a s h ho)
  | joinNode n a b =>
    apply final_of_wp
    change wp (nodeAddToSrlg n a b) _ _ s
    unfold nodeAddToSrlg
    simp only [wp_bind, wp_get]
    cases he : s.getSrlg a with
    | error e =>
      simp only []
      refine wp_ite (fun _ => ?_) (fun _ => h)
      simp only [wp_bind]
      refine wp_mono (matchMem.newSrlg a s h) ?_ (fun _ _ h => h)
      rintro g t ⟨h1, h2⟩
      exact h1.node n _ fun _ => rfl
    | ok g => exact h.node n _ fun _ => rfl
  | failInterface | unfailInterface | interfaceFail | interfaceUnfail | failNode | unfailNode
  | failSrlg | unfailSrlg | addSrlg | validate | simulate | leaveNode =>
    refine matchMem.step env _ s h ho (fun h => absurd h h0) ?_ ?_ ?_ <;> intros <;> simp_all

end NTM
