import Verif.Model.Shared
import Verif.Model.Sim
import Verif.Spec.Registry

/-!
# C72: several models in one program
-/

namespace NTM

open Spec

/-- `PerformanceModel()` / `FlexModel()` -/
def World.constructEmpty (w : World) (k : Kind) : World := w.construct k none none none none

/-- **C72** is false: after `m0 = FlexModel(); m1 = FlexModel()` (or `PerformanceModel`), adding a
node, a circuit and a demand to `m0` adds them to `m1`. -/
theorem C72_defaults_shared_false (k : Kind) :
    let w := (World.start.constructEmpty k).constructEmpty k
    let w := w.call 0 (Edit.run Env.default (.addNode "A" 0 0))
    let w := w.call 0 (Edit.run Env.default (.addNode "B" 0 0))
    let w := w.call 0 (Edit.run Env.default (.addCircuit 0 1 "ab" "ba" 1 1 10 false (.num 1)))
    let w := w.call 0 (Edit.run Env.default (.addDemand "A" "B" 5 "x"))
    (w.view 1).nodeNames = ["A", "B"] ∧ (w.view 1).ifs = (w.view 0).ifs ∧
      (w.view 1).ifs.length = 2 ∧ (w.view 1).dmds.length = 1 := by
  cases k <;> decide +kernel

/-- A model created later starts with the objects of the earlier one. -/
theorem C72_later_model_false (k : Kind) :
    let w := World.start.constructEmpty k
    let w := w.call 0 (Edit.run Env.default (.addNode "A" 0 0))
    let w := w.constructEmpty k
    (w.view 1).nodeNames = ["A"] := by
  cases k <;> decide +kernel

/-- the sets model object `i` refers to -/
def World.refs (w : World) (i : ℕ) : List ℕ :=
  [(w.inst i).nodes, (w.inst i).ifs, (w.inst i).dmds, (w.inst i).lsps]

/-- what the user sees as the collections of model object `i` -/
def World.collections (w : World) (i : ℕ) :
    List (List ℕ) × List (ℕ × ℕ) × List (String × List ℕ) :=
  ([(w.view i).nodes, (w.view i).ifs, (w.view i).dmds, (w.view i).lsps, (w.view i).srlgs],
    (w.view i).circuits, (w.view i).groups)

/-- what a program can do: create a model or call a method of a model -/
inductive Act where
  | construct (k : Kind) (ifs nodes dmds lsps : Option (List ℕ))
  | call (i : ℕ) (m : Py Unit)
  | rebind (i : ℕ) (m : Py Unit)

/-- the world after an action -/
def Act.run : Act → World → World
  | .construct k a b c d, w => w.construct k a b c d
  | .call i m, w => w.call i m
  | .rebind i m, w => w.callRebind i m

/-- the action is not a method call on model object `j` but on another model object of `w` -/
def Act.Spares (w : World) (j : ℕ) : Act → Prop
  | .construct _ _ _ _ _ => True
  | .call i _ => i < w.count ∧ i ≠ j
  | .rebind i _ => i < w.count ∧ i ≠ j

/-- `v` is reached from `w` by creating models and calling methods of models other than `j` -/
inductive Elsewhere (j : ℕ) (w : World) : World → Prop
  | refl : Elsewhere j w w
  | step {v : World} (x : Act) : Elsewhere j w v → x.Spares v j → Elsewhere j w (x.run v)

/-- any program: `v` is reached by creating models and calling methods of existing models -/
inductive Program : World → Prop
  | start : Program World.start
  | construct {w : World} (k : Kind) (a b c d : Option (List ℕ)) :
      Program w → Program (w.construct k a b c d)
  | call {w : World} (i : ℕ) (m : Py Unit) : Program w → i < w.count → Program (w.call i m)
  | rebind {w : World} (i : ℕ) (m : Py Unit) :
      Program w → i < w.count → Program (w.callRebind i m)

/-- model object `j` exists and no other model object, present or default, uses its sets -/
structure Alone (w : World) (j : ℕ) : Prop where
  exists_ : j < w.count
  own : ∀ i < w.count, i ≠ j → ∀ c ∈ w.refs i, c ∉ w.refs j
  notDefault : ∀ c ∈ w.refs j, 8 ≤ c
  old : ∀ c ∈ w.refs j, c < w.nextCell
  first : 8 ≤ w.nextCell

theorem arg_spec (w : World) (k : Kind) {p : ℕ} (hp : p < 4) (o : Option (List ℕ)) :
    w.nextCell ≤ (w.arg k p o).1.nextCell ∧ (w.arg k p o).1.inst = w.inst ∧
    (w.arg k p o).1.count = w.count ∧ (w.arg k p o).1.objs = w.objs ∧
    (∀ c < w.nextCell, (w.arg k p o).1.cells c = w.cells c) ∧
    ((w.arg k p o).2 < 8 ∨ (w.nextCell ≤ (w.arg k p o).2 ∧
      (w.arg k p o).2 < (w.arg k p o).1.nextCell)) := by
  cases o with
  | none =>
    refine ⟨le_refl _, rfl, rfl, rfl, fun _ _ => rfl, .inl ?_⟩
    cases k
    · show p < 8; omega
    · show 4 + p < 8; omega
  | some l =>
    refine ⟨Nat.le_succ _, rfl, rfl, rfl, fun c hc => ?_, .inr ⟨le_refl _, Nat.lt_succ_self _⟩⟩
    simp [World.arg, Nat.ne_of_lt hc]

theorem construct_spec (w : World) (k : Kind) (a b c d : Option (List ℕ)) :
    let v := w.construct k a b c d
    w.nextCell ≤ v.nextCell ∧ (∀ i, i ≠ w.count → v.inst i = w.inst i) ∧ v.count = w.count + 1 ∧
      v.objs = w.objs ∧ (∀ x < w.nextCell, v.cells x = w.cells x) ∧
      (∀ x ∈ v.refs w.count, x < 8 ∨ (w.nextCell ≤ x ∧ x < v.nextCell)) := by
  intro v
  obtain ⟨a1, a2, a3, a4, a5, a6⟩ := arg_spec w k (p := 0) (by omega) a
  set wa := (w.arg k 0 a).1 with hwa
  obtain ⟨b1, b2, b3, b4, b5, b6⟩ := arg_spec wa k (p := 1) (by omega) b
  set wb := (wa.arg k 1 b).1 with hwb
  obtain ⟨c1, c2, c3, c4, c5, c6⟩ := arg_spec wb k (p := 2) (by omega) c
  set wc := (wb.arg k 2 c).1 with hwc
  obtain ⟨d1, d2, d3, d4, d5, d6⟩ := arg_spec wc k (p := 3) (by omega) d
  set wd := (wc.arg k 3 d).1 with hwd
  have hn : v.nextCell = wd.nextCell := rfl
  have hi : v.inst = fun i => if i = wd.count then
      { kind := k, ifs := (w.arg k 0 a).2, nodes := (wa.arg k 1 b).2, dmds := (wb.arg k 2 c).2,
        lsps := (wc.arg k 3 d).2 } else wd.inst i := rfl
  have hc : wd.count = w.count := by rw [d3, c3, b3, a3]
  refine ⟨by rw [hn]; omega, ?_, by show wd.count + 1 = _; rw [hc], ?_, ?_, ?_⟩
  · intro i hne
    rw [hi]
    simp only []
    rw [hc, if_neg hne, d2, c2, b2, a2]
  · show wd.objs = _
    rw [d4, c4, b4, a4]
  · intro x hx
    show wd.cells x = _
    rw [d5 x (by omega), c5 x (by omega), b5 x (by omega), a5 x hx]
  · have hr : v.refs w.count = [(wa.arg k 1 b).2, (w.arg k 0 a).2, (wb.arg k 2 c).2,
        (wc.arg k 3 d).2] := by
      unfold World.refs
      rw [hi]
      simp [hc]
    rw [hr, hn]
    intro x hx
    simp only [List.mem_cons, List.not_mem_nil, or_false] at hx
    rcases hx with rfl | rfl | rfl | rfl
    · rcases b6 with h | h
      · exact .inl h
      · exact .inr ⟨by omega, by omega⟩
    · rcases a6 with h | h
      · exact .inl h
      · exact .inr ⟨by omega, by omega⟩
    · rcases c6 with h | h
      · exact .inl h
      · exact .inr ⟨by omega, by omega⟩
    · rcases d6 with h | h
      · exact .inl h
      · exact .inr ⟨by omega, by omega⟩

theorem collections_congr {w v : World} {j : ℕ} (hi : v.inst j = w.inst j)
    (hc : ∀ c ∈ w.refs j, v.cells c = w.cells c) : v.collections j = w.collections j := by
  have h : ∀ c, c ∈ w.refs j → v.cells c = w.cells c := hc
  unfold World.refs at h
  unfold World.collections World.view
  simp only []
  rw [hi, h _ (by simp), h _ (by simp), h _ (by simp), h _ (by simp)]

theorem Alone.step {w : World} {j : ℕ} (h : Alone w j) {x : Act} (hx : x.Spares w j) :
    Alone (x.run w) j ∧ (x.run w).collections j = w.collections j := by
  cases x with
  | construct k a b c d =>
    obtain ⟨v1, v2, v3, -, v5, v6⟩ := construct_spec w k a b c d
    have hj : (w.construct k a b c d).inst j = w.inst j := v2 j (Nat.ne_of_lt h.exists_)
    have hr : (w.construct k a b c d).refs j = w.refs j := by unfold World.refs; rw [hj]
    refine ⟨⟨?_, ?_, ?_, ?_, ?_⟩, ?_⟩
    · show j < (w.construct k a b c d).count
      rw [v3]; exact Nat.lt_succ_of_lt h.exists_
    · intro i hi hne y hy
      show y ∉ (w.construct k a b c d).refs j
      rw [hr]
      change i < (w.construct k a b c d).count at hi
      change y ∈ (w.construct k a b c d).refs i at hy
      rw [v3] at hi
      by_cases hic : i = w.count
      · subst hic
        intro hyj
        rcases v6 y hy with h1 | h1
        · have := h.notDefault y hyj; omega
        · have := h.old y hyj; omega
      · have : (w.construct k a b c d).refs i = w.refs i := by unfold World.refs; rw [v2 i hic]
        rw [this] at hy
        exact h.own i (by omega) hne y hy
    · intro y hy
      change y ∈ (w.construct k a b c d).refs j at hy
      rw [hr] at hy
      exact h.notDefault y hy
    · intro y hy
      change y ∈ (w.construct k a b c d).refs j at hy
      rw [hr] at hy
      have := h.old y hy
      show y < (w.construct k a b c d).nextCell
      omega
    · show 8 ≤ (w.construct k a b c d).nextCell
      have := h.first
      omega
    · exact collections_congr hj fun y hy => v5 y (h.old y hy)
  | call i m =>
    obtain ⟨hi, hne⟩ := (hx : i < w.count ∧ i ≠ j)
    have hinst : ∀ l, (w.call i m).refs l = w.refs l := by
      intro l
      unfold World.refs World.call World.setOwn
      by_cases hl : l = i
      · subst hl; simp
      · simp [hl]
    have hj : (w.call i m).inst j = w.inst j := by
      unfold World.call World.setOwn
      simp [hne.symm]
    refine ⟨⟨h.exists_, ?_, ?_, ?_, h.first⟩, ?_⟩
    · intro l hl hlj y hy
      change y ∈ (w.call i m).refs l at hy
      show y ∉ (w.call i m).refs j
      rw [hinst] at hy ⊢
      exact h.own l hl hlj y hy
    · intro y hy
      change y ∈ (w.call i m).refs j at hy
      rw [hinst] at hy
      exact h.notDefault y hy
    · intro y hy
      change y ∈ (w.call i m).refs j at hy
      rw [hinst] at hy
      exact h.old y hy
    · refine collections_congr hj fun y hy => ?_
      show (if y = (w.inst i).nodes then _ else if y = (w.inst i).ifs then _ else
        if y = (w.inst i).dmds then _ else if y = (w.inst i).lsps then _ else w.cells y) = w.cells y
      have hno : ∀ c ∈ w.refs i, y ≠ c := fun c hc e => h.own i hi hne c hc (e ▸ hy)
      unfold World.refs at hno
      rw [if_neg (hno _ (by simp)), if_neg (hno _ (by simp)), if_neg (hno _ (by simp)),
        if_neg (hno _ (by simp))]
  | rebind i m =>
    obtain ⟨hi, hne⟩ := (hx : i < w.count ∧ i ≠ j)
    have hj : (w.callRebind i m).inst j = w.inst j := by
      unfold World.callRebind World.setOwn
      simp [hne.symm]
    have hrj : (w.callRebind i m).refs j = w.refs j := by unfold World.refs; rw [hj]
    refine ⟨⟨h.exists_, ?_, ?_, ?_, ?_⟩, ?_⟩
    · intro l hl hlj y hy
      change y ∈ (w.callRebind i m).refs l at hy
      show y ∉ (w.callRebind i m).refs j
      rw [hrj]
      by_cases hli : l = i
      · subst hli
        have hr : (w.callRebind l m).refs l =
            [w.nextCell, w.nextCell + 1, (w.inst l).dmds, (w.inst l).lsps] := by
          unfold World.refs World.callRebind World.setOwn
          simp
        rw [hr] at hy
        intro hyj
        have := h.old y hyj
        simp only [List.mem_cons, List.not_mem_nil, or_false] at hy
        rcases hy with rfl | rfl | hy | hy
        · omega
        · omega
        · exact h.own l hl hlj y (by simp [World.refs, hy]) hyj
        · exact h.own l hl hlj y (by simp [World.refs, hy]) hyj
      · have : (w.callRebind i m).refs l = w.refs l := by
          unfold World.refs World.callRebind World.setOwn
          simp [hli]
        rw [this] at hy
        exact h.own l hl hlj y hy
    · intro y hy
      change y ∈ (w.callRebind i m).refs j at hy
      rw [hrj] at hy
      exact h.notDefault y hy
    · intro y hy
      change y ∈ (w.callRebind i m).refs j at hy
      rw [hrj] at hy
      have := h.old y hy
      show y < w.nextCell + 2
      omega
    · show 8 ≤ w.nextCell + 2
      have := h.first
      omega
    · refine collections_congr hj fun y hy => ?_
      have := h.old y hy
      show (if y = w.nextCell then _ else if y = w.nextCell + 1 then _ else w.cells y) = w.cells y
      rw [if_neg (by omega), if_neg (by omega)]

theorem Alone.elsewhere {w v : World} {j : ℕ} (h : Alone w j) (hv : Elsewhere j w v) :
    Alone v j ∧ v.collections j = w.collections j := by
  induction hv with
  | refl => exact ⟨h, rfl⟩
  | step x _ hx ih => exact ⟨(ih.1.step hx).1, (ih.1.step hx).2.trans ih.2⟩

theorem construct_spec' (w : World) (k : Kind) (a b c d : List ℕ) :
    (w.construct k (some a) (some b) (some c) (some d)).refs w.count =
      [w.nextCell + 1, w.nextCell, w.nextCell + 2, w.nextCell + 3] ∧
    (w.construct k (some a) (some b) (some c) (some d)).nextCell = w.nextCell + 4 := by
  simp [World.refs, World.construct, World.arg]

/-- every set a model object refers to exists -/
theorem Program.bounded {w : World} (h : Program w) :
    8 ≤ w.nextCell ∧ ∀ i < w.count, ∀ c ∈ w.refs i, c < w.nextCell := by
  induction h with
  | start => exact ⟨le_refl _, fun i hi => absurd hi (Nat.not_lt_zero i)⟩
  | @construct w k a b c d _ ih =>
    obtain ⟨v1, v2, v3, -, -, v6⟩ := construct_spec w k a b c d
    refine ⟨by omega, fun i hi x hx => ?_⟩
    rw [v3] at hi
    by_cases hic : i = w.count
    · subst hic
      rcases v6 x hx with h1 | h1
      · omega
      · exact h1.2
    · have : (w.construct k a b c d).refs i = w.refs i := by unfold World.refs; rw [v2 i hic]
      rw [this] at hx
      have := ih.2 i (by omega) x hx
      omega
  | @call w i m _ hi ih =>
    refine ⟨ih.1, fun l hl x hx => ih.2 l hl x ?_⟩
    have : (w.call i m).refs l = w.refs l := by
      unfold World.refs World.call World.setOwn
      by_cases hl : l = i
      · subst hl; simp
      · simp [hl]
    exact this ▸ hx
  | @rebind w i m _ hi ih =>
    refine ⟨by show 8 ≤ w.nextCell + 2; omega, fun l hl x hx => ?_⟩
    show x < w.nextCell + 2
    by_cases hli : l = i
    · subst hli
      have hr : (w.callRebind l m).refs l =
          [w.nextCell, w.nextCell + 1, (w.inst l).dmds, (w.inst l).lsps] := by
        unfold World.refs World.callRebind World.setOwn
        simp
      rw [hr] at hx
      simp only [List.mem_cons, List.not_mem_nil, or_false] at hx
      have h1 := ih.2 l hl (w.inst l).dmds (by simp [World.refs])
      have h2 := ih.2 l hl (w.inst l).lsps (by simp [World.refs])
      rcases hx with rfl | rfl | rfl | rfl <;> omega
    · have : (w.callRebind i m).refs l = w.refs l := by
        unfold World.refs World.callRebind World.setOwn
        simp [hli]
      rw [this] at hx
      have := ih.2 l hl x hx
      omega

/-- **C72**, true part: in any program, a model created with all four collections given has them
to itself: whatever models are created and whatever methods are called on other models
afterwards, its nodes, interfaces, demands, LSPs, SRLGs, circuits and LSP groups stay the same. -/
theorem C72_own_collections_partial {w v : World} (hw : Program w) (k : Kind)
    (ifs nodes dmds lsps : List ℕ)
    (hv : Elsewhere w.count (w.construct k (some ifs) (some nodes) (some dmds) (some lsps)) v) :
    v.collections w.count = ([nodes, ifs, dmds, lsps, []], [], []) := by
  obtain ⟨hr, hn⟩ := construct_spec' w k ifs nodes dmds lsps
  obtain ⟨-, v2, v3, -, -, -⟩ :=
    construct_spec w k (some ifs) (some nodes) (some dmds) (some lsps)
  obtain ⟨hb, hbound⟩ := hw.bounded
  have ha : Alone (w.construct k (some ifs) (some nodes) (some dmds) (some lsps)) w.count := by
    refine ⟨by rw [v3]; omega, fun i hi hne c hc hc' => ?_, fun c hc => ?_, fun c hc => ?_,
      by omega⟩
    · rw [v3] at hi
      have : (w.construct k (some ifs) (some nodes) (some dmds) (some lsps)).refs i = w.refs i := by
        unfold World.refs; rw [v2 i hne]
      rw [this] at hc
      have := hbound i (by omega) c hc
      rw [hr] at hc'
      simp at hc'
      omega
    · rw [hr] at hc; simp at hc; omega
    · rw [hr] at hc; simp at hc; omega
  rw [(ha.elsewhere hv).2]
  simp [World.collections, World.view, World.construct, World.arg]
  rw [if_neg (by omega), if_neg (by omega)]

/-- **C72**, true part: a model whose collections nobody else uses keeps them through any method
call on another model, whatever has been done to it before. -/
theorem C72_other_models_partial {w v : World} {j : ℕ} (h : Alone w j) (hv : Elsewhere j w v) :
    v.collections j = w.collections j :=
  (h.elsewhere hv).2

/-- Case: a second model with sets of its own; nodes are added to the first model only. -/
example (k : Kind) :
    let w := World.start.constructEmpty k
    let w := w.construct k (some []) (some []) (some []) (some [])
    let v := w.call 0 (Edit.run Env.default (.addNode "A" 0 0))
    Program w ∧ Elsewhere 1 w v ∧ v.collections 1 = ([[], [], [], [], []], [], []) ∧
      (v.view 0).nodeNames = ["A"] := by
  refine ⟨.construct _ _ _ _ _ (.construct _ _ _ _ _ .start), ?_, ?_, ?_⟩
  · exact Elsewhere.step (.call 0 _) .refl ⟨by cases k <;> decide, by decide⟩
  · cases k <;> decide +kernel
  · cases k <;> decide +kernel

/-- the four sets of a model object are different sets -/
theorem Program.nodup {w : World} (h : Program w) : ∀ i < w.count, (w.refs i).Nodup := by
  induction h with
  | start => exact fun i hi => absurd hi (Nat.not_lt_zero i)
  | @construct w k a b c d hw ih =>
    obtain ⟨-, v2, v3, -, -, -⟩ := construct_spec w k a b c d
    intro i hi
    rw [v3] at hi
    by_cases hic : i = w.count
    · subst hic
      have h8 := hw.bounded.1
      cases a <;> cases b <;> cases c <;> cases d <;> cases k <;>
        simp [World.refs, World.construct, World.arg, defaultCell] <;> omega
    · have : (w.construct k a b c d).refs i = w.refs i := by unfold World.refs; rw [v2 i hic]
      rw [this]
      exact ih i (by omega)
  | @call w i m _ _ ih =>
    intro l hl
    have : (w.call i m).refs l = w.refs l := by
      unfold World.refs World.call World.setOwn
      by_cases hl : l = i
      · subst hl; simp
      · simp [hl]
    rw [this]
    exact ih l hl
  | @rebind w i m hw hi ih =>
    intro l hl
    by_cases hli : l = i
    · subst hli
      have hr : (w.callRebind l m).refs l =
          [w.nextCell, w.nextCell + 1, (w.inst l).dmds, (w.inst l).lsps] := by
        unfold World.refs World.callRebind World.setOwn
        simp
      have h1 := hw.bounded.2 l hl (w.inst l).dmds (by simp [World.refs])
      have h2 := hw.bounded.2 l hl (w.inst l).lsps (by simp [World.refs])
      have h3 := ih l hl
      rw [hr]
      simp only [World.refs, List.nodup_cons, List.mem_cons, List.not_mem_nil, or_false, not_or,
        List.nodup_nil, not_false_eq_true, and_true] at h3 ⊢
      omega
    · have : (w.callRebind i m).refs l = w.refs l := by
        unfold World.refs World.callRebind World.setOwn
        simp [hli]
      rw [this]
      exact ih l hl

theorem view_eq {v : World} {i : ℕ} {t : State} (ho : v.objs = t) (hk : (v.inst i).kind = t.kind)
    (h1 : v.cells (v.inst i).nodes = t.nodes) (h2 : v.cells (v.inst i).ifs = t.ifs)
    (h3 : v.cells (v.inst i).dmds = t.dmds) (h4 : v.cells (v.inst i).lsps = t.lsps)
    (h5 : (v.inst i).srlgs = t.srlgs) (h6 : (v.inst i).circuits = t.circuits)
    (h7 : (v.inst i).groups = t.groups) : v.view i = t := by
  unfold World.view
  simp only [ho, hk, h1, h2, h3, h4, h5, h6, h7]

/-- **C72**: in any program, however many models there are and whatever they share, a method
called on a model leaves that model in the state described for a single model; the same for a
method that binds new sets and leaves the demands and LSPs alone. -/
theorem C72_method_effect {w : World} (hw : Program w) {i : ℕ} (hi : i < w.count) (m : Py Unit)
    (hk : (finalState m (w.view i)).kind = (w.view i).kind) :
    (w.call i m).view i = finalState m (w.view i) ∧
    ((finalState m (w.view i)).dmds = (w.view i).dmds →
      (finalState m (w.view i)).lsps = (w.view i).lsps →
      (w.callRebind i m).view i = finalState m (w.view i)) := by
  have hn := hw.nodup i hi
  have h1 := hw.bounded.2 i hi
  simp only [World.refs, List.nodup_cons, List.mem_cons, List.not_mem_nil, or_false, not_or,
    List.nodup_nil, not_false_eq_true, and_true, forall_eq_or_imp, forall_eq] at hn h1
  obtain ⟨⟨n1, n2, n3⟩, ⟨n4, n5⟩, n6⟩ := hn
  obtain ⟨b1, b2, b3, b4⟩ := h1
  have hk' : (w.inst i).kind = (finalState m (w.view i)).kind := hk.symm
  generalize ht : finalState m (w.view i) = t at hk'
  constructor
  · refine view_eq ?_ ?_ ?_ ?_ ?_ ?_ ?_ ?_ ?_ <;>
      simp [World.call, World.setOwn, ht, hk', Ne.symm n1, Ne.symm n2, Ne.symm n3, Ne.symm n4,
        Ne.symm n5, Ne.symm n6]
  · intro hd hl
    have hd' : w.cells (w.inst i).dmds = t.dmds := hd.symm
    have hl' : w.cells (w.inst i).lsps = t.lsps := hl.symm
    refine view_eq ?_ ?_ ?_ ?_ ?_ ?_ ?_ ?_ ?_ <;>
      simp [World.callRebind, World.setOwn, ht, hk', hd', hl', Nat.ne_of_lt b3, Nat.ne_of_lt b4,
        Nat.ne_of_lt (Nat.lt_succ_of_lt b3), Nat.ne_of_lt (Nat.lt_succ_of_lt b4)]

/-- Case: the second of three models that share all sets; a node is added to it. -/
example (k : Kind) :
    let w := ((World.start.constructEmpty k).constructEmpty k).constructEmpty k
    let w := w.call 0 (Edit.run Env.default (.addNode "A" 0 0))
    let m := Edit.run Env.default (.addNode "B" 0 0)
    Program w ∧ 1 < w.count ∧ (finalState m (w.view 1)).kind = (w.view 1).kind ∧
      ((w.call 1 m).view 1).nodeNames = ["A", "B"] := by
  refine ⟨.call _ _ (.construct _ _ _ _ _ (.construct _ _ _ _ _ (.construct _ _ _ _ _ .start))) ?_,
    ?_, ?_, ?_⟩ <;> cases k <;> decide +kernel

end NTM
