import Verif.Proof.Weather
import Verif.Props.Validation
import Verif.Props.Registry

/-!
# C83–C87: the map page
-/

namespace NTM

open Spec

/-- an interface does not lead back to its own node -/
def Spec.NoSelfLinks (s : State) : Prop := ∀ i ∈ s.ifs, s.tail i ≠ s.head i

/-- **C83** (part: every interface has non-negative reservable bandwidth) After a successful
`validate_model()` the map has exactly one edge for every interface of the model, showing its
node, name, cost, capacity, circuit id and utilization. -/
theorem C83_edges_partial {env : Env} {s t : State} (hset : CktIdsSet s) (hnd : s.ifs.Nodup)
    (hself : NoSelfLinks s) (h : validate env s = .ok () t)
    (hres : ∀ i ∈ t.ifs, 0 ≤ t.reservable i) (group : Bool) :
    ∃ order : List ℕ, order.Perm t.ifs ∧ List.Forall₂ (Shows t) order (t.mapElements group).2 := by
  obtain ⟨h1, h2, h3⟩ := C28_circuits_pair hset h
  have hcap := (C34_circuits_consistent h).1
  obtain ⟨u, hu, rfl, -⟩ := validate_ok h
  obtain ⟨B, I, he⟩ := hu.eq
  have hifs : u.repair.ifs = s.ifs := by show u.ifs = _; rw [he]; rfl
  have htail : ∀ i, u.repair.tail i = s.tail i := by
    intro i
    unfold State.tail
    rw [(repair_ifc u i).1]
    show (u.node (u.ifc i).node).name = _
    rw [he]; rfl
  have hhead : ∀ i, u.repair.head i = s.head i := by
    intro i
    unfold State.head
    rw [(repair_ifc u i).2.1]
    show (u.node (u.ifc i).remote).name = _
    rw [he]; rfl
  refine ⟨_, ends_perm (t := u.repair) (hifs ▸ hnd) ?_ ?_ h3, ?_⟩
  · intro i hi
    obtain ⟨c, ⟨hc, hi⟩, -⟩ := h1 i hi (hres i hi)
    exact ⟨c, hc, hi⟩
  · intro c hc
    obtain ⟨a, b, a1, -, -⟩ := h2 c hc
    refine ⟨a, b, fun e => hself c.1 (hifs ▸ a) ?_⟩
    rw [← htail, ← hhead]
    rw [← e] at a1
    exact a1
  · have key : ∀ l : List (ℕ × ℕ), (∀ c ∈ l, c ∈ u.repair.circuits) →
        List.Forall₂ (Shows u.repair) (l.flatMap fun c => [c.1, c.2])
          (l.flatMap fun c => [u.repair.drawnEdge group c c.1, u.repair.drawnEdge group c c.2]) := by
      intro l
      induction l with
      | nil => intro _; exact .nil
      | cons c l ih =>
        intro hl
        have hc := hl c List.mem_cons_self
        obtain ⟨-, -, -, -, hid⟩ := h2 c hc
        have hcp := (hcap c hc).1
        simp only [List.flatMap_cons, List.cons_append, List.nil_append]
        exact .cons ⟨rfl, rfl, rfl, rfl, rfl, rfl⟩ (.cons ⟨rfl, rfl, rfl, hcp, congrArg CktId.text hid, rfl⟩
          (ih fun d hd => hl d (List.mem_cons_of_mem _ hd)))
    exact key _ fun c hc => hc

example (k : Kind) : CktIdsSet (Ex.square k) ∧ (Ex.square k).ifs.Nodup ∧ NoSelfLinks (Ex.square k) ∧
    validate Env.default (Ex.square k) = .ok () (finalState (validate Env.default) (Ex.square k)) ∧
    (∀ i ∈ (finalState (validate Env.default) (Ex.square k)).ifs,
      0 ≤ (finalState (validate Env.default) (Ex.square k)).reservable i) ∧
    ((finalState (validate Env.default) (Ex.square k)).mapElements true).2.length = 8 := by
  cases k <;> exact ⟨by decide +kernel, by decide +kernel, by unfold NoSelfLinks; decide +kernel,
    ok_of_raised (by decide +kernel), by decide +kernel, by decide +kernel⟩

/-- **C83** is false for an interface that does not run RSVP: the model validates and the
interface is not on the map, nor are its nodes. -/
theorem C83_rsvp_disabled_false (k : Kind) :
    raised (validate Env.default) (Ex.oneWay k false) = none ∧
    0 ∈ (Ex.oneWay k false).ifs ∧
    (finalState (validate Env.default) (Ex.oneWay k false)).mapElements true = ([], []) := by
  cases k <;> exact ⟨by decide +kernel, by decide +kernel, by decide +kernel⟩

/-- **C83** (part: every interface has non-negative reservable bandwidth) After a successful
validation every node that has an interface is on the map, and the map shows nothing but such
nodes and midpoints; the midpoint of a circuit lies halfway between its ends. -/
theorem C83_nodes_partial {env : Env} {s t : State} (hset : CktIdsSet s)
    (h : validate env s = .ok () t) (hres : ∀ i ∈ t.ifs, 0 ≤ t.reservable i) (group : Bool) :
    (∀ i ∈ t.ifs, ∃ v ∈ (t.mapElements group).1, ShowsNode t (t.ifc i).node v) ∧
    (∀ v ∈ (t.mapElements group).1, (∃ i ∈ t.ifs, ShowsNode t (t.ifc i).node v) ∨
      ∃ c ∈ t.circuits, Midpoint t c v) ∧
    (∀ e ∈ (t.mapElements group).2, (∃ v ∈ (t.mapElements group).1, v.id = e.source) ∧
      ∃ c ∈ t.circuits, ∃ v ∈ (t.mapElements group).1, Midpoint t c v ∧ v.id = e.target ∧
        (Shows t c.1 e ∨ Shows t c.2 e)) := by
  obtain ⟨h1, h2, -⟩ := C28_circuits_pair hset h
  have hcap := (C34_circuits_consistent h).1
  have hmid : ∀ c, Midpoint t c (t.drawnMid group c) := fun c => ⟨rfl, rfl, rfl, rfl⟩
  have hnode : ∀ n, ShowsNode t n (t.drawnNode n) := fun n => ⟨rfl, rfl, rfl, rfl, rfl, rfl⟩
  have hmem : ∀ v, v ∈ (t.mapElements group).1 ↔ ∃ c ∈ t.circuits, v = t.drawnMid group c ∨
      v = t.drawnNode (t.ifc c.1).node ∨ v = t.drawnNode (t.ifc c.2).node := by
    intro v
    simp only [State.mapElements, List.mem_flatMap, List.mem_cons, List.not_mem_nil, or_false]
  refine ⟨?_, ?_, ?_⟩
  · intro i hi
    obtain ⟨c, ⟨hc, rfl | rfl⟩, -⟩ := h1 i hi (hres i hi)
    · exact ⟨_, (hmem _).2 ⟨c, hc, .inr (.inl rfl)⟩, hnode _⟩
    · exact ⟨_, (hmem _).2 ⟨c, hc, .inr (.inr rfl)⟩, hnode _⟩
  · intro v hv
    obtain ⟨c, hc, rfl | rfl | rfl⟩ := (hmem v).1 hv
    · exact .inr ⟨c, hc, hmid c⟩
    · exact .inl ⟨c.1, (h2 c hc).1, hnode _⟩
    · exact .inl ⟨c.2, (h2 c hc).2.1, hnode _⟩
  · intro e he
    simp only [State.mapElements, List.mem_flatMap, List.mem_cons, List.not_mem_nil, or_false] at he
    obtain ⟨c, hc, rfl | rfl⟩ := he
    · refine ⟨⟨_, (hmem _).2 ⟨c, hc, .inr (.inl rfl)⟩, rfl⟩, c, hc, _, (hmem _).2 ⟨c, hc, .inl rfl⟩,
        hmid c, rfl, .inl ⟨rfl, rfl, rfl, rfl, rfl, rfl⟩⟩
    · refine ⟨⟨_, (hmem _).2 ⟨c, hc, .inr (.inr rfl)⟩, rfl⟩, c, hc, _, (hmem _).2 ⟨c, hc, .inl rfl⟩,
        hmid c, rfl, .inr ⟨rfl, rfl, rfl, (hcap c hc).1, congrArg CktId.text (h2 c hc).2.2.2.2, rfl⟩⟩

example (k : Kind) : ((finalState (validate Env.default) (Ex.square k)).mapElements true).1.length =
    12 := by
  cases k <;> decide +kernel

/-- a circuit A–B and a node C without interfaces -/
def Ex.lonely (k : Kind) : State := Ex.mk k
  [{ name := "A" }, { name := "B" }, { name := "C" }] (Ex.link "p" 0 1 10 100 1) [] [] []

/-- **C83** is false for a node without interfaces: it is in the node menu but not on the map. -/
theorem C83_orphan_false (k : Kind) : raised (validate Env.default) (Ex.lonely k) = none ∧
    nodeMenu (finalState (validate Env.default) (Ex.lonely k)) = ["A", "B", "C"] ∧
    ¬ ∃ v ∈ ((finalState (validate Env.default) (Ex.lonely k)).mapElements true).1, v.id = "C" := by
  cases k <;> exact ⟨by decide +kernel, by decide +kernel, by decide +kernel⟩

/-- **C83** (part: no node name has a hyphen) Elements of the map with the same id are the same
element, so none of them hides another. -/
theorem C83_ids_partial {s : State} (hg : Grounded s)
    (hnames : (s.nodes.map fun n => (s.node n).name).Nodup)
    (hends : ∀ c ∈ s.circuits, c.1 ∈ s.ifs ∧ c.2 ∈ s.ifs)
    (hhy : ∀ n ∈ s.nodes, '-' ∉ (s.node n).name.toList) :
    ∀ v ∈ (s.mapElements true).1, ∀ w ∈ (s.mapElements true).1, v.id = w.id → v = w := by
  have hinj : ∀ n ∈ s.nodes, ∀ m ∈ s.nodes, (s.node n).name = (s.node m).name → n = m :=
    fun n hn m hm e => List.inj_on_of_nodup_map hnames hn hm e
  have hmem : ∀ v, v ∈ (s.mapElements true).1 → (∃ n ∈ s.nodes, v = s.drawnNode n) ∨
      ∃ c : ℕ × ℕ, v = s.drawnMid true c ∧ (s.ifc c.1).node ∈ s.nodes ∧
        (s.ifc c.2).node ∈ s.nodes := by
    intro v hv
    simp only [State.mapElements, List.mem_flatMap, List.mem_cons, List.not_mem_nil, or_false] at hv
    obtain ⟨c, hc, hv⟩ := hv
    have a := (hg.ifs _ (hends c hc).1).2.1
    have b := (hg.ifs _ (hends c hc).2).2.1
    rcases hv with rfl | rfl | rfl
    · exact .inr ⟨c, rfl, a, b⟩
    · exact .inl ⟨_, a, rfl⟩
    · exact .inl ⟨_, b, rfl⟩
  have hlab : ∀ c : ℕ × ℕ, (s.ifc c.1).node ∈ s.nodes → (s.ifc c.2).node ∈ s.nodes →
      splitDash (s.midLabel true c) = ["midpoint", s.tail c.1, s.tail c.2] := by
    intro c a b
    have : s.midLabel true c = "midpoint" ++ "-" ++ (s.tail c.1 ++ "-" ++ s.tail c.2) := by
      unfold State.midLabel
      simp only [if_true, ← String.append_assoc]
      rfl
    rw [this, splitDash_cons (by decide), splitDash_cons (a := s.tail c.1) (hhy _ a),
      splitDash_single (a := s.tail c.2) (hhy _ b)]
  have hcross : ∀ n ∈ s.nodes, ∀ c : ℕ × ℕ, (s.ifc c.1).node ∈ s.nodes →
      (s.ifc c.2).node ∈ s.nodes → (s.node n).name ≠ s.midLabel true c := by
    intro n hn c a b e
    have := hlab c a b
    rw [← e, splitDash_single (hhy n hn)] at this
    simp at this
  intro v hv w hw e
  rcases hmem v hv with ⟨n, hn, rfl⟩ | ⟨c, rfl, a, b⟩ <;>
    rcases hmem w hw with ⟨m, hm, rfl⟩ | ⟨d, rfl, a', b'⟩
  · rw [hinj n hn m hm e]
  · exact absurd e (hcross n hn d a' b')
  · exact absurd e.symm (hcross m hm c a b)
  · have e' : s.midLabel true c = s.midLabel true d := e
    have h1 := hlab c a b
    rw [e', hlab d a' b'] at h1
    simp only [List.cons.injEq, and_true, true_and] at h1
    have e1 := hinj _ a' _ a h1.1
    have e2 := hinj _ b' _ b h1.2
    unfold State.drawnMid
    rw [e', e1, e2]

example (k : Kind) : Grounded (finalState (validate Env.default) (Ex.square k)) ∧
    ((finalState (validate Env.default) (Ex.square k)).nodes.map fun n =>
      ((finalState (validate Env.default) (Ex.square k)).node n).name) = ["A", "B", "C", "D"] ∧
    (finalState (validate Env.default) (Ex.square k)).circuits.length = 4 := by
  cases k <;> exact ⟨⟨by decide +kernel, by decide +kernel, by decide +kernel, by decide +kernel,
    by decide +kernel⟩, by decide +kernel, by decide +kernel⟩

/-! ## C84: colours -/

/-- **C84** A failed interface is drawn in grey; a colour given to any other interface is the one
the legend has for its utilization. -/
theorem C84_colors_sound (u : Option ℚ) (color : String) (h : edgeColor u = some color) :
    (u = none ∧ color = "dimgrey") ∨ ∃ q, u = some q ∧ Legend q color := by
  cases u with
  | none => exact .inl ⟨rfl, (Option.some.inj h).symm⟩
  | some q =>
    refine .inr ⟨q, rfl, ?_⟩
    unfold edgeColor at h
    simp only [] at h
    split at h
    · cases h; exact .darkviolet ‹_›
    · rw [rangeColor_utilRanges] at h
      repeat' split at h
      all_goals cases h
      · rename_i h'; exact .royalblue h'.1 h'.2
      · rename_i h'; exact .green h'.1 h'.2
      · rename_i h'; exact .yellow h'.1 h'.2
      · rename_i h'; exact .orangered h'.1 h'.2
      · rename_i h'; exact .darkred h'.1 h'.2

/-- **C84** (part: whole percentages, and loads of 100% or more) Every interface that carries a
non-negative load has a colour of the legend, and a failed one is grey. -/
theorem C84_colors_complete_partial :
    edgeColor none = some "dimgrey" ∧
    (∀ q color, Legend q color → edgeColor (some q) = some color) ∧
    (∀ n : ℕ, ∃ color, Legend n color) ∧ ∀ q : ℚ, 100 ≤ q → Legend q "darkviolet" := by
  refine ⟨rfl, ?_, ?_, fun q => .darkviolet⟩
  · intro q color h
    unfold edgeColor
    simp only []
    cases h with
    | darkviolet h => rw [if_pos h]
    | royalblue a b =>
      rw [if_neg (by linarith), rangeColor_utilRanges, if_pos ⟨a, b⟩]
    | green a b =>
      rw [if_neg (by linarith), rangeColor_utilRanges, if_neg (by rintro ⟨_, _⟩; linarith),
        if_pos ⟨a, b⟩]
    | yellow a b =>
      rw [if_neg (by linarith), rangeColor_utilRanges, if_neg (by rintro ⟨_, _⟩; linarith),
        if_neg (by rintro ⟨_, _⟩; linarith), if_pos ⟨a, b⟩]
    | orangered a b =>
      rw [if_neg (by linarith), rangeColor_utilRanges, if_neg (by rintro ⟨_, _⟩; linarith),
        if_neg (by rintro ⟨_, _⟩; linarith), if_neg (by rintro ⟨_, _⟩; linarith), if_pos ⟨a, b⟩]
    | darkred a b =>
      rw [if_neg (by linarith), rangeColor_utilRanges, if_neg (by rintro ⟨_, _⟩; linarith),
        if_neg (by rintro ⟨_, _⟩; linarith), if_neg (by rintro ⟨_, _⟩; linarith),
        if_neg (by rintro ⟨_, _⟩; linarith), if_pos ⟨a, b⟩]
  · intro n
    by_cases h1 : n ≤ 24
    · exact ⟨_, .royalblue (by positivity) (by exact_mod_cast h1)⟩
    by_cases h2 : n ≤ 49
    · exact ⟨_, .green (by exact_mod_cast (by omega : 25 ≤ n)) (by exact_mod_cast h2)⟩
    by_cases h3 : n ≤ 74
    · exact ⟨_, .yellow (by exact_mod_cast (by omega : 50 ≤ n)) (by exact_mod_cast h3)⟩
    by_cases h4 : n ≤ 89
    · exact ⟨_, .orangered (by exact_mod_cast (by omega : 75 ≤ n)) (by exact_mod_cast h4)⟩
    by_cases h5 : n ≤ 99
    · exact ⟨_, .darkred (by exact_mod_cast (by omega : 90 ≤ n)) (by exact_mod_cast h5)⟩
    exact ⟨_, .darkviolet (by exact_mod_cast (by omega : 100 ≤ n))⟩

/-- one circuit of capacity 200 and a demand of 49: a load of 24.5% -/
def Ex.gap (k : Kind) : State := Ex.mk k
  [{ name := "A" }, { name := "B" }] (Ex.link "p" 0 1 10 200 1)
  [{ src := 0, dst := 1, traffic := 49, name := "x" }] [] []

/-- **C84** is false between the ranges of the legend: a load of 24.5% after a simulation gets no
colour at all. -/
theorem C84_gap_false (k : Kind) : raised (updateSimulation Env.default) (Ex.gap k) = none ∧
    (finalState (updateSimulation Env.default) (Ex.gap k)).utilization 0 = some (49 / 2) ∧
    (((finalState (updateSimulation Env.default) (Ex.gap k)).mapElements true).2.map
      MapEdge.group) = [none, some "royalblue"] := by
  cases k <;> exact ⟨by decide +kernel, by decide +kernel, by decide +kernel⟩

/-- **C84** The loads without a colour are exactly those between two ranges of the legend. -/
theorem C84_gaps {q : ℚ} (hq : 0 ≤ q) : edgeColor (some q) = none ↔
    (24 < q ∧ q < 25) ∨ (49 < q ∧ q < 50) ∨ (74 < q ∧ q < 75) ∨ (89 < q ∧ q < 90) ∨
      (99 < q ∧ q < 100) := by
  unfold edgeColor
  simp only [rangeColor_utilRanges]
  constructor
  · intro h
    split_ifs at h with h0 h1 h2 h3 h4 h5
    simp only [not_and, not_le] at h0 h1 h2 h3 h4 h5
    have h1 := h1 hq
    by_cases a : q < 25
    · exact .inl ⟨h1, a⟩
    have h2 := h2 (not_lt.1 a)
    by_cases a : q < 50
    · exact .inr (.inl ⟨h2, a⟩)
    have h3 := h3 (not_lt.1 a)
    by_cases a : q < 75
    · exact .inr (.inr (.inl ⟨h3, a⟩))
    have h4 := h4 (not_lt.1 a)
    by_cases a : q < 90
    · exact .inr (.inr (.inr (.inl ⟨h4, a⟩)))
    exact .inr (.inr (.inr (.inr ⟨h5 (not_lt.1 a), h0⟩)))
  · intro h
    split_ifs with h0 h1 h2 h3 h4 h5
    all_goals first
      | rfl
      | (exfalso; rcases h with h | h | h | h | h <;> obtain ⟨_, _⟩ := h <;>
          linarith)

example : (0 : ℚ) ≤ 49 / 2 ∧ edgeColor (some (49 / 2)) = none ∧ edgeColor (some 24) = some "royalblue" :=
  ⟨by norm_num, by decide +kernel, by decide +kernel⟩

/-! ## C85: menus -/

/-- **C85** (part: no end point has a hyphen in its name) The source and destination menus for
demands, and the demands offered for a selection, are exact. -/
theorem C85_demand_menus_partial {env : Env} {s : State} (hhy : NoHyphens s) :
    MenusRight env .demand s s.dmds s.dmdSrc s.dmdDst := by
  refine menusRight_of (t := s) rfl (C50_demand_groups_partial (keysDistinct_of_noHyphen hhy)) ?_
  intro d hd
  have h1 : s.dmdSrc d ∈ s.dmds.map s.dmdSrc := List.mem_map.2 ⟨d, hd, rfl⟩
  have h2 : s.dmdDst d ∈ s.dmds.map s.dmdDst := List.mem_map.2 ⟨d, hd, rfl⟩
  constructor <;> (apply hhy; unfold endNames; simp only [List.mem_append]; tauto)

/-- **C85** (part: no end point has a hyphen in its name) The same for LSPs, if the groups of
parallel LSPs were never computed or are up to date, as they are after a simulation (C51). -/
theorem C85_lsp_menus_partial {env : Env} {s : State} (hhy : NoHyphens s)
    (hg : s.groups = [] ∨ Grouped s.groups s.lsps s.lspSrc s.lspDst) :
    MenusRight env .lsp s s.lsps s.lspSrc s.lspDst := by
  have hy : ∀ l ∈ s.lsps, '-' ∉ (s.lspSrc l).toList ∧ '-' ∉ (s.lspDst l).toList := by
    intro d hd
    have h1 : s.lspSrc d ∈ s.lsps.map s.lspSrc := List.mem_map.2 ⟨d, hd, rfl⟩
    have h2 : s.lspDst d ∈ s.lsps.map s.lspDst := List.mem_map.2 ⟨d, hd, rfl⟩
    constructor <;> (apply hhy; unfold endNames; simp only [List.mem_append]; tauto)
  by_cases he : s.groups = []
  · obtain ⟨g, t, h1, h2⟩ := C50_lsp_groups_partial (env := env) (keysDistinct_of_noHyphen hhy) he
    exact menusRight_of (t := t) h1 h2 hy
  · exact menusRight_of (t := s) (lspGroups_held rfl he) (hg.resolve_left he) hy

example (k : Kind) : NoHyphens (Ex.square k) ∧
    (∃ t, endMenus Env.default .demand none none (Ex.square k) = .ok (["A"], ["B", "D"]) t) ∧
    (∃ t, offered Env.default .demand none (some "D") (Ex.square k) = .ok [0] t) := by
  cases k <;> exact ⟨by unfold NoHyphens; decide +kernel, ⟨_, rfl⟩, ⟨_, rfl⟩⟩

example (k : Kind) : NoHyphens (Ex.ridden k) ∧ (Ex.ridden k).lsps ≠ [] := by
  cases k <;> exact ⟨by unfold NoHyphens; decide +kernel, by decide +kernel⟩

/-- a circuit between "a-b" and "c", and a demand between them -/
def Ex.dashed (k : Kind) : State := Ex.mk k
  [{ name := "a-b" }, { name := "c" }] (Ex.link "p" 0 1 10 100 1)
  [{ src := 0, dst := 1, traffic := 5, name := "x" }] [] []

/-- **C85** is false with hyphens in the names: the page cannot be built at all. -/
theorem C85_hyphen_false (k : Kind) : raised (updateSimulation Env.default) (Ex.dashed k) = none ∧
    raised (endMenus Env.default .demand none none)
      (finalState (updateSimulation Env.default) (Ex.dashed k)) = some .valueError := by
  cases k <;> exact ⟨by decide +kernel, by decide +kernel⟩

/-- **C85** The node menu holds the name of every node, in ascending order. -/
theorem C85_node_menu (s : State) :
    (nodeMenu s).Perm (s.nodes.map fun n => (s.node n).name) ∧ (nodeMenu s).Pairwise (· ≤ ·) :=
  ⟨List.perm_insertionSort _ _, List.pairwise_insertionSort _ _⟩

example (k : Kind) : nodeMenu (Ex.square k) = ["A", "B", "C", "D"] := by cases k <;> decide +kernel

end NTM
