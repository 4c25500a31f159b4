import Verif.Proof.Circuits
import Verif.Spec.Examples
import Verif.Spec.Decide

/-!
# C28–C35: circuits and `validate_model()`
-/

namespace NTM

open Spec

/-- no end in common -/
def Spec.Disjoint (c d : ℕ × ℕ) : Prop := c.1 ≠ d.1 ∧ c.1 ≠ d.2 ∧ c.2 ≠ d.1 ∧ c.2 ≠ d.2

/-- **C28** When `validate_model()` succeeds, every interface with non-negative reservable
bandwidth is in exactly one circuit; circuits join opposite interfaces with the same circuit
id and have no interface in common. -/
theorem C28_circuits_pair {env : Env} {s t : State} (hset : CktIdsSet s)
    (h : validate env s = .ok () t) :
    (∀ i ∈ t.ifs, 0 ≤ t.reservable i → ∃! c, c ∈ t.circuits ∧ (i = c.1 ∨ i = c.2)) ∧
    (∀ c ∈ t.circuits, c.1 ∈ t.ifs ∧ c.2 ∈ t.ifs ∧ t.tail c.1 = t.head c.2 ∧
      t.head c.1 = t.tail c.2 ∧ (t.ifc c.1).cktId = (t.ifc c.2).cktId) ∧
    t.circuits.Pairwise Disjoint := by
  obtain ⟨u, hu, rfl, hv⟩ := validate_well hset h
  have hrep : ∀ i, (u.repair.ifc i).cktId = (u.ifc i).cktId := by
    intro i; unfold State.repair State.repairOver; simp only []; split <;> rfl
  obtain ⟨B, I, he⟩ := hu.eq
  have htail : ∀ i, u.repair.tail i = s.tail i := by
    intro i
    unfold State.tail
    rw [(repair_ifc u i).1]
    show (u.node (u.ifc i).node).name = _
    rw [he]; rfl
  have hhead : ∀ i, u.repair.head i = s.head i := by
    intro i
    unfold State.head
    rw [(repair_ifc u i).2.1]
    show (u.node (u.ifc i).remote).name = _
    rw [he]; rfl
  have hifs : u.repair.ifs = s.ifs := by show u.ifs = _; rw [he]; rfl
  refine ⟨?_, ?_, hu.apart⟩
  · intro i hi hr
    rw [hifs] at hi
    have hex : ∃ c ∈ u.circuits, IsEnd i c := by
      by_cases hm : u.misIn u.circuits i = true
      · obtain ⟨c, hc, hi, -⟩ := misIn_iff.1 hm
        exact ⟨c, hc, hi⟩
      · refine hu.cover hu.single hu.set i (mem_matchable.2 ⟨hi, ?_⟩)
        have e1 : u.repair.ifc i = u.ifc i := by
          unfold State.repair State.repairOver
          simp only [hm, Bool.false_eq_true, if_false]
        have e2 : u.repair.reservable i = u.reservable i := by
          unfold State.reservable State.reservedBw; rw [e1]
        have e3 : u.reservable i = s.reservable i := by rw [he]; rfl
        rw [← e3, ← e2]; exact hr
    obtain ⟨c, hc, hi⟩ := hex
    exact ⟨c, ⟨hc, hi⟩, fun d hd => pairwise_unique hu.apart hd.1 hc hd.2 hi⟩
  · intro c hc
    obtain ⟨h1, h2, h3, h4⟩ := hu.ends c hc
    rw [htail, htail, hhead, hhead, hifs, hrep, hrep]
    exact ⟨h1, h2, h3, h4, hu.sameId hset c hc⟩

/-- Two parallel circuits A–B and a circuit B–C. -/
def Ex.pairs : State := Ex.mk .flex
  [{ name := "A" }, { name := "B" }, { name := "C" }]
  (Ex.link "p" 0 1 10 100 1 ++ Ex.link "q" 0 1 20 40 2 ++ Ex.link "r" 1 2 10 100 3) [] [] []

example : CktIdsSet Ex.pairs ∧
    validate Env.default Ex.pairs = .ok () (finalState (validate Env.default) Ex.pairs) ∧
    (finalState (validate Env.default) Ex.pairs).circuits = [(0, 1), (2, 3), (4, 5)] :=
  ⟨by decide +kernel, ok_of_raised (by decide +kernel), by decide +kernel⟩

example (k : Kind) : CktIdsSet (Ex.square k) ∧
    validate Env.default (Ex.square k) = .ok () (finalState (validate Env.default) (Ex.square k)) ∧
    (finalState (validate Env.default) (Ex.square k)).circuits.length = 4 := by
  cases k <;> exact ⟨by decide +kernel, ok_of_raised (by decide +kernel), by decide +kernel⟩

/-- the remote interface of every interface is on the other side, points back, and has the
interface as its own remote interface -/
def Spec.RemoteInvolution (s : State) : Prop :=
  ∀ i ∈ s.ifs, ∃ j ∈ s.ifs, s.remoteIfc i = .ok j ∧ s.tail j = s.head i ∧ s.head j = s.tail i ∧
    s.remoteIfc j = .ok i

theorem remote_of {t : State} (hu : IdsUniquePerNode t)
    (h : ∀ i ∈ t.ifs, ∃ j ∈ t.ifs, t.tail j = t.head i ∧ t.head j = t.tail i ∧
      (t.ifc j).cktId = (t.ifc i).cktId) : RemoteInvolution t := by
  intro i hi
  obtain ⟨j, hj, h1, h2, h3⟩ := h i hi
  refine ⟨j, hj, remoteIfc_eq hj h1 h2 h3 ?_, h1, h2, remoteIfc_eq hi h2.symm h1.symm h3.symm ?_⟩
  · intro k hk h4 h5
    exact hu k hk j hj (h4.trans h1.symm) (h5.trans h3.symm)
  · intro k hk h4 h5
    exact hu k hk i hi (h4.trans h2) (h5.trans h3)

/-- **C29** After a successful validation of a model whose interfaces all have non-negative
reservable bandwidth (in a FlexModel: with circuit ids that are set and unique on every
node), `get_remote_interface` is an involution. -/
theorem C29_remote_involution_partial {env : Env} {s t : State} (hset : CktIdsSet s)
    (hids : s.kind = .flex → IdsUniquePerNode s) (hall : ∀ i ∈ s.ifs, 0 ≤ s.reservable i)
    (h : validate env s = .ok () t) : RemoteInvolution t := by
  obtain ⟨h1, h2, -⟩ := C28_circuits_pair hset h
  obtain ⟨u, hu, rfl, hv⟩ := validate_well hset h
  have hrep : ∀ i, (u.repair.ifc i).cktId = (u.ifc i).cktId := by
    intro i; unfold State.repair State.repairOver; simp only []; split <;> rfl
  obtain ⟨B, I, he⟩ := hu.eq
  have htail : ∀ i, u.repair.tail i = s.tail i := by
    intro i
    unfold State.tail
    rw [(repair_ifc u i).1]
    show (u.node (u.ifc i).node).name = _
    rw [he]; rfl
  have hifs : u.repair.ifs = s.ifs := by show u.ifs = _; rw [he]; rfl
  have hcov : ∀ i ∈ s.ifs, ∃ c ∈ u.circuits, IsEnd i c := fun i hi =>
    hu.cover hu.single hu.set i (mem_matchable.2 ⟨hi, hall i hi⟩)
  refine remote_of ?_ ?_
  · intro i hi j hj ht hid
    rw [htail, htail] at ht
    rw [hrep, hrep] at hid
    rw [hifs] at hi hj
    cases hk : s.kind with
    | flex =>
      rw [hu.flexIds hk, hu.flexIds hk] at hid
      exact hids hk i hi j hj ht hid
    | perf =>
      obtain ⟨c, hc, hic⟩ := hcov i hi
      obtain ⟨d, hd, hjd⟩ := hcov j hj
      have hsame : ∀ c ∈ u.circuits, ∀ i, IsEnd i c → (u.ifc i).cktId = (u.ifc c.1).cktId := by
        rintro c hc i (rfl | rfl)
        · rfl
        · exact (hu.sameId hset c hc).symm
      have hcd : c = d := by
        by_contra hne
        have hp := (hu.numIds hk).2.1
        have : Std.Symm fun c d : ℕ × ℕ => (u.ifc c.1).cktId ≠ (u.ifc d.1).cktId :=
          ⟨fun _ _ h => h.symm⟩
        refine hp.forall hc hd hne ?_
        rw [← hsame c hc i hic, ← hsame d hd j hjd, hid]
      subst hcd
      obtain ⟨e1, e2, e3, e4⟩ := hu.ends c hc
      rcases hic with rfl | rfl <;> rcases hjd with rfl | rfl
      · rfl
      · refine hu.single hk _ e1 _ e2 ht ?_
        rw [e4, ← ht, e3]
      · refine hu.single hk _ e2 _ e1 ht ?_
        rw [e4, ht, e3]
      · rfl
  · intro i hi
    rw [hifs] at hi
    obtain ⟨c, hc, hic⟩ := hcov i hi
    obtain ⟨e1, e2, e3, e4, e5⟩ := h2 c hc
    rcases hic with rfl | rfl
    · exact ⟨c.2, e2, e4.symm, e3.symm, e5.symm⟩
    · exact ⟨c.1, e1, e3, e4, e5⟩

example : IdsUniquePerNode Ex.pairs ∧ (∀ i ∈ Ex.pairs.ifs, 0 ≤ Ex.pairs.reservable i) ∧
    (finalState (validate Env.default) Ex.pairs).remoteIfc 2 = .ok 3 := by
  refine ⟨?_, by decide +kernel, by decide +kernel⟩
  unfold IdsUniquePerNode
  decide +kernel

/-- **C30** `validate_model()` on a PerformanceModel raises whenever two interfaces have the same
local and the same remote node. -/
theorem C30_parallel_links_rejected {env : Env} {s : State} (hk : s.kind = .perf) {i j : ℕ}
    (hi : i ∈ s.ifs) (hj : j ∈ s.ifs) (hne : i ≠ j) (h1 : s.tail i = s.tail j)
    (h2 : s.head i = s.head j) : ∃ e, raised (validate env) s = some e := by
  unfold raised
  cases h : validate env s with
  | error e t => exact ⟨e, rfl⟩
  | ok _ t =>
    obtain ⟨u, hu, -, hv⟩ := validate_ok h
    exact absurd (single_of_multipleLinks ((hu.core.1 hv.core).links hk) i hi j hj h1 h2) hne

example : (Ex.mk .perf [{ name := "A" }, { name := "B" }]
    (Ex.link "p" 0 1 10 100 1 ++ Ex.link "q" 0 1 10 100 2) [] [] []).kind = .perf ∧
    raised (validate Env.default) (Ex.mk .perf [{ name := "A" }, { name := "B" }]
      (Ex.link "p" 0 1 10 100 1 ++ Ex.link "q" 0 1 10 100 2) [] [] []) =
      some (.model "network interface validation failed, see returned data") :=
  ⟨rfl, by decide +kernel⟩

/-- Circuits "a-b"–"c" and "a"–"b-c": no parallel links, but the names read the same. -/
def Ex.hyphens (k : Kind) : State := Ex.mk k
  [{ name := "a-b" }, { name := "c" }, { name := "a" }, { name := "b-c" }]
  (Ex.link "p" 0 1 10 100 1 ++ Ex.link "q" 2 3 10 100 2) [] [] []

/-- **C30** A PerformanceModel without parallel links is rejected because of its node names; the
same network as a FlexModel is accepted. -/
theorem C30_hyphen_rejected : SingleLinks (Ex.hyphens .perf) ∧
    raised (validate Env.default) (Ex.hyphens .perf) =
      some (.model "network interface validation failed, see returned data") ∧
    raised (validate Env.default) (Ex.hyphens .flex) = none :=
  ⟨by decide +kernel, by decide +kernel, by decide +kernel⟩

/-- Two interfaces named "x" on node A. -/
def Ex.sameName (k : Kind) : State := Ex.mk k
  [{ name := "A" }, { name := "B" }, { name := "C" }]
  ([{ name := "x", cost := 1, capacity := 1, node := 0, remote := 1, cktId := .num 1 },
    { name := "y", cost := 1, capacity := 1, node := 1, remote := 0, cktId := .num 1 },
    { name := "x", cost := 1, capacity := 1, node := 0, remote := 2, cktId := .num 2 },
    { name := "z", cost := 1, capacity := 1, node := 2, remote := 0, cktId := .num 2 }]) [] [] []

/-- **C31** is false: two interfaces with the same name on one node pass validation. -/
theorem C31_duplicate_names_false : ¬ ∀ (env : Env) (s : State), Tidy s →
    (∃ i ∈ s.ifs, ∃ j ∈ s.ifs, i ≠ j ∧ s.ifcKey i = s.ifcKey j) →
    ∃ e, raised (validate env) s = some e := by
  intro h
  obtain ⟨e, he⟩ := h Env.default (Ex.sameName .perf) (by decide +kernel)
    ⟨0, by decide +kernel, 2, by decide +kernel, by decide, by decide +kernel⟩
  have : raised (validate Env.default) (Ex.sameName .perf) = none := by decide +kernel
  rw [this] at he
  cases he

/-- **C31** In a FlexModel as well. -/
theorem C31_duplicate_names_flex_false :
    raised (validate Env.default) (Ex.sameName .flex) = none ∧
    ∃ i ∈ (Ex.sameName .flex).ifs, ∃ j ∈ (Ex.sameName .flex).ifs, i ≠ j ∧
      (Ex.sameName .flex).ifcKey i = (Ex.sameName .flex).ifcKey j :=
  ⟨by decide +kernel, 0, by decide +kernel, 2, by decide +kernel, by decide, by decide +kernel⟩

/-- **C32** (partial) `validate_model()` raises when an interface with non-negative reservable
bandwidth has no counterpart among those in the opposite direction. -/
theorem C32_unmatched_rejected_partial {env : Env} {s : State} {i : ℕ} (hi : i ∈ s.ifs)
    (hr : 0 ≤ s.reservable i)
    (hno : ¬ ∃ j ∈ s.ifs, 0 ≤ s.reservable j ∧ s.tail j = s.head i ∧ s.head j = s.tail i) :
    ∃ e, raised (validate env) s = some e := by
  unfold raised
  cases h : validate env s with
  | error e t => exact ⟨e, rfl⟩
  | ok _ t =>
    obtain ⟨u, hu, -, hv⟩ := validate_ok h
    obtain ⟨j, hj, h1, h2⟩ := hu.rev i (mem_matchable.2 ⟨hi, hr⟩)
    exact absurd ⟨j, (mem_matchable.1 hj).1, (mem_matchable.1 hj).2, h1, h2⟩ hno

/-- **C32** (partial, FlexModel) ... or none with the same circuit id. -/
theorem C32_unmatched_rejected_flex_partial {env : Env} {s : State} (hk : s.kind = .flex) {i : ℕ}
    (hi : i ∈ s.ifs) (hr : 0 ≤ s.reservable i) (hid : (s.ifc i).cktId ≠ .none)
    (hno : ¬ ∃ j ∈ s.ifs, s.tail j = s.head i ∧ s.head j = s.tail i ∧
      (s.ifc j).cktId = (s.ifc i).cktId) : ∃ e, raised (validate env) s = some e := by
  unfold raised
  cases h : validate env s with
  | error e t => exact ⟨e, rfl⟩
  | ok _ t =>
    obtain ⟨u, hu, -, hv⟩ := validate_ok h
    obtain ⟨-, b, l, hb⟩ := hu.found hk i (mem_matchable.2 ⟨hi, hr⟩)
    obtain ⟨h1, h2, h3, h4⟩ := ifcsFromNodes_some hb
    exact absurd ⟨b, h1, h2, h3, (h4 hid).1⟩ hno

/-- One interface A→B without a way back. -/
def Ex.oneWay (k : Kind) (rsvp : Bool) : State := Ex.mk k
  [{ name := "A" }, { name := "B" }]
  [{ name := "x", cost := 1, capacity := 1, node := 0, remote := 1, cktId := .num 1,
     rsvpEnabled := rsvp }] [] [] []

example (k : Kind) : raised (validate Env.default) (Ex.oneWay k true) =
    some (.model "WARNING: These interfaces were not matched into a circuit") := by
  cases k <;> decide +kernel

/-- **C29** Without the condition on reservable bandwidth it is false: the model is accepted, but
looking up the remote interface of a one-way interface without RSVP raises
`UnboundLocalError`. -/
theorem C29_remote_false (k : Kind) : raised (validate Env.default) (Ex.oneWay k false) = none ∧
    (finalState (validate Env.default) (Ex.oneWay k false)).remoteIfc 0 = .error .unboundLocal := by
  cases k <;> exact ⟨by decide +kernel, by decide +kernel⟩

/-- **C32** is false for an interface that does not run RSVP: it is never matched, and the model
is accepted. -/
theorem C32_unmatched_false (k : Kind) : raised (validate Env.default) (Ex.oneWay k false) = none ∧
    (finalState (validate Env.default) (Ex.oneWay k false)).circuits = [] ∧
    0 ∈ (Ex.oneWay k false).ifs := by
  cases k <;> exact ⟨by decide +kernel, by decide +kernel, by decide +kernel⟩

theorem validate_again {s u : State} (env' : Env) (hu : PairedWell s u) (hv : ValidOk u)
    (hr : u.repair = u) : ∃ u', PairedWell u u' ∧ validate env' u = .ok () u'.repair ∧
      u'.repair = u' ∧ ∀ i j, Linked u' i j ↔ Linked u i j := by
  obtain ⟨B, I, he⟩ := hu.eq
  have hkind : u.kind = s.kind := by rw [he]; rfl
  have hifs : u.ifs = s.ifs := by rw [he]; rfl
  have htail : u.tail = s.tail := by rw [he]; rfl
  have hhead : u.head = s.head := by rw [he]; rfl
  have hmat : u.matchable = s.matchable := by rw [he]; rfl
  have hset : CktIdsSet u := by
    intro hk i hi
    rw [hkind] at hk
    rw [hu.flexIds hk]
    exact hu.set hk i (hifs ▸ hi)
  have hsing : u.kind = .perf → SingleLinks u := fun hk i hi j hj h1 h2 => by
    rw [htail] at h1; rw [hhead] at h2; rw [hifs] at hi hj
    exact hu.single (hkind ▸ hk) i hi j hj h1 h2
  have hopp : ∀ i j, Opposite u i j ↔ Opposite s i j := by
    intro i j
    unfold Opposite
    rw [htail, hhead, hkind]
    constructor
    · rintro ⟨h1, h2, h3⟩
      exact ⟨h1, h2, fun hk => by rw [← hu.flexIds hk, ← hu.flexIds hk]; exact h3 hk⟩
    · rintro ⟨h1, h2, h3⟩
      exact ⟨h1, h2, fun hk => by rw [hu.flexIds hk, hu.flexIds hk]; exact h3 hk⟩
  have huniq : ∀ {i j k : ℕ}, i ∈ s.matchable → j ∈ s.ifs → k ∈ s.ifs → Opposite s i j →
      Opposite s i k → j = k := fun hi hj hk => hu.unique hi hj hk
  have hcirc : ∀ u', PairedWell u u' → ∀ c ∈ u'.circuits, c ∈ u.circuits ∨ c.swap ∈ u.circuits := by
    intro u' hu' c hc
    refine linked_determined hu (v := u') (fun d hd => ?_) hc
    refine ⟨hmat ▸ hu'.first hd, hifs ▸ (hu'.ends d hd).2.1, (hopp _ _).1 (hu'.opposite hd)⟩
  have hwell : ∀ u', Paired u u' → PairedWell u u' := fun u' h =>
    { h with single := hsing, set := hset }
  have hfound : u.kind = .flex → ∀ e ∈ u.matchable, FlexFound u e := by
    intro hk e hm
    have hf := hu.found (hkind ▸ hk) e (hmat ▸ hm)
    have hid : ∀ i, (u.ifc i).cktId = (s.ifc i).cktId := hu.flexIds (hkind ▸ hk)
    have hl : ∀ a b c, u.ifcsFromNodes a b c = s.ifcsFromNodes a b c := by
      intro a b c
      unfold State.ifcsFromNodes
      rw [hifs, htail, hhead]
      simp only [hid]
    unfold FlexFound at *
    rw [hl, hl, hid, htail, hhead]
    exact hf
  obtain ⟨u', hp, hrun⟩ := validate_complete env' (s := u)
    (by
      rintro ⟨i, hi, hno⟩
      rw [hmat] at hi hno
      rw [htail, hhead] at hno
      exact hno (hu.rev i hi))
    hfound
    (by
      intro u' hp
      refine ValidCore.ok (hp.core.2 hv.core) ?_
      intro c hc
      obtain ⟨B', I', he'⟩ := hp.eq
      have hcap : ∀ i, (u'.ifc i).capacity = (u.ifc i).capacity := by intro i; rw [he']; rfl
      rw [hcap, hcap]
      rcases hcirc u' (hwell u' hp) c hc with h | h
      · exact hv.capacity c h
      · exact (hv.capacity c.swap h).symm)
  have hw := hwell u' hp
  refine ⟨u', hw, hrun, ?_, ?_⟩
  · apply repair_self
    intro c hc
    obtain ⟨B', I', he'⟩ := hp.eq
    have hfl : ∀ i, (u'.ifc i).failed = (u.ifc i).failed := by intro i; rw [he']; rfl
    have hagree : ∀ d ∈ u.circuits, (u.ifc d.1).failed = (u.ifc d.2).failed := by
      intro d hd
      have := repair_failed hu.apart hd
      rw [hr] at this
      exact this.1.trans this.2.symm
    rw [hfl, hfl]
    rcases hcirc u' hw c hc with h | h
    · exact hagree c h
    · exact (hagree c.swap h).symm
  · intro i j
    unfold Linked
    have back : ∀ c ∈ u.circuits, c ∈ u'.circuits ∨ c.swap ∈ u'.circuits := by
      intro c hc
      refine linked_determined hw (v := u) (fun d hd => ?_) hc
      exact ⟨hmat ▸ hu.first hd, hifs ▸ (hu.ends d hd).2.1, (hopp _ _).2 (hu.opposite hd)⟩
    constructor
    · rintro (h | h)
      · exact hcirc u' hw _ h
      · exact (hcirc u' hw _ h).symm
    · rintro (h | h)
      · exact back _ h
      · exact (back _ h).symm

/-- **C33** If `validate_model()` succeeds on a model in which the two ends of every circuit agree
on their failed status, then it succeeds again, whatever order sets are iterated in, and
changes neither paths, traffic, reservations, failure states nor circuit pairing (only the
circuit numbers a PerformanceModel hands out). -/
theorem C33_validation_repeatable_partial {env env' : Env} {s t : State} (hset : CktIdsSet s)
    (hag : EndsAgree s) (h : validate env s = .ok () t) :
    ∃ t', validate env' t = .ok () t' ∧ (∀ i j, Linked t' i j ↔ Linked t i j) ∧
      t'.dmd = t.dmd ∧ t'.lsp = t.lsp ∧ t'.node = t.node ∧ t'.srlg = t.srlg ∧
      t'.nodes = t.nodes ∧ t'.ifs = t.ifs ∧ t'.dmds = t.dmds ∧ t'.lsps = t.lsps ∧
      ∀ i, (t'.ifc i).traffic = (t.ifc i).traffic ∧ (t'.ifc i).failed = (t.ifc i).failed ∧
        t'.reservedBw i = t.reservedBw i ∧
        (t.kind = .flex → (t'.ifc i).cktId = (t.ifc i).cktId) := by
  obtain ⟨u, hu, rfl, hv⟩ := validate_well hset h
  obtain ⟨B, I, he⟩ := hu.eq
  have hr : u.repair = u := by
    apply repair_self
    intro c hc
    have hfl : ∀ i, (u.ifc i).failed = (s.ifc i).failed := by intro i; rw [he]; rfl
    rw [hfl, hfl]
    exact hag c.1 (hu.ends c hc).1 c.2 (hu.ends c hc).2.1 (hu.opposite hc)
  obtain ⟨u', hw, hrun, hr', hl⟩ := validate_again env' hu hv hr
  rw [hr]
  rw [hr'] at hrun
  obtain ⟨B', I', he'⟩ := hw.eq
  refine ⟨u', hrun, hl, ?_⟩
  refine ⟨by rw [he']; rfl, by rw [he']; rfl, by rw [he']; rfl, by rw [he']; rfl, by rw [he']; rfl,
    by rw [he']; rfl, by rw [he']; rfl, by rw [he']; rfl, fun i => ⟨by rw [he']; rfl, by rw [he']; rfl,
      by rw [he']; rfl, fun hk => hw.flexIds hk i⟩⟩

example (k : Kind) : CktIdsSet (Ex.square k) ∧ EndsAgree (Ex.square k) ∧
    validate Env.default (Ex.square k) = .ok () (finalState (validate Env.default) (Ex.square k)) := by
  cases k <;> exact ⟨by decide +kernel, by decide +kernel, ok_of_raised (by decide +kernel)⟩

/-- An LSP is routed over A→B; then only the interface B→A is marked failed. -/
def Ex.halfDown (k : Kind) : State := Ex.mk k
  [{ name := "A" }, { name := "B" }]
  [{ name := "x", cost := 1, capacity := 10, node := 0, remote := 1, cktId := .num 1,
     reservedRaw := 4 },
   { name := "y", cost := 1, capacity := 10, node := 1, remote := 0, cktId := .num 1,
     failed := true }]
  [] [{ src := 0, dst := 1, name := "l", path := .routed [0] 1 10, reserved := .val 4 }] []

/-- **C33** is false when the ends of a circuit disagree: the first validation fails the other
end, dropping its reservations, and the second then raises. -/
theorem C33_validation_repeatable_false (k : Kind) :
    raised (validate Env.default) (Ex.halfDown k) = none ∧
    raised (validate Env.default) (finalState (validate Env.default) (Ex.halfDown k)) =
      some (.model "network interface validation failed, see returned data") := by
  cases k <;> exact ⟨by decide +kernel, by decide +kernel⟩

/-- **C34** After a successful validation the two interfaces of every circuit have the same
capacity and the same failed status: failed if either was.  No other interface changes its
failed status, and none is restored. -/
theorem C34_circuits_consistent {env : Env} {s t : State} (h : validate env s = .ok () t) :
    (∀ c ∈ t.circuits, (t.ifc c.1).capacity = (t.ifc c.2).capacity ∧
      (t.ifc c.1).failed = ((s.ifc c.1).failed || (s.ifc c.2).failed) ∧
      (t.ifc c.2).failed = ((s.ifc c.1).failed || (s.ifc c.2).failed)) ∧
    (∀ i, (∀ c ∈ t.circuits, i ≠ c.1 ∧ i ≠ c.2) → (t.ifc i).failed = (s.ifc i).failed) := by
  obtain ⟨u, hu, rfl, hv⟩ := validate_ok h
  obtain ⟨B, I, he⟩ := hu.eq
  have hfl : ∀ i, (u.ifc i).failed = (s.ifc i).failed := by intro i; rw [he]; rfl
  refine ⟨?_, ?_⟩
  · intro c hc
    have := repair_failed hu.apart hc
    rw [hfl, hfl] at this
    rw [(repair_ifc u c.1).2.2, (repair_ifc u c.2).2.2]
    exact ⟨hv.capacity c hc, this.1, this.2⟩
  · intro i hi
    have : u.misIn u.circuits i = false := by
      by_contra hm
      obtain ⟨c, hc, he, -⟩ := misIn_iff.1 (by simpa using hm)
      rcases he with e | e
      · exact (hi c hc).1 e
      · exact (hi c hc).2 e
    rw [← hfl]
    unfold State.repair State.repairOver
    simp only [this, Bool.false_eq_true, if_false]

example (k : Kind) : validate Env.default (Ex.halfDown k) =
      .ok () (finalState (validate Env.default) (Ex.halfDown k)) ∧
    (finalState (validate Env.default) (Ex.halfDown k)).circuits = [(0, 1)] ∧
    ((finalState (validate Env.default) (Ex.halfDown k)).ifc 0).failed = true := by
  cases k <;> exact ⟨ok_of_raised (by decide +kernel), by decide +kernel, by decide +kernel⟩

/-- **C35** `validate_model()` succeeds only if no two nodes of the model share a name. -/
theorem C35_unique_node_names {env : Env} {s t : State} (h : validate env s = .ok () t) :
    (s.nodes.map fun n => (s.node n).name).Nodup := by
  obtain ⟨u, hu, rfl, hv⟩ := validate_ok h
  have := (hu.core.1 hv.core).names
  have h2 : (s.nodes.map fun n => (s.node n).name).dedup.length =
      (s.nodes.map fun n => (s.node n).name).length := by
    rw [List.length_map]; exact this.symm
  have h3 := (List.dedup_sublist (s.nodes.map fun n => (s.node n).name)).eq_of_length h2
  rw [← h3]
  exact List.nodup_dedup _

example (k : Kind) : raised (validate Env.default) (Ex.mk k [{ name := "A" }, { name := "A" }]
    [] [] [] []) = some (.model "network interface validation failed, see returned data") := by
  cases k <;> decide +kernel

end NTM
