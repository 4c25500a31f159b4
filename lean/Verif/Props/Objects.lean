import Verif.Props.Queries
import Verif.Proof.Circuits
import Verif.Proof.ShortcutLsps
import Verif.Proof.LoadSum
import Verif.Model.Load

/-!
# C49, C53, C61–C63: lookups, cross-references, guardrails, utilization, table ends
-/

namespace NTM

open Spec

/-! ### lookups -/

/-- a lookup finds an object that fits if there is one, and raises `ModelException` if not -/
def Spec.LookupExact (res : Except Exn ℕ) (fits : ℕ → Prop) : Prop :=
  ((∃ x, fits x) → ∃ x, res = .ok x ∧ fits x) ∧
  ((¬ ∃ x, fits x) → ∃ msg, res = .error (.model msg))

theorem find_exact {l : List ℕ} {p : ℕ → Bool} {res : Except Exn ℕ} {msg : String}
    (hs : ∀ x, l.find? p = some x → res = .ok x)
    (hn : l.find? p = none → res = .error (.model msg)) :
    LookupExact res (fun x => x ∈ l ∧ p x = true) := by
  constructor
  · rintro ⟨x, hx, hp⟩
    cases hf : l.find? p with
    | none => exact absurd hp (List.find?_eq_none.1 hf x hx)
    | some y => exact ⟨y, hs y hf, List.mem_of_find?_eq_some hf, List.find?_some hf⟩
  · intro hne
    cases hf : l.find? p with
    | none => exact ⟨msg, hn hf⟩
    | some y => exact absurd ⟨y, List.mem_of_find?_eq_some hf, List.find?_some hf⟩ hne

theorem lookup_congr {res : Except Exn ℕ} {f g : ℕ → Prop} (h : LookupExact res f)
    (e : ∀ x, f x ↔ g x) : LookupExact res g := by
  have : f = g := funext fun x => propext (e x)
  exact this ▸ h

theorem getNode_exact (s : State) (name : String) :
    LookupExact (s.getNode name) fun n => n ∈ s.nodes ∧ (s.node n).name = name := by
  refine lookup_congr (find_exact (l := s.nodes) (p := fun n => decide ((s.node n).name = name))
    (msg := "No node with name exists in the model") ?_ ?_) fun x => by simp
  · intro x h; unfold State.getNode; rw [h]
  · intro h; unfold State.getNode; rw [h]

/-- **C49** `get_node_object`, `get_interface_object`, `get_demand_object`, `get_rsvp_lsp` and
`get_srlg_object` return an object of the model with precisely the requested key if there is one,
and raise `ModelException` otherwise. -/
theorem C49_lookups (s : State) (hk : EndsKnown s) (hg : UniqueSrlgNames s) (a b c : String) :
    LookupExact (s.getNode a) (fun n => n ∈ s.nodes ∧ (s.node n).name = a) ∧
    LookupExact (s.getIfc a b) (fun i => i ∈ s.ifs ∧ (s.ifc i).name = a ∧ s.tail i = b) ∧
    LookupExact (s.getDemand a b c)
      (fun d => d ∈ s.dmds ∧ s.dmdSrc d = a ∧ s.dmdDst d = b ∧ (s.dmd d).name = c) ∧
    LookupExact (s.getLsp a b c)
      (fun l => l ∈ s.lsps ∧ s.lspSrc l = a ∧ s.lspDst l = b ∧ (s.lsp l).name = c) ∧
    LookupExact (s.getSrlg a) (fun g => g ∈ s.srlgs ∧ (s.srlg g).name = a) := by
  refine ⟨getNode_exact s a, ?_, ?_, ?_, ?_⟩
  · unfold State.getIfc
    constructor
    · rintro ⟨i, hi, h1, h2⟩
      have hany : (s.ifs.any fun i => s.ifcKey i = (a, b)) = true := by
        rw [List.any_eq_true]
        exact ⟨i, hi, by simp [State.ifcKey, h1, h2]⟩
      rw [if_pos hany]
      have hb : b ∈ s.nodeNames := h2 ▸ (hk i hi).1
      unfold State.nodeNames at hb
      obtain ⟨n, hn, hnb⟩ := List.mem_map.1 hb
      obtain ⟨m, hm, -, hmb⟩ := (getNode_exact s b).1 ⟨n, hn, hnb⟩
      rw [hm]
      simp only [hmb]
      obtain ⟨x, hx⟩ : ∃ x, (s.ifcsOn b).find? (fun i => decide ((s.ifc i).name = a)) = some x := by
        cases hf : (s.ifcsOn b).find? (fun i => decide ((s.ifc i).name = a)) with
        | none =>
          have := List.find?_eq_none.1 hf i (by simp [State.ifcsOn, hi, h2])
          simp [h1] at this
        | some y => exact ⟨y, rfl⟩
      have h3 := List.mem_of_find?_eq_some hx
      have h4 := List.find?_some hx
      rw [hx]
      simp only [State.ifcsOn, List.mem_filter, decide_eq_true_eq] at h3 h4
      exact ⟨x, rfl, h3.1, h4, h3.2⟩
    · intro hn
      have hany : ¬ (s.ifs.any fun i => s.ifcKey i = (a, b)) = true := by
        intro h
        rw [List.any_eq_true] at h
        obtain ⟨i, hi, he⟩ := h
        simp only [State.ifcKey, Prod.mk.injEq, decide_eq_true_eq] at he
        exact hn ⟨i, hi, he⟩
      rw [if_neg hany]
      exact ⟨_, rfl⟩
  · refine lookup_congr (find_exact (l := s.dmds) (p := fun d => decide (s.dmdKey d = (a, b, c)))
      (msg := "no matching demand") ?_ ?_) fun x => ?_
    · intro x h; unfold State.getDemand; rw [h]
    · intro h; unfold State.getDemand; rw [h]
    · simp [State.dmdKey, State.dmdSrc, State.dmdDst]
  · refine lookup_congr (find_exact (l := s.lsps) (p := fun l => decide (s.lspKey l = (a, b, c)))
      (msg := "LSP does not exist in model") ?_ ?_) fun x => ?_
    · intro x h; unfold State.getLsp; rw [h]
    · intro h; unfold State.getLsp; rw [h]
    · simp [State.lspKey, State.lspSrc, State.lspDst]
  · unfold State.getSrlg
    constructor
    · rintro ⟨g, hg1, hg2⟩
      have hone : (s.srlgs.filter fun g => (s.srlg g).name = a) = [g] := by
        have hnd : (s.srlgs.filter fun g => (s.srlg g).name = a).Nodup := hg.1.filter _
        have hm : ∀ x, x ∈ (s.srlgs.filter fun g => (s.srlg g).name = a) ↔ x = g := by
          intro x
          rw [List.mem_filter, decide_eq_true_eq]
          constructor
          · rintro ⟨h1, h2⟩; exact hg.2 x h1 g hg1 (by rw [h2, hg2])
          · rintro rfl; exact ⟨hg1, hg2⟩
        generalize (s.srlgs.filter fun g => (s.srlg g).name = a) = l at hnd hm
        cases l with
        | nil => have := (hm g).2 rfl; simp at this
        | cons y l =>
          have hy := (hm y).1 (by simp)
          subst hy
          cases l with
          | nil => rfl
          | cons z l =>
            have hz := (hm z).1 (by simp)
            subst hz
            simp at hnd
      rw [hone]
      exact ⟨g, rfl, hg1, hg2⟩
    · intro hn
      have hnil : (s.srlgs.filter fun g => (s.srlg g).name = a) = [] := by
        rw [List.filter_eq_nil_iff]
        intro g hg1 hg2
        exact hn ⟨g, hg1, by simpa using hg2⟩
      rw [hnil]
      exact ⟨_, rfl⟩

instance (s : State) : Decidable (EndsKnown s) := by unfold EndsKnown; infer_instance

/-- the square with two LSPs and two SRLGs -/
def Ex.named (k : Kind) : State := { Ex.square k with
  lsp := Ex.heap [{ src := 0, dst := 3, name := "l" }, { src := 0, dst := 3, name := "m" }]
    { src := 0, dst := 0, name := "" }
  lsps := [0, 1]
  srlg := Ex.heap [{ name := "g" }, { name := "h" }] { name := "" }
  srlgs := [0, 1] }

example (k : Kind) : EndsKnown (Ex.named k) ∧ UniqueSrlgNames (Ex.named k) ∧
    (Ex.named k).getNode "C" = .ok 2 ∧ (Ex.named k).getIfc "cd2" "D" = .ok 7 ∧
    (Ex.named k).getDemand "A" "B" "y" = .ok 1 ∧ (Ex.named k).getLsp "A" "D" "m" = .ok 1 ∧
    (Ex.named k).getSrlg "h" = .ok 1 := by
  cases k <;> decide +kernel

/-! ### cross-references -/

theorem nodeEq_name {s : State} {a b : ℕ} (h : s.nodeEq a b = true) :
    (s.node a).name = (s.node b).name := by
  unfold State.nodeEq at h
  simp only [Bool.or_eq_true, Bool.and_eq_true, beq_iff_eq] at h
  rcases h with rfl | ⟨⟨⟨⟨⟨⟨h, -⟩, -⟩, -⟩, -⟩, -⟩, -⟩
  · rfl
  · exact h

theorem ifcEq_iff {s : State} (hu : UniqueIfcKeys s) {i j : ℕ} (hi : i ∈ s.ifs) (hj : j ∈ s.ifs) :
    s.ifcEq i j = true ↔ i = j := by
  constructor
  · intro h
    unfold State.ifcEq at h
    simp only [Bool.or_eq_true, Bool.and_eq_true, beq_iff_eq] at h
    rcases h with rfl | ⟨⟨⟨⟨h1, -⟩, h3⟩, -⟩, -⟩
    · rfl
    · exact hu i hi j hj (Prod.ext h3 (nodeEq_name h1))
  · rintro rfl; exact ifcEq_refl s i

/-- the demand path goes over interface `i`, directly or inside an LSP -/
def Spec.Crosses (s : State) (d i : ℕ) : Prop :=
  ∃ paths, (s.dmd d).path = some paths ∧ ∃ p ∈ paths,
    Item.ifc i ∈ p ∨ ∃ l, Item.lsp l ∈ p ∧ OnPath s l i

/-- the lists of LSPs and demands that interfaces and LSPs report agree with the paths -/
structure Spec.CrossRefsAgree (s : State) : Prop where
  lsps : ∀ i ∈ s.ifs, ∀ l, l ∈ s.lspsOn i ↔ l ∈ s.lsps ∧ OnPath s l i
  dmds : ∀ i ∈ s.ifs, ∀ d, d ∈ s.dmdsOn i ↔ d ∈ s.dmds ∧ Crosses s d i
  onLsp : ∀ l ∈ s.lsps, ∀ d, d ∈ s.dmdsOnLsp l ↔
    d ∈ s.dmds ∧ ∃ paths, (s.dmd d).path = some paths ∧ ∃ p ∈ paths, Item.lsp l ∈ p

theorem crossRefs_of {s : State} (hu : UniqueIfcKeys s) (hl : ∀ l ∈ s.lsps, ∀ i, OnPath s l i → i ∈ s.ifs)
    (hd : ∀ d ∈ s.dmds, ∀ paths, (s.dmd d).path = some paths → ∀ p ∈ paths,
      (∀ i, Item.ifc i ∈ p → i ∈ s.ifs) ∧ ∀ l, Item.lsp l ∈ p → l ∈ s.lsps) :
    CrossRefsAgree s := by
  have hon : ∀ i ∈ s.ifs, ∀ l ∈ s.lsps, ((match (s.lsp l).path with
      | .routed ifs _ _ => s.memIfc i ifs
      | _ => false) = true ↔ OnPath s l i) := by
    intro i hi l hlm
    unfold OnPath
    cases hp : (s.lsp l).path with
    | routed ifs c h =>
      simp only []
      rw [memIfc_iff hu hi (fun j hj => hl l hlm j ⟨ifs, c, h, hp, hj⟩)]
      constructor
      · intro hm; exact ⟨ifs, c, h, rfl, hm⟩
      · rintro ⟨_, _, _, e, hm⟩; cases e; exact hm
    | initial => simp
    | unrouted => simp
    | blank => simp
  refine ⟨fun i hi l => ?_, fun i hi d => ?_, fun l _ d => ?_⟩
  · unfold State.lspsOn
    rw [List.mem_filter]
    refine and_congr_right fun hlm => ?_
    rw [Bool.and_eq_true]
    constructor
    · exact fun h => (hon i hi l hlm).1 h.2
    · intro h
      refine ⟨?_, (hon i hi l hlm).2 h⟩
      obtain ⟨_, _, _, hp, -⟩ := h
      rw [hp]; rfl
  · unfold State.dmdsOn Crosses
    rw [List.mem_filter]
    refine and_congr_right fun hdm => ?_
    cases hp : (s.dmd d).path with
    | none => simp
    | some paths =>
      simp only [List.any_eq_true, Option.some.injEq, exists_eq_left']
      refine exists_congr fun p => and_congr_right fun hpm => ?_
      obtain ⟨h1, h2⟩ := hd d hdm paths hp p hpm
      constructor
      · rintro ⟨x, hx, hb⟩
        cases x with
        | lsp l => exact .inr ⟨l, hx, (hon i hi l (h2 l hx)).1 hb⟩
        | ifc j =>
          simp only [List.any_eq_true] at hb
          obtain ⟨y, hy, hb⟩ := hb
          cases y with
          | lsp l => cases hb
          | ifc j' =>
            simp only [] at hb
            rw [ifcEq_iff hu hi (h1 j' hy)] at hb
            exact .inl (hb ▸ hy)
      · rintro (hm | ⟨l, hm, ho⟩)
        · refine ⟨.ifc i, hm, ?_⟩
          simp only [List.any_eq_true]
          exact ⟨.ifc i, hm, ifcEq_refl s i⟩
        · exact ⟨.lsp l, hm, (hon i hi l (h2 l hm)).2 ho⟩
  · unfold State.dmdsOnLsp
    rw [List.mem_filter]
    refine and_congr_right fun hdm => ?_
    cases hp : (s.dmd d).path with
    | none => simp
    | some paths => simp

theorem Cfg.uniqueIfcKeys {s t : State} (h : Cfg s t) (hu : UniqueIfcKeys s) : UniqueIfcKeys t := by
  have hk : ∀ i, t.ifcKey i = s.ifcKey i := by
    intro i; unfold State.ifcKey; rw [h.tail, h.ifc i]
  intro i hi j hj e
  rw [hk, hk] at e
  exact hu i (h.ifs ▸ hi) j (h.ifs ▸ hj) e

/-- **C53** After `update_simulation()` `Interface.lsps`, `Interface.demands` and
`RSVP_LSP.demands_on_lsp` list exactly the LSPs and demands whose paths cross the interface or
use the LSP, IGP shortcuts included. -/
theorem C53_cross_references {env : Env} {s s' : State} (ht : Tidy s) (hu : UniqueIfcKeys s)
    (hrun : updateSimulation env s = .ok () s') : CrossRefsAgree s' := by
  obtain ⟨s1, Δ, h⟩ := sim_spec ht.dmds ht.ends ht.ckts hrun
  refine crossRefs_of (h.cfg.uniqueIfcKeys hu) ?_ ?_
  · rintro l hl i ⟨p, c, hd, hp, hi⟩
    rw [h.cfg.lsps] at hl
    rcases h.basic ht hl with e | ⟨p', c', hd', b, e, -, -, -, hsub⟩
    · rw [e] at hp; cases hp
    · rw [e] at hp; cases hp; exact hsub i hi
  · intro d hd paths hp p hpm
    refine ⟨fun i hi => (demand_not_failed ht hrun hd hp hpm hi).1, fun l hl => ?_⟩
    rw [h.cfg.lsps]
    rw [h.cfg.dmds] at hd
    exact (h.lsp_mem hd hp hpm hl).1

/-- Three nodes in a row, an LSP A→B, shortcuts on at A: a demand A→C rides the LSP and then
the interface B→C, a demand A→B rides the LSP end to end. -/
def Ex.hitch : State := Ex.mk .flex
  [{ name := "A", shortcuts := true }, { name := "B" }, { name := "C" }]
  (Ex.link "ab" 0 1 10 100 1 ++ Ex.link "bc" 1 2 10 100 2)
  [{ src := 0, dst := 2, traffic := 6, name := "x" }, { src := 0, dst := 1, traffic := 3, name := "y" }]
  [{ src := 0, dst := 1, name := "l" }] []

example : Tidy Ex.hitch ∧ UniqueIfcKeys Ex.hitch ∧
    updateSimulation Env.default Ex.hitch =
      .ok () (finalState (updateSimulation Env.default) Ex.hitch) ∧
    ((finalState (updateSimulation Env.default) Ex.hitch).dmd 0).path =
      some [[Item.lsp 0, Item.ifc 2]] ∧
    (finalState (updateSimulation Env.default) Ex.hitch).dmdsOn 0 = [0, 1] ∧
    (finalState (updateSimulation Env.default) Ex.hitch).dmdsOn 2 = [0] ∧
    (finalState (updateSimulation Env.default) Ex.hitch).lspsOn 0 = [0] ∧
    (finalState (updateSimulation Env.default) Ex.hitch).dmdsOnLsp 0 = [0, 1] :=
  ⟨by decide +kernel, by decide +kernel, ok_of_raised (by decide +kernel), by decide +kernel,
    by decide +kernel, by decide +kernel, by decide +kernel, by decide +kernel⟩

/-! ### guardrails -/

/-- something a user may try: a constructor call or an assignment -/
inductive Spec.Attempt where
  | newIfc (name : String) (cost : ℤ) (capacity : ℚ) (node remote : ℕ) (ckt : CktId)
  | setCost (i : ℕ) (cost : ℤ)
  | setCapacity (i : ℕ) (capacity : ℚ)
  | newDmd (src dst : ℕ) (traffic : ℚ) (name : String)
  | newLsp (src dst : ℕ) (name : String) (bandwidth : Option ℚ) (metric : Option ℤ)
  | readMetric (l : ℕ)
  | setMetric (l : ℕ) (metric : ℤ)

/-- the interfaces, demands and LSPs made so far -/
structure Spec.Made where
  ifcs : List ℕ := []
  dmds : List ℕ := []
  lsps : List ℕ := []

/-- make the attempt and note the object it makes -/
def Spec.Attempt.run (m : Made) : Attempt → Py Made
  | .newIfc name cost capacity node remote ckt => do
    let i ← NTM.newIfc name cost capacity node remote ckt
    pure { m with ifcs := i :: m.ifcs }
  | .setCost i c => do NTM.setCost i c; pure m
  | .setCapacity i c => do NTM.setCapacity i c; pure m
  | .newDmd src dst traffic name => do
    let d ← NTM.newDmd src dst traffic name
    pure { m with dmds := d :: m.dmds }
  | .newLsp src dst name bw metric => do
    let l ← NTM.newLsp src dst name bw metric
    pure { m with lsps := l :: m.lsps }
  | .readMetric l => do
    let s ← get
    let r ← liftE (s.lsp l).readMetric
    modify fun s => s.updLsp l fun _ => r.2
    pure m
  | .setMetric l v => do
    let s ← get
    let r ← liftE ((s.lsp l).assignMetric v)
    modify fun s => s.updLsp l fun _ => r
    pure m

/-- make the attempts one after the other, going on after a rejection -/
def Spec.runAttempts : List Attempt → Made × State → Made × State
  | [], x => x
  | a :: as, (m, s) => runAttempts as (match a.run m s with
    | .ok m' s' => (m', s')
    | .error _ s' => (m, s'))

/-- every object made so far is within its limits -/
structure Spec.Guarded (x : Made × State) : Prop where
  cost : ∀ i ∈ x.1.ifcs, 1 ≤ (x.2.ifc i).cost
  capacity : ∀ i ∈ x.1.ifcs, 0 < (x.2.ifc i).capacity
  traffic : ∀ d ∈ x.1.dmds, 0 ≤ (x.2.dmd d).traffic
  metric : ∀ l ∈ x.1.lsps, ∀ m l', (x.2.lsp l).readMetric = .ok (some m, l') → 1 ≤ m

theorem readMetric_pos {l l' : Lsp} {m : ℕ} (hm : ∀ k, l.manual = some k → 1 ≤ k)
    (h : l.readMetric = .ok (some m, l')) : 1 ≤ m := by
  unfold Lsp.readMetric at h
  cases hi : l.initialMetric with
  | none =>
    rw [hi] at h
    simp only [Except.ok.injEq, Prod.mk.injEq] at h
    exact hm m h.1
  | some k =>
    rw [hi] at h
    simp only [] at h
    split at h
    · simp only [Except.ok.injEq, Prod.mk.injEq] at h
      exact hm m h.1
    · split at h
      · simp only [Except.ok.injEq, Prod.mk.injEq, Option.some.injEq] at h
        omega
      · cases h

/-- the strengthened invariant: the stored metric itself is positive -/
structure GuardedInv (x : Made × State) : Prop where
  cost : ∀ i ∈ x.1.ifcs, 1 ≤ (x.2.ifc i).cost
  capacity : ∀ i ∈ x.1.ifcs, 0 < (x.2.ifc i).capacity
  traffic : ∀ d ∈ x.1.dmds, 0 ≤ (x.2.dmd d).traffic
  manual : ∀ l ∈ x.1.lsps, ∀ k, (x.2.lsp l).manual = some k → 1 ≤ k

theorem readMetric_manual {l l' : Lsp} {r : Option ℕ} (hm : ∀ k, l.manual = some k → 1 ≤ k)
    (h : l.readMetric = .ok (r, l')) : ∀ k, l'.manual = some k → 1 ≤ k := by
  unfold Lsp.readMetric at h
  cases hi : l.initialMetric with
  | none => rw [hi] at h; cases h; exact hm
  | some k =>
    rw [hi] at h
    simp only [] at h
    split at h
    · cases h; exact hm
    · split at h
      · cases h
        intro k' hk'
        simp only [Option.some.injEq] at hk'
        omega
      · cases h

theorem assignMetric_manual {l l' : Lsp} {v : ℤ} (hm : ∀ k, l.manual = some k → 1 ≤ k)
    (h : l.assignMetric v = .ok l') : ∀ k, l'.manual = some k → 1 ≤ k := by
  have key : ∀ m : ℤ, 0 < m → ∀ k, some m.toNat = some k → 1 ≤ k := by
    intro m h0 k hk
    simp only [Option.some.injEq] at hk
    omega
  unfold Lsp.assignMetric at h
  cases hi : l.initialMetric with
  | none =>
    rw [hi] at h
    simp only [] at h
    split at h
    · next h0 => cases h; exact key v h0
    · split at h
      · cases h; intro k hk; cases hk
      · cases h
  | some m =>
    rw [hi] at h
    simp only [] at h
    split at h
    · split at h
      · next h0 => cases h; exact key m h0
      · cases h; exact hm
    · split at h
      · next h0 => cases h; exact key v h0
      · split at h
        · cases h; intro k hk; cases hk
        · cases h

theorem attempt_inv (a : Attempt) (m : Made) (s : State) (h : GuardedInv (m, s)) :
    wp (a.run m) (fun m' t => GuardedInv (m', t)) (fun _ t => t = s) s := by
  obtain ⟨h1, h2, h3, h4⟩ := h
  simp only [] at h1 h2 h3 h4
  cases a with
  | newIfc name cost capacity node remote ckt =>
    unfold Attempt.run
    rw [wp_bind]
    unfold wp newIfc
    split
    · next heq =>
      split at heq
      · cases heq
      · split at heq
        · cases heq
        · next hc hcap =>
          cases heq
          push Not at hc hcap
          refine ⟨?_, ?_, h3, h4⟩
          · intro i hi
            simp only []
            split
            · simp only []; omega
            · next hne => exact h1 i ((List.mem_cons.1 hi).resolve_left hne)
          · intro i hi
            simp only []
            split
            · exact hcap
            · next hne => exact h2 i ((List.mem_cons.1 hi).resolve_left hne)
    · next heq =>
      split at heq
      · cases heq; rfl
      · split at heq
        · cases heq; rfl
        · cases heq
  | setCost i c =>
    unfold Attempt.run
    rw [wp_bind]
    unfold wp setCost
    split
    · next heq =>
      split at heq
      · cases heq
      · next hc =>
        cases heq
        push Not at hc
        refine ⟨?_, ?_, h3, h4⟩
        · intro j hj
          simp only [State.updIfc]
          split
          · simp only []; omega
          · exact h1 j hj
        · intro j hj
          simp only [State.updIfc]
          split
          · exact h2 j hj
          · exact h2 j hj
    · next heq =>
      split at heq
      · cases heq; rfl
      · cases heq
  | setCapacity i c =>
    unfold Attempt.run
    rw [wp_bind]
    unfold wp setCapacity
    split
    · next heq =>
      split at heq
      · cases heq
      · next hc =>
        cases heq
        push Not at hc
        refine ⟨?_, ?_, h3, h4⟩
        · intro j hj
          simp only [State.updIfc]
          split
          · exact h1 j hj
          · exact h1 j hj
        · intro j hj
          simp only [State.updIfc]
          split
          · exact hc
          · exact h2 j hj
    · next heq =>
      split at heq
      · cases heq; rfl
      · cases heq
  | newDmd src dst traffic name =>
    unfold Attempt.run
    rw [wp_bind]
    unfold wp newDmd
    split
    · next heq =>
      split at heq
      · cases heq
      · next hc =>
        cases heq
        push Not at hc
        refine ⟨h1, h2, ?_, h4⟩
        intro i hi
        simp only []
        split
        · exact hc
        · next hne => exact h3 i ((List.mem_cons.1 hi).resolve_left hne)
    · next heq =>
      split at heq
      · cases heq; rfl
      · cases heq
  | newLsp src dst name bw metric =>
    refine ⟨h1, h2, h3, ?_⟩
    intro l hl k hk
    simp only [] at hk
    split at hk
    · cases hk
    · next hne => exact h4 l ((List.mem_cons.1 hl).resolve_left hne) k hk
  | readMetric l =>
    unfold Attempt.run
    simp only [wp_bind, wp_get, wp_liftE, wp_modify, wp_pure]
    cases hr : (s.lsp l).readMetric with
    | error e => trivial
    | ok r =>
      refine ⟨h1, h2, h3, ?_⟩
      intro l' hl' k hk
      simp only [State.updLsp] at hk
      split at hk
      · next e => subst e; exact readMetric_manual (h4 l' hl') hr k hk
      · exact h4 l' hl' k hk
  | setMetric l v =>
    unfold Attempt.run
    simp only [wp_bind, wp_get, wp_liftE, wp_modify, wp_pure]
    cases hr : (s.lsp l).assignMetric v with
    | error e => trivial
    | ok r =>
      refine ⟨h1, h2, h3, ?_⟩
      intro l' hl' k hk
      simp only [State.updLsp] at hk
      split at hk
      · next e => subst e; exact assignMetric_manual (h4 l' hl') hr k hk
      · exact h4 l' hl' k hk

theorem attempts_inv (as : List Attempt) (x : Made × State) (h : GuardedInv x) :
    GuardedInv (runAttempts as x) := by
  induction as generalizing x with
  | nil => exact h
  | cons a as ih =>
    obtain ⟨m, s⟩ := x
    unfold runAttempts
    apply ih
    have := attempt_inv a m s h
    unfold wp at this
    cases hr : a.run m s with
    | ok m' t => rw [hr] at this; exact this
    | error e t =>
      rw [hr] at this
      simp only [] at this ⊢
      rw [this]; exact h

/-- **C61** No sequence of constructor calls and assignments makes an interface with a cost below
1 or a capacity of 0 or less, a demand with negative traffic or an LSP with a metric below 1. -/
theorem C61_guardrails (s : State) (as : List Attempt) : Guarded (runAttempts as ({}, s)) := by
  obtain ⟨h1, h2, h3, h4⟩ := attempts_inv as ({}, s) ⟨by simp, by simp, by simp, by simp⟩
  exact ⟨h1, h2, h3, fun l hl m l' hr => readMetric_pos (h4 l hl) hr⟩

/-- **C61** A rejected attempt changes nothing. -/
theorem C61_rejected_unchanged (a : Attempt) (m : Made) (s s' : State) (e : Exn)
    (h : a.run m s = .error e s') : s' = s := by
  have hm : GuardedInv ({}, s) := ⟨by simp, by simp, by simp, by simp⟩
  have key : wp (a.run {}) (fun _ _ => True) (fun _ t => t = s) s :=
    wp_mono (attempt_inv a {} s hm) (fun _ _ _ => trivial) (fun _ _ h => h)
  have hsame : ∀ m', wp (a.run m') (fun _ _ => True) (fun _ t => t = s) s := by
    intro m'
    cases a <;> unfold Attempt.run at key ⊢ <;> simp only [wp_bind, wp_pure] at key ⊢ <;> exact key
  exact of_wp_error (hsame m) h

/-- **C61** Exactly the values out of range are rejected. -/
theorem C61_accepted (s : State) (i : ℕ) (c : ℤ) (q : ℚ) (a b : ℕ) (name : String) :
    (raised (setCost i c) s = none ↔ 1 ≤ c) ∧ (raised (setCapacity i q) s = none ↔ 0 < q) ∧
    (raised (newDmd a b q name) s = none ↔ 0 ≤ q) := by
  refine ⟨?_, ?_, ?_⟩
  · unfold raised setCost
    by_cases h : c < 1
    · rw [if_pos h]; simp; omega
    · rw [if_neg h]; simp; omega
  · unfold raised setCapacity
    by_cases h : 0 < q
    · rw [if_neg (not_not.2 h)]; simp [h]
    · rw [if_pos h]; simp; exact not_lt.1 h
  · unfold raised newDmd
    by_cases h : q < 0
    · rw [if_pos h]; simp [h]
    · rw [if_neg h]; simp; exact not_lt.1 h

/-- interface 14 and LSP 15 are made, interface "b" and the demand are not; a cost of 0 and a
capacity of 0 are refused, and the configured metric is the one that counts -/
example : let x := runAttempts [.newIfc "a" 10 100 0 1 .none, .newIfc "b" 0 100 0 1 .none,
      .setCost 14 0, .setCost 14 7, .setCapacity 14 0, .newDmd 0 1 (-1) "d",
      .newLsp 0 1 "l" none (some 9), .setMetric 15 4] ({}, Ex.square .perf)
    x.1.ifcs = [14] ∧ x.1.dmds = [] ∧ x.1.lsps = [15] ∧ (x.2.ifc 14).cost = 7 ∧
      (x.2.ifc 14).capacity = 100 ∧ (x.2.lsp 15).manual = some 9 := by
  decide +kernel

/-! ### utilization -/

/-- **C62** After `update_simulation()` an interface reports "Int is down" exactly when it is
failed; otherwise it reports 100·traffic/capacity to within 0.005. -/
theorem C62_utilization {env : Env} {s s' : State} (ht : Tidy s)
    (hrun : updateSimulation env s = .ok () s') {i : ℕ} (hi : i ∈ s'.ifs) :
    (s'.utilization i = none ↔ (s'.ifc i).failed = true) ∧
    ∀ u, s'.utilization i = some u → ∃ t, (s'.ifc i).traffic = .val t ∧
      |u - 100 * t / (s'.ifc i).capacity| ≤ 5 / 1000 := by
  obtain ⟨s1, Δ, h⟩ := sim_spec ht.dmds ht.ends ht.ckts hrun
  rw [h.cfg.ifs] at hi
  have htr := h.traffic i hi
  unfold State.utilization
  cases hf : (s'.ifc i).failed with
  | true =>
    rw [htr, hf]
    simp
  | false =>
    rw [htr, hf]
    simp only [Bool.false_eq_true, if_false]
    refine ⟨by simp, ?_⟩
    intro u hu
    refine ⟨_, rfl, ?_⟩
    simp only [Option.some.injEq] at hu
    subst hu
    have := pyRound_close 2 ((s.dmds.map fun d => Δ d i).sum / (s'.ifc i).capacity * 100)
    have e : 100 * (s.dmds.map fun d => Δ d i).sum / (s'.ifc i).capacity =
        (s.dmds.map fun d => Δ d i).sum / (s'.ifc i).capacity * 100 := by ring
    rw [e]
    refine this.trans ?_
    norm_num

/-- **C62** After `update_simulation()` of a model without negative demands or capacities every
traffic figure and utilization is non-negative. -/
theorem C62_nonneg {env : Env} {s s' : State} (ht : Tidy s)
    (hd : ∀ d ∈ s.dmds, 0 ≤ (s.dmd d).traffic) (hrun : updateSimulation env s = .ok () s')
    {i : ℕ} (hi : i ∈ s'.ifs) (hc : 0 < (s'.ifc i).capacity) {u : ℚ}
    (hu : s'.utilization i = some u) : 0 ≤ u := by
  obtain ⟨s1, Δ, h⟩ := sim_spec ht.dmds ht.ends ht.ckts hrun
  rw [h.cfg.ifs] at hi
  have htr := h.traffic i hi
  unfold State.utilization at hu
  rw [htr] at hu
  split at hu
  · cases hu
  · next t heq =>
    split at heq
    · cases heq
    · cases heq
      cases hu
      refine pyRound_nonneg 2 (mul_nonneg (div_nonneg (sum_nonneg_of ?_) hc.le) (by norm_num))
      intro x hx
      obtain ⟨d, hdm, rfl⟩ := List.mem_map.1 hx
      exact h.load_nonneg hdm (hd d hdm) i

/-- **C62** More traffic on the same capacity never reports less utilization. -/
theorem C62_monotone {s t : State} {i j : ℕ} (hc : 0 < (s.ifc i).capacity)
    (he : (t.ifc j).capacity = (s.ifc i).capacity) {x y u v : ℚ}
    (hx : (s.ifc i).traffic = .val x) (hy : (t.ifc j).traffic = .val y) (hxy : x ≤ y)
    (hu : s.utilization i = some u) (hv : t.utilization j = some v) : u ≤ v := by
  unfold State.utilization at hu hv
  rw [hx] at hu
  rw [hy] at hv
  cases hu
  cases hv
  rw [he]
  refine pyRound_mono 2 (mul_le_mul_of_nonneg_right ?_ (by norm_num))
  exact div_le_div_of_nonneg_right hxy hc.le

example (k : Kind) : Tidy (Ex.cut k) ∧ (∀ d ∈ (Ex.cut k).dmds, 0 ≤ ((Ex.cut k).dmd d).traffic) ∧
    updateSimulation Env.default (Ex.cut k) =
      .ok () (finalState (updateSimulation Env.default) (Ex.cut k)) ∧
    (finalState (updateSimulation Env.default) (Ex.cut k)).utilization 0 = some 7 ∧
    (finalState (updateSimulation Env.default) (Ex.cut k)).utilization 4 = none := by
  cases k <;> exact ⟨by decide +kernel, by decide +kernel, ok_of_raised (by decide +kernel),
    by decide +kernel, by decide +kernel⟩

/-! ### the end of a table -/

/-- the least index from `i` on that holds an empty line -/
def Spec.FirstBlank (i : ℕ) (lines : List String) (n : ℕ) : Prop :=
  i ≤ n ∧ lines[n]? = some "" ∧ ∀ m, i ≤ m → m < n → lines[m]? ≠ some ""

theorem findEndLoop_eq (lines : List String) (start : ℕ) (l : List String) :
    findEndLoop lines start l = if "" ∈ l then indexFrom lines "" start else none := by
  induction l with
  | nil => rfl
  | cons x l ih =>
    unfold findEndLoop
    by_cases h : x = ""
    · subst h; simp
    · have h' : ¬ "" = x := fun e => h e.symm
      rw [if_neg h, ih]
      simp [h']

/-- **C63** `find_end_index(i, lines)` is the least index of an empty line from `i` on, and
`None` if there is none. -/
theorem C63_find_end_index (i : ℕ) (lines : List String) :
    (∀ n, findEndIndex i lines = some n ↔ FirstBlank i lines n) ∧
    (findEndIndex i lines = none ↔ ∀ m, i ≤ m → lines[m]? ≠ some "") := by
  have hget : ∀ k, (lines.drop i)[k]? = lines[i + k]? := fun k => List.getElem?_drop
  have hmem : "" ∈ lines.drop i ↔ ∃ m, i ≤ m ∧ lines[m]? = some "" := by
    rw [List.mem_iff_getElem?]
    constructor
    · rintro ⟨k, hk⟩; exact ⟨i + k, by omega, by rw [← hget]; exact hk⟩
    · rintro ⟨m, h1, h2⟩
      refine ⟨m - i, ?_⟩
      rw [hget, show i + (m - i) = m by omega]; exact h2
  have hsome : ∀ n, findEndIndex i lines = some n ↔ FirstBlank i lines n := by
    intro n
    unfold findEndIndex
    rw [findEndLoop_eq]
    constructor
    · intro h
      split at h
      · unfold indexFrom at h
        cases hf : (lines.drop i).findIdx? fun l => decide (l = "") with
        | none => rw [hf] at h; cases h
        | some k =>
          rw [hf] at h
          simp only [Option.map_some, Option.some.injEq] at h
          obtain ⟨hk, h1, h2⟩ := List.findIdx?_eq_some_iff_getElem.1 hf
          refine ⟨by omega, ?_, ?_⟩
          · have e : (lines.drop i)[k]? = some "" := by
              rw [List.getElem?_eq_getElem hk]
              simpa using h1
            rw [hget] at e
            rw [← h, Nat.add_comm]; exact e
          · intro m hm1 hm2 he
            have hlt : m - i < k := by omega
            have := h2 (m - i) hlt
            have e : (lines.drop i)[m - i]? = some "" := by
              rw [hget, show i + (m - i) = m by omega]; exact he
            have hb : m - i < (lines.drop i).length := by omega
            rw [List.getElem?_eq_getElem hb] at e
            simp only [Option.some.injEq] at e
            rw [e] at this
            simp at this
      · cases h
    · rintro ⟨h1, h2, h3⟩
      rw [if_pos (hmem.2 ⟨n, h1, h2⟩)]
      unfold indexFrom
      have e : (lines.drop i)[n - i]? = some "" := by
        rw [hget, show i + (n - i) = n by omega]; exact h2
      obtain ⟨hb, e⟩ := List.getElem?_eq_some_iff.1 e
      have hf : ((lines.drop i).findIdx? fun l => decide (l = "")) = some (n - i) := by
        rw [List.findIdx?_eq_some_iff_getElem]
        refine ⟨hb, by simp [e], ?_⟩
        intro j hj hx
        refine h3 (i + j) (by omega) (by omega) ?_
        rw [← hget, List.getElem?_eq_getElem (by omega)]
        simpa using hx
      rw [hf]
      simp only [Option.map_some, Option.some.injEq]
      omega
  refine ⟨hsome, ?_⟩
  constructor
  · intro hn m hm he
    have hex : ∃ m, i ≤ m ∧ lines[m]? = some "" := ⟨m, hm, he⟩
    have hP := Nat.find_spec hex
    have := (hsome (Nat.find hex)).2 ⟨hP.1, hP.2, fun m h1 h2 h3 => Nat.find_min hex h2 ⟨h1, h3⟩⟩
    rw [hn] at this; cases this
  · intro hall
    cases hf : findEndIndex i lines with
    | none => rfl
    | some n =>
      obtain ⟨h1, h2, -⟩ := (hsome n).1 hf
      exact absurd h2 (hall n h1)

example : findEndIndex 2 ["", "a", "b", "", "c", ""] = some 3 ∧ findEndIndex 1 ["", "a"] = none := by
  decide +kernel

end NTM
