import Verif.Proof.Registry

/-!
# What additions do to a valid model
-/

namespace NTM

open Spec

/-- the interfaces of `s'` are those of `s`, with the same data and end points -/
structure SameIfcs (s s' : State) : Prop where
  kind : s'.kind = s.kind
  ifs : s'.ifs = s.ifs
  ifc : ∀ i ∈ s.ifs, s'.ifc i = s.ifc i
  tail : ∀ i ∈ s.ifs, s'.tail i = s.tail i
  head : ∀ i ∈ s.ifs, s'.head i = s.head i

namespace SameIfcs

variable {s s' : State}

theorem reservable (h : SameIfcs s s') {i : ℕ} (hi : i ∈ s.ifs) :
    s'.reservable i = s.reservable i := by
  unfold State.reservable State.reservedBw
  rw [h.ifc i hi]

theorem reservedBw (h : SameIfcs s s') {i : ℕ} (hi : i ∈ s.ifs) :
    s'.reservedBw i = s.reservedBw i := by
  unfold State.reservedBw
  rw [h.ifc i hi]

theorem key (h : SameIfcs s s') {i : ℕ} (hi : i ∈ s.ifs) : s'.ifcKey i = s.ifcKey i := by
  unfold State.ifcKey
  rw [h.ifc i hi, h.tail i hi]

theorem matchable (h : SameIfcs s s') {i : ℕ} : i ∈ s'.matchable ↔ i ∈ s.matchable := by
  rw [mem_matchable, mem_matchable, h.ifs]
  constructor
  · rintro ⟨h1, h2⟩; exact ⟨h1, by rwa [h.reservable h1] at h2⟩
  · rintro ⟨h1, h2⟩; exact ⟨h1, by rwa [h.reservable h1]⟩

theorem fromNodes (h : SameIfcs s s') (a b : String) (c : CktId) :
    s'.ifcsFromNodes a b c = s.ifcsFromNodes a b c := by
  unfold State.ifcsFromNodes
  rw [h.ifs]
  have e1 : (s.ifs.filter fun i => s'.tail i = a && s'.head i = b) =
      s.ifs.filter fun i => s.tail i = a && s.head i = b := by
    refine List.filter_congr fun i hi => ?_
    rw [h.tail i hi, h.head i hi]
  have e2 : ∀ c, (s.ifs.filter fun i => s'.tail i = a && s'.head i = b && (s'.ifc i).cktId = c) =
      s.ifs.filter fun i => s.tail i = a && s.head i = b && (s.ifc i).cktId = c := by
    intro c
    refine List.filter_congr fun i hi => ?_
    rw [h.tail i hi, h.head i hi, h.ifc i hi]
  cases c with
  | none => simp only [e1]
  | _ => simp only [e2]

theorem found (h : SameIfcs s s') {e : ℕ} (he : e ∈ s.ifs) : FlexFound s' e ↔ FlexFound s e := by
  unfold FlexFound
  rw [h.fromNodes, h.fromNodes, h.tail e he, h.head e he, h.ifc e he]

theorem opposite (h : SameIfcs s s') {i j : ℕ} (hi : i ∈ s.ifs) (hj : j ∈ s.ifs) :
    Opposite s' i j ↔ Opposite s i j := by
  unfold Opposite
  rw [h.tail i hi, h.head i hi, h.tail j hj, h.head j hj, h.ifc i hi, h.ifc j hj, h.kind]

theorem links (h : SameIfcs s s') : s'.multipleLinks = s.multipleLinks := by
  unfold State.multipleLinks
  have : (s'.ifs.map fun i => s'.tail i ++ "-" ++ s'.head i) =
      s.ifs.map fun i => s.tail i ++ "-" ++ s.head i := by
    rw [h.ifs]
    refine List.map_congr_left fun i hi => ?_
    rw [h.tail i hi, h.head i hi]
  rw [this]

end SameIfcs

/-- whether validation succeeds depends on the interfaces and on the checks that do not involve
circuits only -/
theorem validate_transfer {env env' : Env} {s s' t : State} (h : validate env s = .ok () t)
    (hset : CktIdsSet s) (hs : SameIfcs s s') (hcore : ValidCore s → ValidCore s') :
    ∃ v, validate env' s' = .ok () v := by
  obtain ⟨u, hw, -, hok⟩ := validate_well hset h
  have hc := hw.core.1 hok.core
  have hset' : CktIdsSet s' := by
    intro hk i hi
    rw [hs.ifs] at hi
    rw [hs.ifc i hi]
    exact hset (hs.kind ▸ hk) i hi
  have hlinks : s'.kind = .perf → SingleLinks s' := fun hk =>
    single_of_multipleLinks (by rw [hs.links]; exact hc.links (hs.kind ▸ hk))
  obtain ⟨v, -, hv⟩ := validate_complete env' (s := s')
    (by
      rintro ⟨i, hi, hno⟩
      have hi := hs.matchable.1 hi
      have him := (mem_matchable.1 hi).1
      obtain ⟨j, hj, h1, h2⟩ := hw.rev i hi
      have hjm := (mem_matchable.1 hj).1
      exact hno ⟨j, hs.matchable.2 hj, by rw [hs.tail j hjm, hs.head i him, h1],
        by rw [hs.head j hjm, hs.tail i him, h2]⟩)
    (by
      intro hk e he
      have he := hs.matchable.1 he
      exact (hs.found (mem_matchable.1 he).1).2 (hw.found (hs.kind ▸ hk) e he))
    (by
      intro u' hp
      refine ValidCore.ok (hp.core.2 (hcore hc)) ?_
      have hw' : PairedWell s' u' := { hp with single := hlinks, set := hset' }
      intro c hc
      have hce := hp.ends c hc
      have h1 : c.1 ∈ s.ifs := hs.ifs ▸ hce.1
      have h2 : c.2 ∈ s.ifs := hs.ifs ▸ hce.2.1
      have hmem := linked_determined (u := u) (v := u') hw (fun c hc => by
        have hce := hp.ends c hc
        have h1 : c.1 ∈ s.ifs := hs.ifs ▸ hce.1
        have h2 : c.2 ∈ s.ifs := hs.ifs ▸ hce.2.1
        exact ⟨hs.matchable.1 (hw'.first hc), h2, (hs.opposite h1 h2).1 (hw'.opposite hc)⟩) hc
      obtain ⟨B, I, heq⟩ := hp.eq
      obtain ⟨B', I', heq'⟩ := hw.eq
      have e1 : ∀ k, (u'.ifc k).capacity = (s'.ifc k).capacity := by intro k; rw [heq]; rfl
      have e2 : ∀ k, (u.ifc k).capacity = (s.ifc k).capacity := by intro k; rw [heq']; rfl
      rw [e1, e1, hs.ifc _ h1, hs.ifc _ h2]
      rcases hmem with hm | hm
      · have := hok.capacity _ hm
        rwa [e2, e2] at this
      · have := hok.capacity _ hm
        rw [e2, e2] at this
        exact this.symm)
  exact ⟨_, hv⟩

theorem foldlM_congr {α β : Type} {f g : β → α → Except Exn β} {l : List α}
    (h : ∀ b, ∀ a ∈ l, f b a = g b a) (init : β) : l.foldlM f init = l.foldlM g init := by
  induction l generalizing init with
  | nil => rfl
  | cons a l ih =>
    rw [List.foldlM_cons, List.foldlM_cons, h _ a (by simp)]
    congr 1
    funext b
    exact ih (fun b a ha => h b a (by simp [ha])) b

theorem lspHops_congr {s s' : State} (hs : SameIfcs s s') (hh : HopsInModel s)
    (hf : (s'.lsps.filter fun l => !(s'.lsp l).path.saysUnrouted) =
      s.lsps.filter fun l => !(s.lsp l).path.saysUnrouted)
    (hl : ∀ l ∈ s.lsps, s'.lsp l = s.lsp l) : s'.lspHops = s.lspHops := by
  unfold State.lspHops
  rw [hf]
  refine foldlM_congr (fun b l hm => ?_) []
  have hm := (List.mem_filter.1 hm).1
  rw [hl l hm]
  cases hp : (s.lsp l).path with
  | routed is c b =>
    have hkeys : (is.all fun i => s'.ifs.any fun j => s'.ifcKey j = s'.ifcKey i) =
        is.all fun i => s.ifs.any fun j => s.ifcKey j = s.ifcKey i := by
      rw [Bool.eq_iff_iff, List.all_eq_true, List.all_eq_true]
      refine forall₂_congr fun i hi => ?_
      have hi' := hh l hm is c b hp i hi
      rw [List.any_eq_true, List.any_eq_true, hs.ifs]
      refine exists_congr fun j => and_congr_right fun hj => ?_
      rw [hs.key hj, hs.key hi']
    simp only [hkeys]
  | _ => rfl

theorem infoReserved_congr {s s' : State} (hs : SameIfcs s s') {info : List (ℕ × ℚ)}
    (hi : ∀ x ∈ info, x.1 ∈ s.ifs) {i : ℕ} (h : i ∈ s.ifs) :
    s'.infoReserved info i = s.infoReserved info i := by
  unfold State.infoReserved
  congr 2
  refine List.filter_congr fun x hx => ?_
  rw [hs.key (hi x hx), hs.key h]

theorem lspHops_mem {s : State} (hh : HopsInModel s) {info : List (ℕ × ℚ)}
    (h : s.lspHops = .ok info) : ∀ x ∈ info, x.1 ∈ s.ifs := by
  unfold State.lspHops at h
  have key : ∀ (L : List ℕ) (acc : List (ℕ × ℚ)), (∀ l ∈ L, l ∈ s.lsps) →
      (∀ x ∈ acc, x.1 ∈ s.ifs) → ∀ info, (L.foldlM (init := acc) fun acc l =>
        match (s.lsp l).path with
        | .routed ifs _ _ =>
          match ifs, (s.lsp l).reserved with
          | [], _ => .ok acc
          | _, .val q =>
            if ifs.all fun i => s.ifs.any fun j => s.ifcKey j = s.ifcKey i then
              .ok (acc ++ ifs.map fun i => (i, pyRound 1 q))
            else .error .keyError
          | _, _ => .error .typeError
        | _ => .error .keyError : Except Exn (List (ℕ × ℚ))) = .ok info →
      ∀ x ∈ info, x.1 ∈ s.ifs := by
    intro L
    induction L with
    | nil => intro acc _ ha info he; injection he with he; rw [← he]; exact ha
    | cons l L ih =>
      intro acc hL ha info he
      rw [List.foldlM_cons] at he
      have hl := hL l (by simp)
      have hL' : ∀ l ∈ L, l ∈ s.lsps := fun x hx => hL x (by simp [hx])
      cases hp : (s.lsp l).path with
      | routed is c b =>
        rw [hp] at he
        cases is with
        | nil => exact ih acc hL' ha info he
        | cons i is =>
          cases hr : (s.lsp l).reserved with
          | val q =>
            rw [hr] at he
            simp only [] at he
            by_cases hc : ((i :: is).all fun i => s.ifs.any fun j => s.ifcKey j = s.ifcKey i) = true
            · rw [if_pos hc] at he
              refine ih _ hL' ?_ info he
              intro x hx
              rcases List.mem_append.1 hx with hx | hx
              · exact ha x hx
              · obtain ⟨j, hj, rfl⟩ := List.mem_map.1 hx
                exact hh l hl _ c b hp j hj
            · rw [if_neg hc] at he
              cases he
          | _ => rw [hr] at he; cases he
      | _ => rw [hp] at he; cases he
  exact key _ [] (fun l hl => (List.mem_filter.1 hl).1) (by simp) info h

theorem ValidCore.congr {s s' : State} (h : ValidCore s) (hs : SameIfcs s s') (hh : HopsInModel s)
    (hf : (s'.lsps.filter fun l => !(s'.lsp l).path.saysUnrouted) =
      s.lsps.filter fun l => !(s.lsp l).path.saysUnrouted)
    (hl : ∀ l ∈ s.lsps, s'.lsp l = s.lsp l) (hn : NoShortcuts s → NoShortcuts s')
    (hnames : s'.nodes.length = s'.nodeNames.dedup.length) : ValidCore s' := by
  obtain ⟨info, h1, h2⟩ := h.hops
  have hm := lspHops_mem hh h1
  refine ⟨⟨info, by rw [lspHops_congr hs hh hf hl, h1], ?_⟩, ?_, ?_, ?_, hnames⟩
  · intro i hi
    rw [hs.ifs] at hi
    rw [hs.reservedBw hi, infoReserved_congr hs hm hi]
    exact h2 i hi
  · intro i hi
    rw [hs.ifs] at hi
    rw [hs.reservedBw hi, hs.ifc i hi]
    exact h.cap i hi
  · intro hk
    exact hn (h.shortcuts (hs.kind ▸ hk))
  · intro hk
    rw [hs.links]
    exact h.links (hs.kind ▸ hk)

theorem pickCktId_flex {s : State} {ckt id : CktId} (hk : s.kind = .flex)
    (h : s.pickCktId ckt = .ok id) : id = ckt ∧ ckt ≠ .none ∧ ∀ k ∈ s.ifs, (s.ifc k).cktId ≠ ckt := by
  unfold State.pickCktId at h
  rw [hk] at h
  simp only [] at h
  split at h
  · cases h
  · next h1 =>
    split at h
    · cases h
    · next h2 =>
      injection h with h
      refine ⟨h.symm, h1, fun k hk he => h2 (List.any_eq_true.2 ⟨k, hk, by simpa using he⟩)⟩

/-- what a successful `add_circuit` leaves behind -/
theorem addCircuit_ok {env : Env} {s t : State} {a b : ℕ} {nA nB : String} {cA cB : ℤ} {cap : ℚ}
    {f : Bool} {ckt : CktId} (hk : Keyed s) (hset : CktIdsSet s) (hr : RsvpReady s)
    (he : EndsAgree s) (ha : a ∈ s.nodes) (hb : b ∈ s.nodes) (hab : a ≠ b)
    (h : addCircuit env a b nA nB cA cB cap f ckt s = .ok () t) :
    CircuitAdded s t a b nA nB cA cB cap s.next (s.next + 1) ∧
      (s.kind = .flex → (t.ifc s.next).cktId = ckt ∧
        ∀ k ∈ s.ifs, (t.ifc k).cktId = (s.ifc k).cktId) ∧
      EndsAgree t ∧ CktIdsSet t ∧ 1 ≤ cA ∧ 1 ≤ cB := by
  rw [addCircuit_eq] at h
  cases h1 : s.pickCktId ckt with
  | error e => rw [h1] at h; cases h
  | ok id =>
  rw [h1] at h
  simp only [] at h
  by_cases c1 : cA < 1
  · rw [if_pos c1] at h; cases h
  rw [if_neg c1] at h
  by_cases c2 : 0 < cap
  swap
  · rw [if_pos c2] at h; cases h
  rw [if_neg (not_not.2 c2)] at h
  by_cases c3 : cB < 1
  · rw [if_pos c3] at h; cases h
  rw [if_neg c3] at h
  have hins := addCircuit_insert hk ha hb (nA := nA) (nB := nB) (cA := cA) (cB := cB) (cap := cap)
    (id := id)
  set v := (s.withIfc (newEnd nA cA cap a b id)).withIfc (newEnd nB cB cap b a id) with hv
  have hi : v.ifc s.next = newEnd nA cA cap a b id := by simp [hv, State.withIfc]
  have hj : v.ifc (s.next + 1) = newEnd nB cB cap b a id := by simp [hv, State.withIfc]
  have hold : ∀ e ∈ s.ifs, v.ifc e = s.ifc e := by
    intro e he
    have := (hk.2.ifs e he).1
    have e1 : e ≠ s.next + 1 := by omega
    have e2 : e ≠ s.next := by omega
    simp [hv, State.withIfc, e1, e2]
  have hkey : ∀ e ∈ s.ifs, v.ifcKey e = s.ifcKey e := by
    intro e he
    unfold State.ifcKey State.tail
    rw [hold e he]
    rfl
  have ki : v.ifcKey s.next = (nA, (s.node a).name) := by
    unfold State.ifcKey State.tail; rw [hi]; rfl
  have kj : v.ifcKey (s.next + 1) = (nB, (s.node b).name) := by
    unfold State.ifcKey State.tail; rw [hj]; rfl
  have hvifs : v.ifs = s.ifs := rfl
  split at h
  · cases h
  next n1 =>
  split at h
  · cases h
  next n2 =>
  have q1 : ∀ e ∈ s.ifs, s.ifcKey e ≠ (nA, (s.node a).name) := by
    intro e he hke
    refine n1 (List.any_eq_true.2 ⟨e, by rw [hvifs]; exact he, ?_⟩)
    rw [decide_eq_true_eq, hkey e he, ki, hke]
  have q2 : ∀ e ∈ s.ifs, s.ifcKey e ≠ (nB, (s.node b).name) := by
    intro e he hke
    refine n2 (List.any_eq_true.2 ⟨e, by rw [hvifs]; exact he, ?_⟩)
    rw [decide_eq_true_eq, hkey e he, kj, hke]
  have hnab : ¬ (a = b ∧ nA = nB) := fun x => hab x.1
  rw [hins q1 q2, if_neg hnab] at h
  set w : State := { v with ifs := s.ifs ++ [s.next, s.next + 1] } with hw
  have wi : w.ifc s.next = newEnd nA cA cap a b id := hi
  have wj : w.ifc (s.next + 1) = newEnd nB cB cap b a id := hj
  have wold : ∀ e ∈ s.ifs, w.ifc e = s.ifc e := hold
  have wkind : w.kind = s.kind := rfl
  have wnode : w.node = s.node := rfl
  have wmem : ∀ {k}, k ∈ w.ifs ↔ k ∈ s.ifs ∨ k = s.next ∨ k = s.next + 1 := by
    intro k; simp [hw]
  have tail_i : w.tail s.next = (s.node a).name := by unfold State.tail; rw [wi]; rfl
  have head_i : w.head s.next = (s.node b).name := by unfold State.head; rw [wi]; rfl
  have tail_j : w.tail (s.next + 1) = (s.node b).name := by unfold State.tail; rw [wj]; rfl
  have head_j : w.head (s.next + 1) = (s.node a).name := by unfold State.head; rw [wj]; rfl
  have tail_o : ∀ e ∈ s.ifs, w.tail e = s.tail e := fun e he => by
    unfold State.tail; rw [wold e he, wnode]
  have head_o : ∀ e ∈ s.ifs, w.head e = s.head e := fun e he => by
    unfold State.head; rw [wold e he, wnode]
  have hni : s.next ∉ s.ifs := fun h => Nat.lt_irrefl _ (hk.2.ifs _ h).1
  have hnj : s.next + 1 ∉ s.ifs := fun h => by have := (hk.2.ifs _ h).1; omega
  have hne : s.next ≠ s.next + 1 := by omega
  have flexNew : s.kind = .flex → id ≠ .none ∧ ∀ k ∈ s.ifs, (s.ifc k).cktId ≠ id := by
    intro hkd
    obtain ⟨e1, e2, e3⟩ := pickCktId_flex hkd h1
    rw [e1]
    exact ⟨e2, e3⟩
  have wset : CktIdsSet w := by
    intro hkd k hkm
    rcases wmem.1 hkm with h | h | h
    · rw [wold k h]; exact hset hkd k h
    · rw [h, wi]; exact (flexNew hkd).1
    · rw [h, wj]; exact (flexNew hkd).1
  obtain ⟨u, hu, rfl, hok⟩ := validate_well wset h
  have hopp : Opposite w s.next (s.next + 1) := by
    refine ⟨by rw [tail_i, head_j], by rw [head_i, tail_j], fun _ => by rw [wi, wj]; rfl⟩
  have hsep : (s.node a).name ≠ (s.node b).name := fun e =>
    hab (List.inj_on_of_nodup_map hk.1.nodes ha hb e)
  -- the only interfaces opposite to the new ones are the new ones
  have only_i : ∀ k ∈ w.ifs, Opposite w s.next k → k = s.next + 1 := by
    intro k hkm ho
    cases hkd : s.kind with
    | perf =>
      exact hu.single hkd k hkm _ (wmem.2 (.inr (.inr rfl)))
        (by rw [tail_j, ← ho.2.1, head_i]) (by rw [head_j, ← ho.1, tail_i])
    | flex =>
      rcases wmem.1 hkm with h | h | h
      · have := ho.2.2 hkd
        rw [wi, wold k h] at this
        exact absurd this.symm ((flexNew hkd).2 k h)
      · subst h
        have := ho.1
        rw [tail_i, head_i] at this
        exact absurd this hsep
      · exact h
  have only_j : ∀ k ∈ w.ifs, Opposite w (s.next + 1) k → k = s.next := by
    intro k hkm ho
    cases hkd : s.kind with
    | perf =>
      exact hu.single hkd k hkm _ (wmem.2 (.inr (.inl rfl)))
        (by rw [tail_i, ← ho.2.1, head_j]) (by rw [head_i, ← ho.1, tail_j])
    | flex =>
      rcases wmem.1 hkm with h | h | h
      · have := ho.2.2 hkd
        rw [wj, wold k h] at this
        exact absurd this.symm ((flexNew hkd).2 k h)
      · exact h
      · subst h
        have := ho.1
        rw [tail_j, head_j] at this
        exact absurd this.symm hsep
  have wagree : EndsAgree w := by
    intro k hkm l hlm ho
    rcases wmem.1 hkm with h | h | h
    · rcases wmem.1 hlm with h' | h' | h'
      · rw [wold k h, wold l h']
        refine he k h l h' ⟨?_, ?_, ?_⟩
        · rw [← tail_o k h, ← head_o l h']; exact ho.1
        · rw [← head_o k h, ← tail_o l h']; exact ho.2.1
        · intro hkd
          have := ho.2.2 hkd
          rwa [wold k h, wold l h'] at this
      · subst h'
        exact absurd h (only_i k hkm (opposite_symm ho) ▸ hnj)
      · subst h'
        exact absurd h (only_j k hkm (opposite_symm ho) ▸ hni)
    · subst h
      rw [only_i l hlm ho, wi, wj]; rfl
    · subst h
      rw [only_j l hlm ho, wi, wj]; rfl
  -- no interface is failed by the validation
  have hmis : ∀ k, u.misIn u.circuits k = false := by
    intro k
    by_contra hm
    obtain ⟨c, hc, hend, hnf⟩ := misIn_iff.1 (by simpa using hm)
    obtain ⟨B, I, hueq⟩ := hu.eq
    have hf : ∀ k, (u.ifc k).failed = (w.ifc k).failed := by intro k; rw [hueq]; rfl
    rw [hf, hf] at hnf
    have hce := hu.ends c hc
    exact hnf (wagree c.1 hce.1 c.2 hce.2.1 (hu.opposite hc))
  have hrep : u.repair = u := by
    have : u.repair.ifc = u.ifc := by
      funext k
      unfold State.repair State.repairOver
      simp only [hmis k]
      rfl
    unfold State.repair State.repairOver at this ⊢
    simp only [] at this
    rw [this]
  rw [hrep]
  obtain ⟨B, I, hueq⟩ := hu.eq
  have hifc : ∀ k, u.ifc k = { w.ifc k with inCkt := B k, cktId := I k } := by
    intro k; rw [hueq]; rfl
  have wmatch : ∀ k ∈ w.ifs, k ∈ w.matchable := by
    intro k hkm
    refine mem_matchable.2 ⟨hkm, ?_⟩
    rcases wmem.1 hkm with h | h | h
    · have := (hr k h).2
      unfold State.reservable State.reservedBw at *
      rw [wold k h]; exact this
    · subst h
      unfold State.reservable State.reservedBw
      rw [wi]
      simp only [newEnd, if_true, pyRound_zero, sub_zero]
      have : cap * (100 / 100) = cap := by norm_num
      rw [this]
      exact pyRound_nonneg _ c2.le
    · subst h
      unfold State.reservable State.reservedBw
      rw [wj]
      simp only [newEnd, if_true, pyRound_zero, sub_zero]
      have : cap * (100 / 100) = cap := by norm_num
      rw [this]
      exact pyRound_nonneg _ c2.le
  have hin : ∀ k ∈ w.ifs, ∃ c ∈ u.circuits, IsEnd k c ∧ (u.ifc k).cktId = (u.ifc c.1).cktId := by
    intro k hkm
    obtain ⟨c, hc, hce⟩ := hu.cover hu.single hu.set k (wmatch k hkm)
    refine ⟨c, hc, hce, ?_⟩
    rcases hce with rfl | rfl
    · rfl
    · exact (hu.sameId hu.set c hc).symm
  have im : s.next ∈ w.ifs := wmem.2 (.inr (.inl rfl))
  have jm : s.next + 1 ∈ w.ifs := wmem.2 (.inr (.inr rfl))
  -- the circuit of the new interfaces
  obtain ⟨c, hc, hci, hcid⟩ := hin _ im
  have hce := hu.ends c hc
  have hco := hu.opposite hc
  have hcj : (c.1 = s.next ∧ c.2 = s.next + 1) ∨ (c.2 = s.next ∧ c.1 = s.next + 1) := by
    rcases hci with e | e
    · left
      rw [← e] at hco
      exact ⟨e.symm, only_i _ hce.2.1 hco⟩
    · right
      rw [← e] at hco
      exact ⟨e.symm, only_i _ hce.1 (opposite_symm hco)⟩
  have hends : ∀ k, IsEnd k c → k = s.next ∨ k = s.next + 1 := by
    rintro k (e | e) <;> rcases hcj with ⟨x, y⟩ | ⟨x, y⟩
    · left; rw [e, x]
    · right; rw [e, y]
    · right; rw [e, y]
    · left; rw [e, x]
  have hsame : (u.ifc s.next).cktId = (u.ifc (s.next + 1)).cktId := by
    have := hu.sameId hu.set c hc
    rcases hcj with ⟨x, y⟩ | ⟨x, y⟩
    · rwa [x, y] at this
    · rw [x, y] at this; exact this.symm
  have hsn : s.kind = .perf ∨ s.kind = .flex := by cases s.kind <;> simp
  refine ⟨?_, fun hkd => ⟨by rw [hu.flexIds hkd, wi]; exact (pickCktId_flex hkd h1).1,
    fun k hkm => by rw [hu.flexIds hkd, wold k hkm]⟩, ?_, ?_, by omega, by omega⟩
  rotate_left
  · have e1 : u.tail = w.tail := by rw [hueq]; rfl
    have e2 : u.head = w.head := by rw [hueq]; rfl
    have e3 : u.ifs = w.ifs := by rw [hueq]; rfl
    have e4 : u.kind = w.kind := by rw [hueq]; rfl
    intro k hkm l hlm ho
    rw [e3] at hkm hlm
    have := wagree k hkm l hlm ⟨by rw [← e1, ← e2]; exact ho.1, by rw [← e1, ← e2]; exact ho.2.1,
      fun hkd => by rw [← hu.flexIds hkd, ← hu.flexIds hkd]; exact ho.2.2 (e4.trans hkd)⟩
    rw [hifc, hifc]
    exact this
  · intro hkd k hkm
    have hkd' : w.kind = .flex := by rw [hueq] at hkd; exact hkd
    rw [hu.flexIds hkd']
    exact wset hkd' k (by rw [hueq] at hkm; exact hkm)
  refine ⟨by rw [hueq]; rfl, by rw [hueq]; rfl, ⟨hni, hnj, hne⟩, ?_, ?_, ⟨hsame, ?_⟩, ?_, ?_, by rw [hueq]; exact ⟨rfl, rfl⟩,
    by rw [hueq]; exact ⟨rfl, rfl⟩, by rw [hueq]; exact ⟨rfl, rfl⟩, by rw [hueq]; exact ⟨rfl, rfl⟩⟩
  · rw [hifc, wi]
    refine ⟨rfl, ?_, rfl, rfl, rfl, rfl, rfl, rfl, rfl, rfl, rfl⟩
    simp only [newEnd]
    omega
  · rw [hifc, wj]
    refine ⟨rfl, ?_, rfl, rfl, rfl, rfl, rfl, rfl, rfl, rfl, rfl⟩
    simp only [newEnd]
    omega
  · rcases hsn with hkd | hkd
    · obtain ⟨m, hm⟩ := (hu.numIds hkd).1 c hc
      rw [hcid, hm]
      simp
    · rw [hu.flexIds hkd, wi]
      exact (flexNew hkd).1
  · intro k hkm heq
    rcases hsn with hkd | hkd
    · obtain ⟨d, hd, hdk, hdid⟩ := hin k (wmem.2 (.inl hkm))
      have hcd : d = c := by
        by_contra hne
        have hpw := (hu.numIds hkd).2.1
        have : Std.Symm fun c d : ℕ × ℕ => (u.ifc c.1).cktId ≠ (u.ifc d.1).cktId :=
          ⟨fun _ _ h => h.symm⟩
        exact hpw.forall hd hc hne (by rw [← hcid, ← hdid, heq])
      subst hcd
      rcases hends k hdk with e | e
      · exact hni (e ▸ hkm)
      · exact hnj (e ▸ hkm)
    · rw [hu.flexIds hkd, hu.flexIds hkd, wi, wold k hkm] at heq
      exact (flexNew hkd).2 k hkm heq
  · intro k hkm
    rw [hifc, wold k hkm]

end NTM
