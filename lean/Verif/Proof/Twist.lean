import Verif.Proof.Rel
import Verif.Proof.Reopt
import Verif.Proof.Enumerate
import Verif.Proof.Ledger
import Verif.Proof.LspRule

/-!
# The LSP phase reads only the configuration

Two states that differ only in results of earlier simulations (and, on networks without
parallel links, in the model class) run through the LSP phase in lockstep.
-/

namespace NTM

open Spec

/-- the parts of a state that may differ -/
structure Ov where
  kind : Kind
  res : ℕ → Bw
  setup : ℕ → Option ℚ
  det : ℕ → Option (List PathInfo)
  id : ℕ → CktId
  inC : ℕ → Bool
  ck : List (ℕ × ℕ)
  sg : ℕ → Srlg
  gs : List ℕ

/-- `s` with those parts replaced -/
def State.twist (s : State) (o : Ov) : State :=
  { s with
    kind := o.kind
    circuits := o.ck
    srlg := o.sg
    srlgs := o.gs
    lsp := fun l => { s.lsp l with reserved := o.res l, setup := o.setup l }
    dmd := fun d => { s.dmd d with detail := o.det d }
    ifc := fun i => { s.ifc i with cktId := o.id i, inCkt := o.inC i } }

/-- sane and without parallel links -/
structure Plain (s : State) : Prop where
  nodup : s.ifs.Nodup
  costs : PosCosts s
  single : SingleLinks s

/-- replace a function at one point -/
def upd {α : Type} (f : ℕ → α) (k : ℕ) (v : α) : ℕ → α := fun j => if j = k then v else f j

theorem twist_updLsp (s : State) (o : Ov) (l : ℕ) (f g : Lsp → Lsp) {r : Bw} {u : Option ℚ}
    (h : f { s.lsp l with reserved := o.res l, setup := o.setup l } =
      { g (s.lsp l) with reserved := r, setup := u }) :
    (s.twist o).updLsp l f =
      (s.updLsp l g).twist { o with res := upd o.res l r, setup := upd o.setup l u } := by
  unfold State.twist State.updLsp upd
  simp only [State.mk.injEq, true_and, and_true]
  funext k
  by_cases hk : k = l
  · subst hk; simp only [if_true]; exact h
  · simp only [hk, if_false]

theorem twist_addReserved (s : State) (o : Ov) (i : ℕ) (v : ℚ) :
    (s.twist o).addReserved i v = (s.addReserved i v).twist o := by
  unfold State.twist State.addReserved State.setReserved State.updIfc
  simp only [State.mk.injEq, true_and, and_true]
  funext k
  by_cases hk : k = i
  · subst hk; simp only [if_true]; rfl
  · simp only [hk, if_false]

theorem twist_reserveOn (s : State) (o : Ov) (p : List ℕ) (v : ℚ) :
    (s.twist o).reserveOn p v = (s.reserveOn p v).twist o := by
  unfold State.reserveOn
  induction p generalizing s with
  | nil => rfl
  | cons i p ih => rw [List.foldl_cons, List.foldl_cons, twist_addReserved, ih]

theorem allSome_flatMap {α β : Type} {L : List α} {f : α → Option β} {g : α → List β}
    (h : ∀ x ∈ L, ∃ y, f x = some y ∧ g x = [y]) : allSome (L.map f) = some (L.flatMap g) := by
  induction L with
  | nil => rfl
  | cons x L ih =>
    obtain ⟨y, h1, h2⟩ := h x (by simp)
    rw [List.map_cons, h1, List.flatMap_cons, h2]
    show (allSome (L.map f)).map (y :: ·) = _
    rw [ih fun z hz => h z (by simp [hz])]
    rfl

theorem map_singletons {α β : Type} {L : List α} {f : α → Option β} {g : α → List β}
    (h : ∀ x ∈ L, ∃ y, f x = some y ∧ g x = [y]) : L.map g = (L.flatMap g).map fun y => [y] := by
  induction L with
  | nil => rfl
  | cons x L ih =>
    obtain ⟨y, -, h2⟩ := h x (by simp)
    rw [List.map_cons, List.flatMap_cons, h2, ih fun z hz => h z (by simp [hz])]
    rfl

/-- without parallel links there is at most one edge per hop -/
theorem edgesBetween_single {tail head : ℕ → String} {es : List ℕ} (hs : Single tail head es)
    (hn : es.Nodup) (u v : String) :
    edgesBetween tail head es u v = [] ∨ ∃ i, edgesBetween tail head es u v = [i] := by
  have hnd : (edgesBetween tail head es u v).Nodup := hn.filter _
  cases he : edgesBetween tail head es u v with
  | nil => exact .inl rfl
  | cons i l =>
    right
    cases l with
    | nil => exact ⟨i, rfl⟩
    | cons j l =>
      exfalso
      have hi : i ∈ edgesBetween tail head es u v := by rw [he]; simp
      have hj : j ∈ edgesBetween tail head es u v := by rw [he]; simp
      obtain ⟨a1, a2, a3⟩ := mem_edgesBetween.1 hi
      obtain ⟨b1, b2, b3⟩ := mem_edgesBetween.1 hj
      have := hs i a1 j b1 (a2.trans b2.symm) (a3.trans b3.symm)
      rw [he, this] at hnd
      simp at hnd

theorem weightMulti_eq {tail head : ℕ → String} {cost : ℕ → ℕ} {es : List ℕ}
    (hs : Single tail head es) (hn : es.Nodup) :
    weightMulti tail head cost es = weightDi tail head cost es := by
  funext u v
  unfold weightMulti weightDi
  rcases edgesBetween_single hs hn u v with h | ⟨i, h⟩ <;> rw [h] <;> rfl

theorem Plain.single_sub {s : State} (h : Plain s) {es : List ℕ} (hes : es ⊆ s.ifs) :
    Single s.tail s.head es :=
  fun i hi j hj h1 h2 => h.single i (hes hi) j (hes hj) h1 h2

/-- hops of a shortest node path, over edges without parallels -/
theorem Plain.hop {s : State} (h : Plain s) {es : List ℕ} (hes : es ⊆ s.ifs) (hn : es.Nodup)
    {nodes : List String} (hnodes : ∀ i ∈ es, s.tail i ∈ nodes ∧ s.head i ∈ nodes)
    {a b : String} {ps : List (List String)}
    (hp : NxG.allShortestPaths ⟨nodes, weightDi s.tail s.head s.costOf es⟩ a b = .ok ps)
    {np : List String} (hnp : np ∈ ps) : hopsByIndex np = hops np ∧
      ∀ x ∈ hops np, ∃ i ∈ es, s.tail i = x.1 ∧ s.head i = x.2 ∧
        s.ifcFromNodes x.1 x.2 = some i ∧ edgesBetween s.tail s.head es x.1 x.2 = [i] := by
  have hw : MinWeight s.tail s.head s.costOf es (weightDi s.tail s.head s.costOf es) :=
    weightDi_min (h.single_sub hes)
  obtain ⟨-, -, h3⟩ := allShortestPaths_ok (closed_of_min hw hnodes)
    (pos_of_min hw fun i hi => h.costs i (hes hi)) hp
  obtain ⟨rest, rfl, hcw⟩ := (h3 np).1 hnp
  have hnd := hcw.nodup (pos_of_min (nodes := nodes) hw fun i hi => h.costs i (hes hi))
  refine ⟨hopsByIndex_eq hnd, fun x hx => ?_⟩
  obtain ⟨c, hc⟩ := Option.isSome_iff_exists.1 (hops_mem hcw.1 (x := x.1) (y := x.2) hx)
  obtain ⟨i, hi, h1, h2, -⟩ := hw.attained hc
  refine ⟨i, hi, h1, h2, ?_, ?_⟩
  · rw [← h1, ← h2]; exact ifcFromNodes_single h.single (hes hi)
  · have hm : i ∈ edgesBetween s.tail s.head es x.1 x.2 := mem_edgesBetween.2 ⟨hi, h1, h2⟩
    rcases edgesBetween_single (h.single_sub hes) hn x.1 x.2 with h0 | ⟨j, hj⟩
    · rw [h0] at hm; cases hm
    · rw [hj] at hm ⊢; simp at hm; rw [hm]

/-- both conversions give the same list of paths -/
theorem Plain.convert {s : State} (h : Plain s) {es : List ℕ} (hes : es ⊆ s.ifs) (hn : es.Nodup)
    {nodes : List String} (hnodes : ∀ i ∈ es, s.tail i ∈ nodes ∧ s.head i ∈ nodes)
    {a b : String} {ps : List (List String)}
    (hp : NxG.allShortestPaths ⟨nodes, weightDi s.tail s.head s.costOf es⟩ a b = .ok ps) :
    allSome (ps.map fun p => (s.convertPerf p).toOption) =
      some (State.normalize (ps.map (s.convertMdg es))) := by
  unfold State.normalize
  rw [List.flatMap_map]
  refine allSome_flatMap fun np hnp => ?_
  obtain ⟨e, hh⟩ := h.hop hes hn hnodes hp hnp
  rw [convertPerf_toOption, e]
  have key : ∀ x ∈ hops np, ∃ y, s.ifcFromNodes x.1 x.2 = some y ∧
      ((edgesBetween s.tail s.head es x.1 x.2).filter fun i =>
        ((edgesBetween s.tail s.head es x.1 x.2).map s.costOf).min? = some (s.costOf i)) = [y] := by
    intro x hx
    obtain ⟨i, -, -, -, h1, h2⟩ := hh x hx
    refine ⟨i, h1, ?_⟩
    rw [h2]
    simp
  refine ⟨_, allSome_flatMap key, ?_⟩
  unfold State.convertMdg
  simp only []
  rw [map_singletons key, pyProduct_singletons]

theorem Plain.convertRouted {s : State} (h : Plain s) {es path : List ℕ} {res needed : ℚ}
    (hes : ∀ i, i ∈ es ↔ i ∈ s.routedEdges path res needed) (hn : es.Nodup)
    {nodes : List String} (hnodes : ∀ i ∈ es, s.tail i ∈ nodes ∧ s.head i ∈ nodes)
    {a b : String} {ps : List (List String)}
    (hp : NxG.allShortestPaths ⟨nodes, weightDi s.tail s.head s.costOf es⟩ a b = .ok ps) :
    allSome (ps.map fun p => (s.convertPerf p).toOption) =
      some (State.normalize (ps.map (s.convertRouted path res needed))) := by
  have hsub : es ⊆ s.ifs := fun i hi => (mem_routedEdges.1 ((hes i).1 hi)).1
  unfold State.normalize
  rw [List.flatMap_map]
  refine allSome_flatMap fun np hnp => ?_
  obtain ⟨e, hh⟩ := h.hop hsub hn hnodes hp hnp
  rw [convertPerf_toOption, convertRouted_eq, pyProduct_singletons, e]
  refine ⟨_, allSome_flatMap (g := s.routedHop path res needed) fun x hx => ?_, rfl⟩
  obtain ⟨i, hi, h1, h2, h3, -⟩ := hh x hx
  refine ⟨i, h3, ?_⟩
  have hm : i ∈ s.routedHop path res needed x :=
    mem_routedHop.2 ⟨hsub hi, h1, h2, (routedEdges_hop ((hes i).1 hi)).2⟩
  have hnd : (s.routedHop path res needed x).Nodup := (h.nodup.filter _).filter _
  have hall : ∀ j ∈ s.routedHop path res needed x, j = i := fun j hj => by
    obtain ⟨g1, g2, g3, -⟩ := mem_routedHop.1 hj
    exact h.single j g1 i (hsub hi) (g2.trans h1.symm) (g3.trans h2.symm)
  cases hl : s.routedHop path res needed x with
  | nil => rw [hl] at hm; cases hm
  | cons j l =>
    rw [hl] at hall hnd
    have := hall j (by simp)
    subst this
    cases l with
    | nil => rfl
    | cons k l =>
      have := hall k (by simp)
      subst this
      simp at hnd

/-! ### what the LSP phase reads -/

section
variable {s : State} {o : Ov}

theorem twist_considered (a : Bool) (b : ℚ) (c : Bool) :
    (s.twist o).considered a b c = s.considered a b c := rfl

theorem twist_lspGraph (hk : o.kind = s.kind ∨ Plain s) (b : ℚ) :
    (s.twist o).lspGraph b = s.lspGraph b := by
  have hp : Plain s → s.graphFlex false b true = s.graphPerf false b true := by
    intro h
    unfold State.graphFlex State.graphPerf
    simp only []
    rw [weightMulti_eq (h.single_sub (considered_sub s _ _ _)) (h.nodup.filter _)]
  show (match o.kind with
    | .perf => s.graphPerf false b true
    | .flex => s.graphFlex false b true) = _
  unfold State.lspGraph
  rcases hk with h | h
  · rw [h]; cases s.kind <;> rfl
  · cases o.kind <;> cases s.kind <;> simp only [hp h]

theorem twist_lspCandidates (hk : o.kind = s.kind ∨ Plain s) {b : ℚ} {x y : String}
    {nxSp : List (List String)} (hp : (s.lspGraph b).allShortestPaths x y = .ok nxSp) :
    (s.twist o).lspCandidates b nxSp = s.lspCandidates b nxSp := by
  have hc : Plain s → (match allSome (nxSp.map fun p => (s.convertPerf p).toOption) with
      | some l => (.ok l : Except Exn (List (List ℕ)))
      | none => .error .attributeError) =
      .ok (State.normalize (nxSp.map (s.convertMdg (s.considered false b true)))) := by
    intro h
    have hg : s.lspGraph b = ⟨s.graphNodes (s.considered false b true),
        weightDi s.tail s.head s.costOf (s.considered false b true)⟩ := by
      unfold State.lspGraph
      cases s.kind with
      | perf => rfl
      | flex =>
        simp only []
        unfold State.graphFlex
        simp only []
        rw [weightMulti_eq (h.single_sub (considered_sub s _ _ _)) (h.nodup.filter _)]
    rw [hg] at hp
    rw [h.convert (considered_sub s _ _ _) (h.nodup.filter _) (mem_graphNodes s _) hp]
  show (match o.kind with
    | .perf =>
      match allSome (nxSp.map fun p => (s.convertPerf p).toOption) with
      | some l => (.ok l : Except Exn (List (List ℕ)))
      | none => .error .attributeError
    | .flex => .ok (State.normalize (nxSp.map (s.convertMdg (s.considered false b true))))) = _
  unfold State.lspCandidates
  rcases hk with h | h
  · rw [h]; cases s.kind <;> rfl
  · cases o.kind <;> cases s.kind
    exacts [rfl, hc h, (hc h).symm, rfl]

theorem twist_withHeadroom (b : ℚ) (all : List (List ℕ)) :
    (s.twist o).withHeadroom b all = s.withHeadroom b all := by
  induction all with
  | nil => rfl
  | cons q all ih =>
    unfold State.withHeadroom
    rw [ih]
    rfl

theorem twist_memIfc (hu : UniqueIfcKeys s) {i : ℕ} {path : List ℕ} (hi : i ∈ s.ifs)
    (hp : ∀ j ∈ path, j ∈ s.ifs) : (s.twist o).memIfc i path = s.memIfc i path :=
  Bool.eq_iff_iff.2 ((memIfc_iff (s := s.twist o) hu hi hp).trans (memIfc_iff hu hi hp).symm)

theorem twist_effReservable (hu : UniqueIfcKeys s) {i : ℕ} {path : List ℕ} (hi : i ∈ s.ifs)
    (hp : ∀ j ∈ path, j ∈ s.ifs) (res : ℚ) :
    (s.twist o).effReservable path res i = s.effReservable path res i := by
  unfold State.effReservable
  rw [twist_memIfc hu hi hp]
  rfl

theorem twist_routedEdges (hu : UniqueIfcKeys s) {path : List ℕ} (hp : ∀ j ∈ path, j ∈ s.ifs)
    (res needed : ℚ) :
    (s.twist o).routedEdges path res needed = s.routedEdges path res needed := by
  unfold State.routedEdges
  refine List.filter_congr fun i hi => ?_
  rw [twist_effReservable hu hi hp]
  rfl

theorem twist_convertRouted (hu : UniqueIfcKeys s) {path : List ℕ} (hp : ∀ j ∈ path, j ∈ s.ifs)
    (res needed : ℚ) (p : List String) :
    (s.twist o).convertRouted path res needed p = s.convertRouted path res needed p := by
  rw [convertRouted_eq, convertRouted_eq]
  congr 1
  refine List.flatMap_congr fun h _ => ?_
  unfold State.routedHop
  refine List.filter_congr fun i hi => ?_
  rw [twist_memIfc hu (List.mem_filter.1 hi).1 hp]
  rfl

theorem twist_routedHeadroom (hu : UniqueIfcKeys s) {path p : List ℕ}
    (hp : ∀ j ∈ path, j ∈ s.ifs) (hpp : ∀ j ∈ p, j ∈ s.ifs) (res : ℚ) :
    (s.twist o).routedHeadroom path res p = s.routedHeadroom path res p := by
  unfold State.routedHeadroom
  congr 1
  exact List.map_congr_left fun i hi => twist_effReservable hu (hpp i hi) hp res

theorem twist_routedCandidates (hk : o.kind = s.kind ∨ Plain s) (hu : UniqueIfcKeys s) (env : Env)
    (x y : String) {path : List ℕ} (hp : ∀ j ∈ path, j ∈ s.ifs) (res needed : ℚ) :
    (s.twist o).routedCandidates env x y path res needed =
      s.routedCandidates env x y path res needed := by
  have hc : Plain s →
      (match NxG.allShortestPaths { nodes := s.graphNodes (env.ordI (s.routedEdges path res needed)), w := weightDi s.tail s.head s.costOf (env.ordI (s.routedEdges path res needed)) } x y with
      | .error _ => []
      | .ok ps =>
        match allSome (ps.map fun p => (s.convertPerf p).toOption) with
        | some l => l
        | none => []) =
      (match NxG.allShortestPaths { nodes := s.graphNodes (env.ordI (s.routedEdges path res needed)), w := weightMulti s.tail s.head s.costOf (env.ordI (s.routedEdges path res needed)) } x y with
      | .error _ => []
      | .ok ps => State.normalize (ps.map (s.convertRouted path res needed))) := by
    intro h
    have hperm := env.ordI_perm (s.routedEdges path res needed)
    generalize env.ordI (s.routedEdges path res needed) = es at hperm
    have hmem : ∀ i, i ∈ es ↔ i ∈ s.routedEdges path res needed := fun i => hperm.mem_iff
    have hnd : es.Nodup := hperm.nodup_iff.2 (h.nodup.filter _)
    rw [weightMulti_eq (h.single_sub fun i hi => (mem_routedEdges.1 ((hmem i).1 hi)).1) hnd]
    cases hr : NxG.allShortestPaths ⟨s.graphNodes es, weightDi s.tail s.head s.costOf es⟩ x y with
    | error e => rfl
    | ok ps =>
      simp only []
      rw [h.convertRouted hmem hnd (mem_graphNodes s es) hr]
  unfold State.routedCandidates
  simp only []
  have e : (s.twist o).convertRouted path res needed = s.convertRouted path res needed :=
    funext fun p => twist_convertRouted hu hp res needed p
  rw [twist_routedEdges hu hp, e]
  rcases hk with h | h
  · show (match o.kind with | .perf => _ | .flex => _) = _
    rw [h]; cases s.kind <;> rfl
  · show (match o.kind with | .perf => _ | .flex => _) = _
    cases o.kind <;> cases s.kind
    exacts [rfl, hc h, (hc h).symm, rfl]

end

/-! ### candidate paths consist of interfaces of the model -/

theorem allSome_mem {α β : Type} {L : List α} {f : α → Option β} {l : List β}
    (h : allSome (L.map f) = some l) {y : β} (hy : y ∈ l) : ∃ x ∈ L, f x = some y := by
  induction L generalizing l with
  | nil => cases h; cases hy
  | cons a L ih =>
    rw [List.map_cons] at h
    cases hf : f a with
    | none => rw [hf] at h; cases h
    | some z =>
      rw [hf] at h
      cases hr : allSome (L.map f) with
      | none =>
        have h' : (allSome (L.map f)).map (z :: ·) = some l := h
        rw [hr] at h'; cases h'
      | some l' =>
        have h' : (allSome (L.map f)).map (z :: ·) = some l := h
        rw [hr] at h'
        cases h'
        rcases List.mem_cons.1 hy with rfl | hy
        · exact ⟨a, by simp, hf⟩
        · obtain ⟨x, hx, e⟩ := ih hr hy
          exact ⟨x, by simp [hx], e⟩

theorem convertPerf_sub {s : State} {ps : List (List String)} {l : List (List ℕ)}
    (h : allSome (ps.map fun p => (s.convertPerf p).toOption) = some l) :
    ∀ p ∈ l, ∀ i ∈ p, i ∈ s.ifs := by
  intro p hp i hi
  obtain ⟨np, -, e⟩ := allSome_mem h hp
  rw [convertPerf_toOption] at e
  obtain ⟨hop, -, e'⟩ := allSome_mem e hi
  exact List.mem_of_find?_eq_some e'

theorem normalize_sub {ls : List (List (List ℕ))} {S : List ℕ}
    (h : ∀ m ∈ ls, ∀ hop ∈ m, ∀ i ∈ hop, i ∈ S) : ∀ p ∈ State.normalize ls, ∀ i ∈ p, i ∈ S := by
  intro p hp i hi
  unfold State.normalize at hp
  obtain ⟨m, hm, hp⟩ := List.mem_flatMap.1 hp
  rw [mem_pyProduct] at hp
  have : ∀ {a : List ℕ} {m : List (List ℕ)}, List.Forall₂ (· ∈ ·) a m →
      (∀ hop ∈ m, ∀ i ∈ hop, i ∈ S) → ∀ i ∈ a, i ∈ S := by
    intro a m hf
    induction hf with
    | nil => intro _ i hi; cases hi
    | cons h1 _ ih =>
      intro hS i hi
      rcases List.mem_cons.1 hi with rfl | hi
      · exact hS _ (by simp) _ h1
      · exact ih (fun hop hh => hS hop (by simp [hh])) i hi
  exact this hp (h m hm) i hi

theorem lspCandidates_sub {s : State} {b : ℚ} {nx : List (List String)} {all : List (List ℕ)}
    (h : s.lspCandidates b nx = .ok all) : ∀ p ∈ all, ∀ i ∈ p, i ∈ s.ifs := by
  unfold State.lspCandidates at h
  split at h
  · split at h
    · next l hl => cases h; exact convertPerf_sub hl
    · cases h
  · cases h
    refine normalize_sub fun m hm hop hh i hi => ?_
    obtain ⟨np, -, rfl⟩ := List.mem_map.1 hm
    unfold State.convertMdg at hh
    obtain ⟨x, -, rfl⟩ := List.mem_map.1 hh
    exact considered_sub s _ _ _ (mem_edgesBetween.1 (List.mem_filter.1 hi).1).1

theorem withHeadroom_sub {s : State} {b : ℚ} {all cands : List (List ℕ)}
    (h : s.withHeadroom b all = .ok cands) : ∀ p ∈ cands, p ∈ all := by
  induction all generalizing cands with
  | nil => cases h; exact fun p hp => hp
  | cons q all ih =>
    unfold State.withHeadroom at h
    split at h
    · cases h
    · next hh _ =>
      split at h
      · cases h
      · next l hl =>
        cases h
        intro p hp
        split at hp
        · rcases List.mem_cons.1 hp with rfl | hp
          · simp
          · exact List.mem_cons_of_mem _ (ih hl p hp)
        · exact List.mem_cons_of_mem _ (ih hl p hp)

theorem routedCandidates_sub {s : State} {env : Env} {x y : String} {path : List ℕ}
    {res needed : ℚ} : ∀ p ∈ s.routedCandidates env x y path res needed, ∀ i ∈ p, i ∈ s.ifs := by
  intro p hp
  unfold State.routedCandidates at hp
  simp only [] at hp
  split at hp
  · split at hp
    · cases hp
    · split at hp
      · next l hl => exact convertPerf_sub hl p hp
      · cases hp
  · split at hp
    · cases hp
    · refine normalize_sub (fun m hm hop hh i hi => ?_) p hp
      obtain ⟨np, -, rfl⟩ := List.mem_map.1 hm
      unfold State.convertRouted at hh
      obtain ⟨h', -, hh⟩ := List.mem_flatMap.1 hh
      obtain ⟨j, hj, rfl⟩ := List.mem_map.1 hh
      rw [List.mem_singleton.1 hi]
      exact (List.mem_filter.1 (List.mem_filter.1 hj).1).1

/-! ### the relation kept by the LSP phase -/

/-- the base states allow the comparison -/
structure Comparable (o : Ov) (s : State) : Prop where
  kind : o.kind = s.kind ∨ Plain s
  keys : UniqueIfcKeys s

/-- The two states agree but for the overlay `o`, and the reservations of LSPs outside `P`,
which have not been signalled yet. -/
structure LRel (s0 : State) (o : Ov) (P : Set ℕ) (s t : State) : Prop where
  frame : LspFrame s0 s
  tw : ∃ r u, t = s.twist { o with res := r, setup := u } ∧
    ∀ l ∈ P, r l = (s.lsp l).reserved ∧ u l = (s.lsp l).setup
  rest : ∀ l ∈ s.lsps, l ∉ P → (s.lsp l).path = .unrouted
  sub : ∀ l ∈ s.lsps, ∀ p c h, (s.lsp l).path = .routed p c h → ∀ i ∈ p, i ∈ s.ifs

theorem Comparable.frame {o : Ov} {s0 s : State} (h : Comparable o s0) (hf : LspFrame s0 s) :
    Comparable o s := by
  refine ⟨?_, ?_⟩
  · rcases h.kind with hk | hp
    · exact .inl (hk.trans hf.kind.symm)
    · refine .inr ⟨hf.ifs ▸ hp.nodup, ?_, ?_⟩
      · intro i hi
        rw [hf.ifs] at hi
        have := hp.costs i hi
        rw [hf.ifc i]
        exact this
      · intro i hi j hj h1 h2
        rw [hf.ifs] at hi hj
        rw [hf.tail, hf.tail] at h1
        rw [hf.head, hf.head] at h2
        exact hp.single i hi j hj h1 h2
  · intro i hi j hj hk
    rw [hf.ifs] at hi hj
    have e : ∀ i, s.ifcKey i = s0.ifcKey i := fun i => by
      unfold State.ifcKey
      rw [hf.tail, hf.ifc i]
    rw [e, e] at hk
    exact h.keys i hi j hj hk

/-- only the results of signalling differ -/
def OnlyRes (x y : Lsp) : Prop :=
  y = { x with path := y.path, reserved := y.reserved, setup := y.setup }

theorem setSetup_setup (x : Lsp) (v : Option ℚ) (q : ℚ) :
    Lsp.setSetup { x with setup := v } q = Lsp.setSetup x q := by
  unfold Lsp.setSetup
  rfl

section
variable {s0 : State} {o : Ov} {P : Set ℕ} {s t : State}

theorem LRel.comparable (h : LRel s0 o P s t) (hc : Comparable o s0) : Comparable o s :=
  hc.frame h.frame

theorem LspFrame.put (s : State) (l : ℕ) (y : Lsp)
    (hy : OnlyRes (s.lsp l) y) :
    LspFrame s (s.updLsp l fun _ => y) := by
  refine ⟨rfl, rfl, rfl, rfl, rfl, rfl, rfl, rfl, rfl, rfl, rfl, rfl, fun _ => rfl, fun k => ?_⟩
  unfold State.updLsp
  by_cases h : k = l
  · subst h; simp only [if_true]; exact hy
  · simp only [h, if_false]

/-- the LSP becomes the same object in both -/
theorem LRel.put (h : LRel s0 o P s t) {l : ℕ} (y : Lsp)
    (hy : OnlyRes (s.lsp l) y)
    (hp : ∀ p c q, y.path = .routed p c q → ∀ i ∈ p, i ∈ s.ifs) :
    LRel s0 o (insert l P) (s.updLsp l fun _ => y) (t.updLsp l fun _ => y) := by
  obtain ⟨r, u, rfl, hP⟩ := h.tw
  refine ⟨h.frame.trans (.put s l y hy), ⟨upd r l y.reserved, upd u l y.setup,
    twist_updLsp s _ l (fun _ => y) (fun _ => y) rfl, ?_⟩, ?_, ?_⟩
  · intro k hk
    unfold upd State.updLsp
    by_cases hkl : k = l
    · simp [hkl]
    · simp only [hkl, if_false]
      exact hP k (hk.resolve_left hkl)
  · intro k hk hkn
    have hkl : k ≠ l := fun e => hkn (e ▸ Set.mem_insert _ _)
    show ((if k = l then y else s.lsp k) : Lsp).path = _
    rw [if_neg hkl]
    exact h.rest k hk fun hm => hkn (Set.mem_insert_of_mem _ hm)
  · intro k hk p c q
    show ((if k = l then y else s.lsp k) : Lsp).path = _ → _
    split
    · exact hp p c q
    · exact h.sub k hk p c q

theorem updLsp_const (s : State) (l : ℕ) (f : Lsp → Lsp) :
    s.updLsp l f = s.updLsp l fun _ => f (s.lsp l) := by
  unfold State.updLsp
  congr 1
  funext k
  by_cases h : k = l
  · subst h; rfl
  · simp [h]

theorem LRel.lsp (h : LRel s0 o P s t) {l : ℕ} (hl : l ∈ P) : t.lsp l = s.lsp l := by
  obtain ⟨r, u, rfl, hP⟩ := h.tw
  show { s.lsp l with reserved := r l, setup := u l } = _
  rw [(hP l hl).1, (hP l hl).2]

theorem LRel.update (h : LRel s0 o P s t) {l : ℕ} (hl : l ∈ P) (f : Lsp → Lsp)
    (hy : ∀ x, OnlyRes x (f x))
    (hp : ∀ p c q, (f (s.lsp l)).path = .routed p c q → ∀ i ∈ p, i ∈ s.ifs) :
    LRel s0 o P (s.updLsp l f) (t.updLsp l f) := by
  rw [updLsp_const s, updLsp_const t, h.lsp hl]
  have := h.put (f (s.lsp l)) (hy _) hp
  rwa [Set.insert_eq_of_mem hl] at this

theorem LRel.reserve (h : LRel s0 o P s t) (p : List ℕ) (v : ℚ) :
    LRel s0 o P (s.reserveOn p v) (t.reserveOn p v) := by
  obtain ⟨r, u, rfl, hP⟩ := h.tw
  have hf := LspFrame.reserveOn s p v
  have hl := reserveOn_lsp s p v
  refine ⟨h.frame.trans hf, ⟨r, u, twist_reserveOn .., ?_⟩, ?_, ?_⟩
  · rw [hl]; exact hP
  · rw [hl, hf.lsps]; exact h.rest
  · rw [hl, hf.lsps, hf.ifs]; exact h.sub

theorem LRel.rng (h : LRel s0 o P s t) (k : ℕ) :
    LRel s0 o P ({ s with rngPos := k } : State) ({ t with rngPos := k } : State) := by
  obtain ⟨r, u, rfl, hP⟩ := h.tw
  exact ⟨h.frame.trans (.rng s k), ⟨r, u, rfl, hP⟩, h.rest, h.sub⟩

theorem LRel.rngPos (h : LRel s0 o P s t) : t.rngPos = s.rngPos := by
  obtain ⟨r, u, rfl, -⟩ := h.tw
  rfl

theorem LRel.randomChoice (h : LRel s0 o P s t) {α : Type} (env : Env) (l : List α) :
    rwp (randomChoice env l) (randomChoice env l)
      (fun x y s' t' => y = x ∧ x ∈ l ∧ LspFrame s s' ∧ s'.lsp = s.lsp ∧ LRel s0 o P s' t') s t := by
  unfold rwp NTM.randomChoice
  rw [h.rngPos]
  cases he : l[env.rand s.rngPos % l.length]? with
  | none => exact rfl
  | some x => exact ⟨rfl, List.mem_of_getElem? he, .rng _ _, rfl, h.rng _⟩

theorem LRel.choosePath (h : LRel s0 o P s t) (env : Env) (ps : List (List ℕ)) :
    rwp (choosePath env ps) (choosePath env ps)
      (fun x y s' t' => y = x ∧ x ∈ ps ∧ LspFrame s s' ∧ s'.lsp = s.lsp ∧ LRel s0 o P s' t') s t := by
  unfold NTM.choosePath
  split
  · exact rwp_pure ⟨rfl, by simp, .refl _, rfl, h⟩
  · split
    · next hp =>
      refine rwp_pure ⟨rfl, ?_, .refl _, rfl, h⟩
      exact (mem_fewestHops.1 (by rw [hp]; simp)).1
    · refine rwp_mono (h.randomChoice env _) ?_
      rintro x y s' t' ⟨h1, h2, h3⟩
      exact ⟨h1, (mem_fewestHops.1 h2).1, h3⟩

theorem LRel.pickCandidate (h : LRel s0 o P s t) (env : Env) (ps : List (List ℕ)) :
    rwp (pickCandidate env ps) (pickCandidate env ps)
      (fun x y s' t' => y = x ∧ x ∈ ps ∧ LspFrame s s' ∧ s'.lsp = s.lsp ∧ LRel s0 o P s' t') s t := by
  unfold NTM.pickCandidate
  split
  · exact rwp_pure ⟨rfl, by simp, .refl _, rfl, h⟩
  · exact h.randomChoice env _

theorem LRel.signal (hc : Comparable o s0) (h : LRel s0 o P s t) (env : Env) (traff : ℚ) (l : ℕ) :
    rwp (signalLsp env traff l) (signalLsp env traff l)
      (fun _ _ => LRel s0 o (insert l P)) s t := by
  have hk := (h.comparable hc).kind
  obtain ⟨r, u, rfl, hP⟩ := h.tw
  unfold signalLsp
  refine rwp_bind (rwp_get ?_)
  simp only []
  refine rwp_bind (rwp_liftE (by
    exact setSetup_setup { s.lsp l with reserved := .val ((s.lsp l).configured.getD traff) } (u l) _) fun x hx => ?_)
  refine rwp_bind (rwp_set ?_)
  have hxe := setSetup_eq hx
  have h1 : LRel s0 o (insert l P) (s.updLsp l fun _ => { x with path := .blank })
      ((s.twist { o with res := r, setup := u }).updLsp l fun _ => { x with path := .blank }) :=
    h.put _ (by unfold OnlyRes; rw [hxe]) (by intro p c q e; cases e)
  have hunroute : LRel s0 o (insert l P)
      ((s.updLsp l fun _ => { x with path := .blank }).unrouteLsp l)
      (((s.twist { o with res := r, setup := u }).updLsp l
        fun _ => { x with path := .blank }).unrouteLsp l) :=
    h1.update (Set.mem_insert _ _)
      (fun x => { x with path := .unrouted, reserved := .unrouted }) (fun _ => rfl)
      (by intro p c q e; cases e)
  rw [twist_lspGraph (by exact hk)]
  show rwp _ (match (s.lspGraph (x.setup.getD 0)).allShortestPaths (s.lspSrc l) (s.lspDst l) with
    | .error .noPath => _ | .error e => _ | .ok nxSp => _) _ _ _
  cases hg : (s.lspGraph (x.setup.getD 0)).allShortestPaths (s.lspSrc l) (s.lspDst l) with
  | error e => cases e <;> first | exact rwp_raise | exact rwp_modify hunroute
  | ok nxSp =>
    simp only []
    refine rwp_bind (rwp_liftE (by exact twist_lspCandidates hk hg) fun all hall => ?_)
    refine rwp_bind (rwp_liftE (twist_withHeadroom _ _) fun cands hcands => ?_)
    cases cands with
    | nil => exact rwp_modify hunroute
    | cons q cands =>
      refine rwp_bind (rwp_mono (h1.choosePath env (q :: cands)) ?_)
      rintro p p' s' t' ⟨rfl, hp, hf, hl, h2⟩
      refine rwp_modify ?_
      have hs : ∀ i ∈ p', i ∈ s'.ifs := by
        rw [hf.ifs]
        exact lspCandidates_sub hall p' (withHeadroom_sub hcands p' hp)
      have e1 : t'.pathCost p' = s'.pathCost p' := by
        obtain ⟨r', u', rfl, -⟩ := h2.tw; rfl
      have e2 : t'.pathHeadroom p' = s'.pathHeadroom p' := by
        obtain ⟨r', u', rfl, -⟩ := h2.tw; rfl
      rw [e1, e2]
      exact (h2.update (Set.mem_insert _ _) (fun y => { y with
          path := .routed p' (s'.pathCost p') ((s'.pathHeadroom p').getD 0) }) (fun _ => rfl) (by
        intro p c q e; cases e; exact hs)).reserve _ _

theorem LspPath.interfaces_ok {x : LspPath} {p : List ℕ} (h : x.interfaces = .ok p) :
    ∃ c q, x = .routed p c q := by
  cases x with
  | routed ifs c q => cases h; exact ⟨c, q, rfl⟩
  | _ => cases h

theorem LRel.findPath (hc : Comparable o s0) (h : LRel s0 o P s t) (env : Env) {l : ℕ} (hl : l ∈ P)
    (hls : l ∈ s.lsps) (needed : ℚ) :
    rwp (findPathWithBw env l needed) (findPathWithBw env l needed)
      (fun _ _ s' t' => LspFrame s s' ∧ LRel s0 o P s' t') s t := by
  have hk := h.comparable hc
  have hle := h.lsp hl
  unfold findPathWithBw
  refine rwp_bind (rwp_get ?_)
  refine rwp_bind (rwp_liftE (by rw [hle]) fun path hpath => ?_)
  refine rwp_bind (rwp_liftE (by rw [hle]) fun res hres => ?_)
  obtain ⟨c0, q0, hp0⟩ := LspPath.interfaces_ok hpath
  have hsub := h.sub l hls path c0 q0 hp0
  have ecand : t.routedCandidates env (t.lspSrc l) (t.lspDst l) path res needed =
      s.routedCandidates env (s.lspSrc l) (s.lspDst l) path res needed := by
    obtain ⟨r, u, rfl, -⟩ := h.tw
    exact twist_routedCandidates hk.kind hk.keys env _ _ hsub res needed
  have ehead : ∀ p ∈ s.routedCandidates env (s.lspSrc l) (s.lspDst l) path res needed,
      t.routedHeadroom path res p = s.routedHeadroom path res p := by
    obtain ⟨r, u, rfl, -⟩ := h.tw
    exact fun p hp => twist_routedHeadroom hk.keys hsub (routedCandidates_sub p hp) res
  have ecost : ∀ p, t.pathCost p = s.pathCost p := by
    obtain ⟨r, u, rfl, -⟩ := h.tw
    exact fun p => rfl
  simp only []
  rw [ecand]
  have hcs := routedCandidates_sub (s := s) (env := env) (x := s.lspSrc l) (y := s.lspDst l)
    (path := path) (res := res) (needed := needed)
  generalize s.routedCandidates env (s.lspSrc l) (s.lspDst l) path res needed = cands at ehead hcs
  have eany : (cands.any fun p => (t.routedHeadroom path res p).isNone) =
      cands.any fun p => (s.routedHeadroom path res p).isNone := by
    rw [Bool.eq_iff_iff, List.any_eq_true, List.any_eq_true]
    constructor
    · rintro ⟨p, hp, h⟩; rw [ehead p hp] at h; exact ⟨p, hp, h⟩
    · rintro ⟨p, hp, h⟩; rw [← ehead p hp] at h; exact ⟨p, hp, h⟩
  rw [eany]
  by_cases hany : (cands.any fun p => (s.routedHeadroom path res p).isNone) = true
  · rw [if_pos hany, if_pos hany]; exact rwp_raise
  · rw [if_neg hany, if_neg hany]
    cases cands with
    | nil => exact rwp_pure ⟨.refl _, h⟩
    | cons q cands =>
      refine rwp_bind (rwp_mono (h.pickCandidate env (q :: cands)) ?_)
      rintro p p' s' t' ⟨rfl, hp, hf, hl', h2⟩
      refine rwp_bind (rwp_modify ?_)
      rw [ecost, ehead p' hp]
      have h3 := h2.update hl (fun y => { y with
        path := .routed p' (s.pathCost p') ((s.routedHeadroom path res p').getD 0)
        reserved := .val needed }) (fun _ => rfl) (by
          intro p c q e; cases e; rw [hf.ifs]; exact hcs p' hp)
      have hf3 : LspFrame s' (s'.updLsp l fun y => { y with
        path := .routed p' (s.pathCost p') ((s.routedHeadroom path res p').getD 0)
        reserved := .val needed }) := .updLsp _ _ _ fun _ => rfl
      generalize (s'.updLsp l fun y => { y with
        path := .routed p' (s.pathCost p') ((s.routedHeadroom path res p').getD 0)
        reserved := .val needed }) = s3 at h3 hf3
      generalize (t'.updLsp l fun y => { y with
        path := .routed p' (s.pathCost p') ((s.routedHeadroom path res p').getD 0)
        reserved := .val needed }) = t3 at h3
      refine rwp_bind (rwp_get ?_)
      refine rwp_bind (rwp_liftE (by rw [h3.lsp hl]) fun y hy => ?_)
      have hye := setSetup_eq hy
      have ho : OnlyRes (s3.lsp l) y := by unfold OnlyRes; rw [hye]
      refine rwp_set ⟨hf.trans (hf3.trans (.put _ _ _ ho)), ?_⟩
      have h4 := h3.put y ho (by
        intro p c q e
        rw [hye] at e
        exact h3.sub l (by rw [hf3.lsps, hf.lsps]; exact hls) p c q e)
      rwa [Set.insert_eq_of_mem hl] at h4

theorem LRel.reopt (hc : Comparable o s0) (h : LRel s0 o P s t) (env : Env) {l : ℕ} (hl : l ∈ P)
    (hls : l ∈ s.lsps) (needed : ℚ) :
    rwp (reoptLsp env needed l) (reoptLsp env needed l)
      (fun _ _ s' t' => LRel s0 o P s' t') s t := by
  have hle := h.lsp hl
  unfold reoptLsp
  refine rwp_bind (rwp_get ?_)
  refine rwp_bind (rwp_liftE (by rw [hle]) fun path hpath => ?_)
  simp only []
  refine rwp_bind (rwp_mono (h.findPath hc env hl hls needed) ?_)
  rintro _ _ s' t' ⟨-, h2⟩
  refine rwp_bind (rwp_get ?_)
  rw [hle, h2.lsp hl]
  by_cases hne : (s.lsp l).reserved ≠ (s'.lsp l).reserved
  · rw [if_pos hne]
    refine rwp_bind (rwp_liftE rfl fun old hold => ?_)
    refine rwp_bind (rwp_modify ?_)
    have h3 := h2.reserve path (-old)
    refine rwp_bind (rwp_get ?_)
    refine rwp_bind (rwp_liftE (by rw [h3.lsp hl]) fun after ha => ?_)
    refine rwp_bind (rwp_liftE (by rw [h3.lsp hl]) fun new hn => ?_)
    exact rwp_modify (h3.reserve after new)
  · rw [if_neg hne]
    exact rwp_pure h2

theorem LRel.group (hc : Comparable o s0) (h : LRel s0 o P s t) (env : Env)
    (dg : List (String × List ℕ)) {grp : String × List ℕ} (hg : ∀ l ∈ grp.2, l ∈ s0.lsps) :
    rwp (routeGroup env dg grp) (routeGroup env dg grp)
      (fun _ _ s' t' => LRel s0 o (P ∪ {l | l ∈ grp.2}) s' t') s t := by
  unfold routeGroup
  refine rwp_bind (rwp_get ?_)
  have et : ∀ d, (t.dmd d).traffic = (s.dmd d).traffic := by
    obtain ⟨r, u, rfl, -⟩ := h.tw
    exact fun d => rfl
  simp only [et]
  refine rwp_bind (rwp_mono (rwp_forEach (I := fun done => LRel s0 o (P ∪ {l | l ∈ done})) grp.2 []
    (fun pre l post _ s t hI => ?_) ?_) ?_)
  · refine rwp_mono (hI.signal hc env _ l) fun _ _ s' t' h' => ?_
    have e : insert l (P ∪ {k | k ∈ [] ++ pre}) = P ∪ {k | k ∈ [] ++ pre ++ [l]} := by
      ext k; simp; tauto
    rwa [← e]
  · have e : P ∪ {k | k ∈ ([] : List ℕ)} = P := by ext k; simp
    rwa [e]
  · rintro _ _ s2 t2 h2
    rw [List.nil_append] at h2
    refine rwp_bind (rwp_get ?_)
    have ep : ∀ l, (t2.lsp l).path = (s2.lsp l).path := by
      obtain ⟨r, u, rfl, -⟩ := h2.tw
      exact fun l => rfl
    simp only [ep]
    split
    · refine rwp_loop (R := LRel s0 o (P ∪ {l | l ∈ grp.2})) _ (fun l hl s t h' => ?_) h2
      have hl' := (List.mem_filter.1 hl).1
      exact h'.reopt hc env (.inr hl') (by rw [h'.frame.lsps]; exact hg l hl') _
    · exact rwp_pure h2

theorem LRel.groups (hc : Comparable o s0) (h : LRel s0 o P s t) (env : Env)
    (dg : List (String × List ℕ)) {grps : List (String × List ℕ)}
    (hg : ∀ g ∈ grps, ∀ l ∈ g.2, l ∈ s0.lsps) :
    rwp (forEach grps (routeGroup env dg)) (forEach grps (routeGroup env dg))
      (fun _ _ s' t' => LRel s0 o (P ∪ {l | ∃ g ∈ grps, l ∈ g.2}) s' t') s t := by
  refine rwp_mono (rwp_forEach (I := fun done => LRel s0 o (P ∪ {l | ∃ g ∈ done, l ∈ g.2})) grps []
    (fun pre g post e s t hI => ?_) ?_) fun _ _ s' t' h' => by simpa using h'
  · refine rwp_mono (hI.group hc env dg (hg g (by rw [e]; simp))) fun _ _ s' t' h' => ?_
    have e : P ∪ {l | ∃ g ∈ [] ++ pre, l ∈ g.2} ∪ {l | l ∈ g.2} =
        P ∪ {l | ∃ g' ∈ [] ++ pre ++ [g], l ∈ g'.2} := by
      ext k
      simp only [List.nil_append, Set.mem_union, Set.mem_ofPred_eq, List.mem_append,
        List.mem_singleton]
      constructor
      · rintro ((h | ⟨g', h1, h2⟩) | h)
        · exact .inl h
        · exact .inr ⟨g', .inl h1, h2⟩
        · exact .inr ⟨g, .inr rfl, h⟩
      · rintro (h | ⟨g', h1 | rfl, h2⟩)
        · exact .inl (.inl h)
        · exact .inl (.inr ⟨g', h1, h2⟩)
        · exact .inr h2
    rwa [← e]
  · have e : P ∪ {l | ∃ g ∈ ([] : List (String × List ℕ)), l ∈ g.2} = P := by ext k; simp
    rwa [e]

theorem twist_clearReserved (s : State) (o : Ov) :
    (s.twist o).clearReserved = s.clearReserved.twist o := by
  unfold State.twist State.clearReserved
  simp only [State.mk.injEq, true_and, and_true]
  funext i
  by_cases h : i ∈ s.ifs
  · simp only [h, if_true]
  · simp only [h, if_false]

theorem Comparable.start {o : Ov} {s : State} (h : Comparable o s) (env : Env) :
    Comparable o (startLsps env s) :=
  Comparable.frame (s0 := { s with groups := buildGroups env s.lsps s.lspSrc s.lspDst })
    ⟨h.kind.imp id fun h => ⟨h.nodup, h.costs, h.single⟩, h.keys⟩ (startLsps_frame env s)

/-- the LSP phase, from states that agree but for the overlay -/
theorem routeLsps_twist (env : Env) {o : Ov} {s : State} {P : Set ℕ} (hc : Comparable o s)
    (hg : s.groups = []) (hu : ∀ l ∈ s.lsps, (s.lsp l).path = .unrouted)
    (hP : ∀ l ∈ P, o.res l = (s.lsp l).reserved ∧ o.setup l = (s.lsp l).setup) :
    rwp (routeLsps env) (routeLsps env) (fun _ _ s' t' => LRel (startLsps env s) o
      (P ∪ {l | ∃ g ∈ buildGroups env s.lsps s.lspSrc s.lspDst, l ∈ g.2}) s' t') s (s.twist o) := by
  unfold routeLsps
  refine rwp_bind (rwp_modify ?_)
  rw [twist_clearReserved]
  have e1 : lspGroups env s.clearReserved =
      .ok (buildGroups env s.lsps s.lspSrc s.lspDst) (startLsps env s) := by
    have : s.clearReserved.groups = [] := hg
    unfold lspGroups
    rw [if_neg (by simp [this])]
    rfl
  have e2 : lspGroups env (s.clearReserved.twist o) =
      .ok (buildGroups env s.lsps s.lspSrc s.lspDst) ((startLsps env s).twist o) := by
    have : (s.clearReserved.twist o).groups = [] := hg
    unfold lspGroups
    rw [if_neg (by simp [this])]
    rfl
  refine rwp_bind ?_
  unfold rwp
  rw [e1, e2]
  simp only []
  have h0 : LRel (startLsps env s) o P (startLsps env s) ((startLsps env s).twist o) :=
    ⟨.refl _, ⟨o.res, o.setup, rfl, hP⟩, fun l hl _ => hu l hl,
      fun l hl p c h e => by
        have := hu l hl
        rw [show (s.lsp l).path = _ from e] at this
        cases this⟩
  refine rwp_bind (rwp_get ?_)
  exact h0.groups (hc.start env) env _ fun g hg l hl => mem_of_buildGroups hg hl

end

end NTM
