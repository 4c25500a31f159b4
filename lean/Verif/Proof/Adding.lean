import Verif.Spec.Adding
import Verif.Proof.Additions

/-!
# What successful additions leave behind
-/

namespace NTM

open Spec

/-- a successful validation of a model in which both ends of every circuit agree changes only the
circuits, their numbers and the flags for being in a circuit -/
theorem validate_frame {env : Env} {s t : State} (hset : CktIdsSet s) (he : EndsAgree s)
    (h : validate env s = .ok () t) :
    ∃ C B I, t = s.withCkt C B I ∧ (s.kind = .flex → ∀ i, I i = (s.ifc i).cktId) := by
  obtain ⟨u, hu, rfl, -⟩ := validate_well hset h
  obtain ⟨B, I, hueq⟩ := hu.eq
  have hf : ∀ k, (u.ifc k).failed = (s.ifc k).failed := by intro k; rw [hueq]; rfl
  have hrep : u.repair = u := by
    refine repair_self fun c hc => ?_
    rw [hf, hf]
    have hce := hu.ends c hc
    exact he c.1 hce.1 c.2 hce.2.1 (hu.opposite hc)
  rw [hrep]
  refine ⟨_, B, I, hueq, fun hk i => ?_⟩
  have := hu.flexIds hk i
  rw [hueq] at this
  exact this

/-! ### `_make_network_interfaces` -/

/-- `t` is `s` with further objects created that are in no collection -/
structure Grown (s t : State) : Prop where
  same : SameModel s t
  le : s.next ≤ t.next
  kind : t.kind = s.kind

theorem Grown.refl (s : State) : Grown s s := ⟨sameModel_refl s, le_rfl, rfl⟩

theorem Grown.trans {s t u : State} (h : Grown s t) (g : Grown t u) : Grown s u :=
  ⟨SameModel.trans h.same g.same h.le, h.le.trans g.le, g.kind.trans h.kind⟩

theorem grown_withNode (s : State) (d : Node) : Grown s (s.withNode d) :=
  ⟨sameModel_withNode s d, Nat.le_succ _, rfl⟩

theorem grown_withIfc (s : State) (d : Ifc) : Grown s (s.withIfc d) :=
  ⟨sameModel_withIfc s d, Nat.le_succ _, rfl⟩

/-- the interface object `i` was made from the entry `x` -/
structure MadeFrom (s u : State) (i : ℕ) (x : IfcSpec) : Prop where
  fresh : s.next ≤ i ∧ i < u.next
  ends : (u.ifc i).node < u.next ∧ (u.ifc i).remote < u.next
  eq : u.ifc i = newEnd x.name x.cost x.capacity (u.ifc i).node (u.ifc i).remote x.ckt
  tail : (u.node (u.ifc i).node).name = x.node
  head : (u.node (u.ifc i).remote).name = x.remote
  cost : 1 ≤ x.cost

theorem MadeFrom.grow {s u v : State} {i : ℕ} {x : IfcSpec} (h : MadeFrom s u i x) (g : Grown u v) :
    MadeFrom s v i x := by
  have e := g.same.ifc i h.fresh.2
  refine ⟨⟨h.fresh.1, h.fresh.2.trans_le g.le⟩, ?_, ?_, ?_, ?_, h.cost⟩
  · rw [e]; exact ⟨h.ends.1.trans_le g.le, h.ends.2.trans_le g.le⟩
  · rw [e]; exact h.eq
  · rw [e, g.same.node _ h.ends.1]; exact h.tail
  · rw [e, g.same.node _ h.ends.2]; exact h.head

/-- `ns` are fresh Node objects for the names `as`, each once, that are not in the model -/
structure MadeNodes (s u : State) (ns : List ℕ) (as : String → Prop) : Prop where
  fresh : ∀ n ∈ ns, s.next ≤ n ∧ n < u.next ∧ u.node n = { name := (u.node n).name }
  once : (ns.map fun n => (u.node n).name).Nodup
  exact : ∀ a, (∃ n ∈ ns, (u.node n).name = a) ↔ a ∉ s.nodeNames ∧ as a

theorem MadeNodes.grow {s u v : State} {ns : List ℕ} {as : String → Prop}
    (h : MadeNodes s u ns as) (g : Grown u v) : MadeNodes s v ns as := by
  have e : ∀ n ∈ ns, v.node n = u.node n := fun n hn => g.same.node n (h.fresh n hn).2.1
  refine ⟨fun n hn => ?_, ?_, fun a => ?_⟩
  · obtain ⟨h1, h2, h3⟩ := h.fresh n hn
    rw [e n hn]
    exact ⟨h1, h2.trans_le g.le, h3⟩
  · rw [List.map_congr_left fun n hn => by rw [e n hn]]
    exact h.once
  · rw [← h.exact a]
    refine exists_congr fun n => and_congr_right fun hn => ?_
    rw [e n hn]

/-- adding the node `a` of an entry if the model has none of that name -/
theorem MadeNodes.step {s u v : State} {ns ns' : List ℕ} {as : String → Prop} {a : String}
    (h : MadeNodes s u ns as) (hn : s.nodeNames = names)
    (hx : (if a ∉ names then do
        let k ← newNode a 0 0
        let s ← get
        pure (if s.memNode k ns then ns else ns ++ [k])
      else pure ns : Py (List ℕ)) u = .ok ns' v) (hle : s.next ≤ u.next) :
    Grown u v ∧ MadeNodes s v ns' fun b => as b ∨ b = a := by
  subst hn
  by_cases ha : a ∉ s.nodeNames
  · rw [if_pos ha] at hx
    rw [py_bind_ok (show newNode a 0 0 u = .ok u.next (u.withNode { name := a }) from rfl)] at hx
    set w := u.withNode { name := a } with hw
    have g : Grown u w := grown_withNode u _
    have hm := h.grow g
    have hwn : w.node u.next = { name := a } := by simp [hw, State.withNode]
    have hnew : u.next ∉ ns := fun hm => Nat.lt_irrefl _ (h.fresh _ hm).2.1
    rw [py_bind_ok (show (get : Py State) w = .ok w w from rfl)] at hx
    have hiff : w.memNode u.next ns = true ↔ ∃ n ∈ ns, (w.node n).name = a := by
      unfold State.memNode
      rw [List.any_eq_true]
      refine exists_congr fun n => and_congr_right fun hn => ?_
      rw [State.nodeEq, hwn, (hm.fresh n hn).2.2]
      have : u.next ≠ n := fun e => hnew (e ▸ hn)
      simp [this]
      exact eq_comm
    obtain ⟨rfl, rfl⟩ : (if w.memNode u.next ns then ns else ns ++ [u.next]) = ns' ∧ w = v := by
      injection hx with e1 e2; exact ⟨e1, e2⟩
    refine ⟨g, ?_⟩
    by_cases hc : w.memNode u.next ns = true
    · rw [if_pos hc]
      refine ⟨hm.fresh, hm.once, fun b => ?_⟩
      rw [hm.exact b]
      constructor
      · rintro ⟨h1, h2⟩; exact ⟨h1, .inl h2⟩
      · rintro ⟨h1, h2 | rfl⟩
        · exact ⟨h1, h2⟩
        · exact (hm.exact b).1 (hiff.1 hc)
    · rw [if_neg hc]
      refine ⟨fun n hn => ?_, ?_, fun b => ?_⟩
      · rcases List.mem_append.1 hn with hn | hn
        · exact hm.fresh n hn
        · rw [List.mem_singleton] at hn
          subst hn
          refine ⟨hle, Nat.lt_succ_self _, ?_⟩
          rw [hwn]
      · rw [List.map_append, List.nodup_append]
        refine ⟨hm.once, by simp, ?_⟩
        intro x hx y hy
        rw [List.map_singleton, List.mem_singleton, hwn] at hy
        obtain ⟨n, hn, rfl⟩ := List.mem_map.1 hx
        rw [hy]
        exact fun he => hc (hiff.2 ⟨n, hn, he⟩)
      · constructor
        · rintro ⟨n, hn, rfl⟩
          rcases List.mem_append.1 hn with hn | hn
          · obtain ⟨h1, h2⟩ := (hm.exact _).1 ⟨n, hn, rfl⟩
            exact ⟨h1, .inl h2⟩
          · rw [List.mem_singleton] at hn
            subst hn
            rw [hwn]
            exact ⟨ha, .inr rfl⟩
        · rintro ⟨h1, h2 | rfl⟩
          · obtain ⟨n, hn, he⟩ := (hm.exact b).2 ⟨h1, h2⟩
            exact ⟨n, List.mem_append_left _ hn, he⟩
          · exact ⟨u.next, by simp, by rw [hwn]⟩
  · rw [if_neg ha] at hx
    cases hx
    refine ⟨Grown.refl u, h.fresh, h.once, fun b => ?_⟩
    rw [h.exact b]
    constructor
    · rintro ⟨h1, h2⟩; exact ⟨h1, .inl h2⟩
    · rintro ⟨h1, h2 | rfl⟩
      · exact ⟨h1, h2⟩
      · exact absurd h1 ha

theorem MadeNodes.join {α : Type} {s u t : State} {ns : List ℕ} {as : String → Prop} {a : String}
    {names : List String} {K : List ℕ → Py α} {b : α}
    (h : MadeNodes s u ns as) (hn : s.nodeNames = names)
    (hx : (if a ∉ names then do
        let k ← newNode a 0 0
        let s ← get
        let r ← pure (if s.memNode k ns then ns else ns ++ [k])
        K r
      else do
        let r ← pure ns
        K r : Py α) u = .ok b t) (hle : s.next ≤ u.next) :
    ∃ ns' v, Grown u v ∧ (MadeNodes s v ns' fun b => as b ∨ b = a) ∧ K ns' v = .ok b t := by
  have : ∃ ns' v, (if a ∉ names then do
        let k ← newNode a 0 0
        let s ← get
        pure (if s.memNode k ns then ns else ns ++ [k])
      else pure ns : Py (List ℕ)) u = .ok ns' v ∧ K ns' v = .ok b t := by
    by_cases ha : a ∉ names
    · rw [if_pos ha] at hx ⊢
      exact ⟨_, _, rfl, hx⟩
    · rw [if_neg ha] at hx ⊢
      exact ⟨_, _, rfl, hx⟩
  obtain ⟨ns', v, h1, h2⟩ := this
  obtain ⟨h3, h4⟩ := h.step hn h1 hle
  exact ⟨ns', v, h3, h4, h2⟩

theorem forall2_pick {α β : Type} {R : α → β → Prop} {l : List α} {m : List β}
    (h : List.Forall₂ R l m) {a : α} (ha : a ∈ l) : ∃ b ∈ m, R a b := by
  induction h with
  | nil => cases ha
  | cons h1 _ ih =>
    rcases List.mem_cons.1 ha with rfl | ha
    · exact ⟨_, by simp, h1⟩
    · obtain ⟨y, hy, hyi⟩ := ih ha
      exact ⟨y, by simp [hy], hyi⟩

theorem newIfc_inv {name : String} {cost : ℤ} {cap : ℚ} {n m : ℕ} {ckt : CktId} {u v : State}
    {i : ℕ} (h : newIfc name cost cap n m ckt u = .ok i v) :
    1 ≤ cost ∧ i = u.next ∧ v = u.withIfc (newEnd name cost cap n m ckt) := by
  unfold newIfc at h
  split at h
  · cases h
  · split at h
    · cases h
    · next h1 _ =>
      cases h
      exact ⟨by omega, rfl, rfl⟩

theorem makeIfcs_spec {s : State} (hb : ∀ n ∈ s.nodes, n < s.next) : ∀ (xs done : List IfcSpec) (is ns : List ℕ) (u t : State)
    (r : List ℕ × List ℕ), Grown s u → ((done ++ xs).map fun x => (x.name, x.node)).Nodup →
    List.Forall₂ (MadeFrom s u) is done →
    MadeNodes s u ns (fun a => ∃ x ∈ done, a = x.node ∨ a = x.remote) →
    makeIfcs xs is ns u = .ok r t →
    Grown s t ∧ List.Forall₂ (MadeFrom s t) r.1 (done ++ xs) ∧
      MadeNodes s t r.2 (fun a => ∃ x ∈ done ++ xs, a = x.node ∨ a = x.remote) := by
  intro xs
  induction xs with
  | nil =>
    intro done is ns u t r hg _ hi hn h
    cases h
    rw [List.append_nil]
    exact ⟨hg, hi, hn⟩
  | cons x xs ih =>
    intro done is ns u t r hg hnd hi hn h
    unfold makeIfcs at h
    rw [py_bind_ok (show newNode x.node 0 0 u = .ok u.next (u.withNode { name := x.node }) from rfl)] at h
    set u1 := u.withNode { name := x.node } with hu1
    have g1 : Grown u u1 := grown_withNode u _
    rw [py_bind_ok (show newNode x.remote 0 0 u1 = .ok u1.next (u1.withNode { name := x.remote })
      from rfl)] at h
    set u2 := u1.withNode { name := x.remote } with hu2
    have g2 : Grown u1 u2 := grown_withNode u1 _
    obtain ⟨i, u3, h3, h⟩ := py_bind_inv h
    obtain ⟨hc, rfl, hu3⟩ := newIfc_inv h3
    have g3 : Grown u2 u3 := hu3 ▸ grown_withIfc u2 _
    have g : Grown u u3 := (g1.trans g2).trans g3
    rw [py_bind_ok (show (get : Py State) u3 = .ok u3 u3 from rfl)] at h
    have hg3 := hg.trans g
    have hnames : s.nodeNames = u3.nodeNames := by
      unfold State.nodeNames
      rw [hg3.same.nodes]
      exact List.map_congr_left fun n hn => by rw [hg3.same.node n (hb n hn)]
    obtain ⟨ns1, u4, g4, hn4, h⟩ := (hn.grow g).join hnames h (hg.le.trans g.le)
    obtain ⟨ns2, u5, g5, hn5, h⟩ := hn4.join hnames h ((hg.le.trans g.le).trans g4.le)
    have hifc : u3.ifc u2.next = newEnd x.name x.cost x.capacity u.next u1.next x.ckt := by
      rw [hu3]; simp [State.withIfc]
    have hnew : MadeFrom s u3 u2.next x := by
      have n1 : u3.next = u2.next + 1 := by rw [hu3]; rfl
      have n2 : u2.next = u1.next + 1 := rfl
      have n3 : u1.next = u.next + 1 := rfl
      have hle := hg.le
      refine ⟨⟨by omega, by omega⟩, ?_, ?_, ?_, ?_, hc⟩
      · rw [hifc]
        exact ⟨show u.next < _ by omega, show u1.next < _ by omega⟩
      · rw [hifc]; rfl
      · rw [hifc]
        show (u3.node u.next).name = _
        have : u.next ≠ u1.next := by omega
        rw [hu3, hu2]
        simp [State.withIfc, State.withNode, hu1]
      · rw [hifc]
        show (u3.node u1.next).name = _
        rw [hu3, hu2]
        simp [State.withIfc, State.withNode]
    have hi3 : List.Forall₂ (MadeFrom s u3) is done := hi.imp fun _ _ h => h.grow g
    have hmem : u3.memIfc u2.next is = false := by
      by_contra hm
      obtain ⟨i, hi', he⟩ := List.any_eq_true.1 (by simpa using hm : u3.memIfc u2.next is = true)
      obtain ⟨y, hy, hyi⟩ : ∃ y ∈ done, MadeFrom s u3 i y := forall2_pick hi3 hi'
      have hkey := ifcEq_key he
      unfold State.ifcKey State.tail at hkey
      rw [hnew.tail, hyi.tail, hnew.eq, hyi.eq] at hkey
      rw [List.map_append, List.nodup_append] at hnd
      exact hnd.2.2 _ (List.mem_map.2 ⟨y, hy, rfl⟩) _ (List.mem_map.2 ⟨x, by simp, rfl⟩) hkey.symm
    rw [hmem] at h
    rw [show done ++ x :: xs = (done ++ [x]) ++ xs by simp] at hnd ⊢
    have g45 := g4.trans g5
    refine ih (done ++ [x]) _ ns2 u5 t r ((hg.trans g).trans g45) hnd ?_ ?_ h
    · rw [if_neg (by simp)]
      exact List.rel_append (hi3.imp fun _ _ h => h.grow g45) (.cons (hnew.grow g45) .nil)
    · refine ⟨hn5.fresh, hn5.once, fun a => ?_⟩
      rw [hn5.exact a]
      refine and_congr_right fun _ => ?_
      simp only [List.mem_append, List.mem_singleton]
      constructor
      · rintro ((⟨y, hy, h⟩ | h) | h)
        · exact ⟨y, .inl hy, h⟩
        · exact ⟨x, .inr rfl, .inl h⟩
        · exact ⟨x, .inr rfl, .inr h⟩
      · rintro ⟨y, hy | rfl, hq⟩
        · exact .inl (.inl ⟨y, hy, hq⟩)
        · rcases hq with hq | hq
          · exact .inl (.inr hq)
          · exact .inr hq


theorem foldl_insNode : ∀ (ns : List ℕ) (u : State), (ns.map fun n => (u.node n).name).Nodup →
    (∀ n ∈ ns, (u.node n).name ∉ u.nodeNames) →
    ns.foldl State.insNode u = { u with nodes := u.nodes ++ ns } := by
  intro ns
  induction ns with
  | nil => intro u _ _; simp
  | cons n ns ih =>
    intro u h1 h2
    rw [List.map_cons, List.nodup_cons] at h1
    have hm : u.memNode n u.nodes = false := by
      by_contra hm
      obtain ⟨m, hm1, hm2⟩ := List.any_eq_true.1 (by simpa using hm : u.memNode n u.nodes = true)
      exact h2 n (by simp) (List.mem_map.2 ⟨m, hm1, (nodeEq_name hm2).symm⟩)
    rw [List.foldl_cons]
    have e : u.insNode n = { u with nodes := u.nodes ++ [n] } := by
      unfold State.insNode; rw [hm]; rfl
    rw [e, ih]
    · simp
    · exact h1.2
    · intro m hmem hx
      unfold State.nodeNames at hx
      rw [List.map_append, List.mem_append] at hx
      rcases hx with hx | hx
      · exact h2 m (by simp [hmem]) hx
      · rw [List.map_singleton, List.mem_singleton] at hx
        exact h1.1 (hx ▸ List.mem_map.2 ⟨m, hmem, rfl⟩)

theorem foldl_insIfc : ∀ (is : List ℕ) (u : State), (is.map u.ifcKey).Nodup →
    (∀ i ∈ is, ∀ j ∈ u.ifs, u.ifcKey j ≠ u.ifcKey i) →
    is.foldl State.insIfc u = { u with ifs := u.ifs ++ is } := by
  intro is
  induction is with
  | nil => intro u _ _; simp
  | cons n ns ih =>
    intro u h1 h2
    rw [List.map_cons, List.nodup_cons] at h1
    have hm : u.memIfc n u.ifs = false := by
      by_contra hm
      obtain ⟨m, hm1, hm2⟩ := List.any_eq_true.1 (by simpa using hm : u.memIfc n u.ifs = true)
      exact h2 n (by simp) m hm1 (ifcEq_key hm2).symm
    rw [List.foldl_cons]
    have e : u.insIfc n = { u with ifs := u.ifs ++ [n] } := by
      unfold State.insIfc; rw [hm]; rfl
    rw [e, ih]
    · simp
    · exact h1.2
    · intro m hmem j hj
      rcases List.mem_append.1 hj with hj | hj
      · exact h2 m (by simp [hmem]) j hj
      · rw [List.mem_singleton] at hj
        subst hj
        intro hx
        exact h1.1 (hx ▸ List.mem_map.2 ⟨m, hmem, rfl⟩)

theorem forall2_map_eq {α β γ : Type} {R : α → β → Prop} {l : List α} {m : List β}
    (h : List.Forall₂ R l m) {f : α → γ} {g : β → γ} (hfg : ∀ a b, R a b → f a = g b) :
    l.map f = m.map g := by
  induction h with
  | nil => rfl
  | cons h1 _ ih => rw [List.map_cons, List.map_cons, hfg _ _ h1, ih]

/-- what a successful `add_network_interfaces_from_list` leaves behind -/
theorem addIfcsFromList_ok {env : Env} {s t : State} {xs : List IfcSpec} (hg : Grounded s)
    (hset : CktIdsSet s) (hids : s.kind = .flex → ∀ x ∈ xs, x.ckt ≠ .none) (he : EndsAgree s)
    (hkeys : FreshKeys s xs) (hfail : ApartFromFailed s xs)
    (h : addIfcsFromList env xs s = .ok () t) :
    ∃ is ns, t.ifs = s.ifs ++ is ∧ t.nodes = s.nodes ++ ns ∧ t.dmds = s.dmds ∧ t.lsps = s.lsps ∧
      t.srlgs = s.srlgs ∧ AllKept s t ∧ (∀ i ∈ is, i ∉ s.ifs) ∧ List.Forall₂ (AsListed t) is xs ∧
      (∀ n ∈ ns, n ∉ s.nodes ∧ t.node n = { name := (t.node n).name }) ∧
      (ns.map fun n => (t.node n).name).Nodup ∧
      ∀ a, (∃ n ∈ ns, (t.node n).name = a) ↔
        a ∉ s.nodeNames ∧ ∃ x ∈ xs, a = x.node ∨ a = x.remote := by
  unfold addIfcsFromList at h
  obtain ⟨⟨is, ns⟩, u, hmk, h⟩ := py_bind_inv h
  obtain ⟨gr, hi, hn⟩ := makeIfcs_spec hg.nodes xs [] [] [] s u (is, ns) (Grown.refl s) hkeys.1 .nil
    ⟨by simp, by simp, by simp⟩ hmk
  simp only [List.nil_append] at hi hn
  have hnames : u.nodeNames = s.nodeNames := by
    unfold State.nodeNames
    rw [gr.same.nodes]
    exact List.map_congr_left fun n hn => by rw [gr.same.node n (hg.nodes n hn)]
  have hf1 := foldl_insNode ns u hn.once (fun n hm => by
    rw [hnames]; exact ((hn.exact _).1 ⟨n, hm, rfl⟩).1)
  change ((modify fun s => ns.foldl State.insNode s) >>= _ : Py Unit) u = _ at h
  rw [py_bind_ok (show (modify fun s => ns.foldl State.insNode s : Py Unit) u =
    .ok () (ns.foldl State.insNode u) from rfl), hf1] at h
  set v : State := { u with nodes := u.nodes ++ ns } with hvdef
  have htailOld : ∀ i ∈ s.ifs, u.tail i = s.tail i := by
    intro i hi
    unfold State.tail
    obtain ⟨h1, h2, h3⟩ := hg.ifs i hi
    rw [gr.same.ifc i h1, gr.same.node _ (hg.nodes _ h2)]
  have hheadOld : ∀ i ∈ s.ifs, u.head i = s.head i := by
    intro i hi
    unfold State.head
    obtain ⟨h1, h2, h3⟩ := hg.ifs i hi
    rw [gr.same.ifc i h1, gr.same.node _ (hg.nodes _ h3)]
  have hkeyNew : ∀ i x, MadeFrom s u i x → u.ifcKey i = (x.name, x.node) := by
    intro i x hm
    unfold State.ifcKey State.tail
    rw [hm.tail, hm.eq]
    rfl
  have hkeyOld : ∀ i ∈ s.ifs, u.ifcKey i = ((s.ifc i).name, s.tail i) := by
    intro i hi
    unfold State.ifcKey
    rw [htailOld i hi, gr.same.ifc i (hg.ifs i hi).1]
  have hf2 := foldl_insIfc is v (by
      have : is.map v.ifcKey = xs.map fun x => (x.name, x.node) :=
        forall2_map_eq hi hkeyNew
      rw [this]; exact hkeys.1) (by
      intro i him j hj hk
      obtain ⟨x, hx, hm⟩ := forall2_pick hi him
      have hj' : j ∈ s.ifs := by rw [← gr.same.ifs]; exact hj
      have e1 : v.ifcKey j = _ := hkeyOld j hj'
      have e2 : v.ifcKey i = _ := hkeyNew i x hm
      rw [e1, e2] at hk
      injection hk with k1 k2
      exact hkeys.2 x hx j hj' ⟨k1, k2⟩)
  rw [py_bind_ok (show (modify fun s => is.foldl State.insIfc s : Py Unit) v =
    .ok () (is.foldl State.insIfc v) from rfl), hf2] at h
  set w : State := { v with ifs := v.ifs ++ is } with hwdef
  have hwifs : w.ifs = s.ifs ++ is := by rw [← gr.same.ifs]
  have hwkind : w.kind = s.kind := gr.kind
  have hold : ∀ i ∈ s.ifs, w.ifc i = s.ifc i := fun i hi => gr.same.ifc i (hg.ifs i hi).1
  have hwset : CktIdsSet w := by
    intro hk i hi'
    rw [hwifs] at hi'
    rcases List.mem_append.1 hi' with h' | h'
    · rw [hold i h']; exact hset (hwkind ▸ hk) i h'
    · obtain ⟨x, hx, hm⟩ := forall2_pick hi h'
      have : (w.ifc i).cktId = x.ckt := by
        show (u.ifc i).cktId = _
        rw [hm.eq]; rfl
      rw [this]
      exact hids (hwkind ▸ hk) x hx
  have hnewUp : ∀ i ∈ is, (w.ifc i).failed = false := by
    intro i hi'
    obtain ⟨x, hx, hm⟩ := forall2_pick hi hi'
    show (u.ifc i).failed = _
    rw [hm.eq]; rfl
  have key : ∀ i ∈ s.ifs, ∀ j ∈ is, Opposite w i j → (w.ifc i).failed = false := by
    intro i hi1 j hj1 ho
    by_contra hc
    obtain ⟨x, hx, hm⟩ := forall2_pick hi hj1
    have hc' : (s.ifc i).failed = true := by
      rw [← hold i hi1]; simpa using hc
    refine hfail x hx i hi1 hc' ⟨?_, ?_, ?_⟩
    · rw [← htailOld i hi1]
      exact (show u.tail i = u.head j from ho.1).trans hm.head
    · rw [← hheadOld i hi1]
      exact (show u.head i = u.tail j from ho.2.1).trans hm.tail
    · intro hk
      have := ho.2.2 (hwkind.trans hk)
      rw [hold i hi1] at this
      rw [this]
      show (u.ifc j).cktId = _
      rw [hm.eq]; rfl
  have hwagree : EndsAgree w := by
    intro i hi1 j hj1 ho
    rw [hwifs] at hi1 hj1
    rcases List.mem_append.1 hi1 with h1 | h1
    · rcases List.mem_append.1 hj1 with h2 | h2
      · rw [hold i h1, hold j h2]
        refine he i h1 j h2 ⟨?_, ?_, ?_⟩
        · rw [← htailOld i h1, ← hheadOld j h2]; exact ho.1
        · rw [← hheadOld i h1, ← htailOld j h2]; exact ho.2.1
        · intro hk
          have := ho.2.2 (hwkind.trans hk)
          rwa [hold i h1, hold j h2] at this
      · rw [hnewUp j h2]; exact key i h1 j h2 ho
    · rcases List.mem_append.1 hj1 with h2 | h2
      · rw [hnewUp i h1]; exact (key j h2 i h1 (opposite_symm ho)).symm
      · rw [hnewUp i h1, hnewUp j h2]
  obtain ⟨C, B, I, rfl, hI⟩ := validate_frame hwset hwagree h
  refine ⟨is, ns, hwifs, ?_, gr.same.dmds, gr.same.lsps, gr.same.srlgs, ?_, ?_, ?_, ?_, ?_, ?_⟩
  · show u.nodes ++ ns = _
    rw [gr.same.nodes]
  · refine ⟨gr.kind, ⟨fun i hi => ?_, fun hk i hi => ?_⟩, ?_, ?_, ?_, ?_⟩
    · show ({ w.ifc i with inCkt := B i, cktId := I i } : Ifc) = _
      rw [hold i hi]
      rfl
    · show I i = _
      rw [hI (hwkind.trans hk) i, hold i hi]
    · exact fun n hn => gr.same.node n (hg.nodes n hn)
    · exact fun n hn => gr.same.dmd n (hg.dmds n hn).1
    · exact fun n hn => gr.same.lsp n (hg.lsps n hn).1
    · exact fun n hn => gr.same.srlg n (hg.srlgs n hn)
  · intro i hi1 hi2
    obtain ⟨x, -, hm⟩ := forall2_pick hi hi1
    exact absurd (hg.ifs i hi2).1 (Nat.not_lt.2 hm.fresh.1)
  · refine hi.imp fun i x hm => ?_
    have e : (w.withCkt C B I).ifc i = { newEnd x.name x.cost x.capacity (u.ifc i).node
        (u.ifc i).remote x.ckt with inCkt := B i, cktId := I i } := by
      show ({ u.ifc i with inCkt := B i, cktId := I i } : Ifc) = _
      conv_lhs => rw [hm.eq]
    have hc := hm.cost
    refine ⟨by rw [e]; rfl, ?_, by rw [e]; rfl, hm.tail, hm.head, by rw [e]; exact
      ⟨rfl, rfl, rfl, rfl, rfl, rfl⟩, fun hk => ?_⟩
    · rw [e]; exact Int.toNat_of_nonneg (by omega)
    · show I i = _
      rw [hI hk i]
      show (u.ifc i).cktId = _
      rw [hm.eq]; rfl
  · intro n hn'
    obtain ⟨h1, -, h3⟩ := hn.fresh n hn'
    exact ⟨fun hx => absurd (hg.nodes n hx) (Nat.not_lt.2 h1), h3⟩
  · exact hn.once
  · exact hn.exact

end NTM
