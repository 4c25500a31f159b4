import Verif.Proof.Adding
import Verif.Props.Registry

/-!
# C103: additions add exactly what was asked for
-/

namespace NTM

open Spec

theorem getNode_found {s : State} {a : String} {n : ℕ} (h : s.getNode a = .ok n) :
    n ∈ s.nodes ∧ (s.node n).name = a := getNode_ok h

/-- **C103** A successful `add_demand(a, b, traffic, name)` adds one demand, between the model's
nodes of those names, with that traffic and name and no path yet; every other object stays as it
was. -/
theorem C103_add_demand {env : Env} {s t : State} {a b nm : String} {q : ℚ} (hg : Grounded s)
    (hset : CktIdsSet s) (he : EndsAgree s) (h : addDemand env a b q nm s = .ok () t) :
    ∃ d, d ∉ s.dmds ∧ t.dmds = s.dmds ++ [d] ∧ AllKept s t ∧ t.ifs = s.ifs ∧ t.nodes = s.nodes ∧
      t.lsps = s.lsps ∧ t.srlgs = s.srlgs ∧ (t.dmd d).src ∈ s.nodes ∧ (t.dmd d).dst ∈ s.nodes ∧
      t.dmdSrc d = a ∧ t.dmdDst d = b ∧ (t.dmd d).traffic = q ∧ (t.dmd d).name = nm ∧
      (t.dmd d).path = none := by
  rw [addDemand_eq] at h
  cases h1 : s.getNode a with
  | error e => rw [h1] at h; cases h
  | ok src =>
  rw [h1] at h
  cases h2 : s.getNode b with
  | error e => rw [h2] at h; cases h
  | ok dst =>
  rw [h2] at h
  simp only [] at h
  by_cases hq : q < 0
  · rw [if_pos hq] at h; cases h
  rw [if_neg hq] at h
  split at h
  · cases h
  obtain ⟨C, B, I, rfl, hI⟩ := validate_frame (s := { s.withDmd _ with dmds := _ })
    (show CktIdsSet _ from hset) (show EndsAgree _ from he) h
  have hnew : ∀ x, (s.withDmd x).dmd s.next = x := fun x => by simp [State.withDmd]
  obtain ⟨n1, n2⟩ := getNode_found h1
  obtain ⟨n3, n4⟩ := getNode_found h2
  refine ⟨s.next, fun hm => Nat.lt_irrefl _ (hg.dmds _ hm).1, rfl, ⟨rfl, ⟨fun i _ => rfl, fun hk i _ =>
    hI hk i⟩, fun _ _ => rfl, ?_, fun _ _ => rfl, fun _ _ => rfl⟩, rfl, rfl, rfl, rfl, ?_⟩
  · intro d hd
    exact (sameModel_withDmd s _).dmd d (hg.dmds d hd).1
  · have e : ((State.withCkt { s.withDmd { src := src, dst := dst, traffic := q, name := nm } with
        dmds := (s.withDmd { src := src, dst := dst, traffic := q, name := nm }).dmds ++ [s.next] }
        C B I).dmd s.next) = { src := src, dst := dst, traffic := q, name := nm } := hnew _
    unfold State.dmdSrc State.dmdDst
    rw [e]
    exact ⟨n1, n3, n2, n4, rfl, rfl, rfl⟩

/-- **C103** A successful `add_rsvp_lsp(a, b, name)` adds one LSP, between the model's nodes of
those names, that is not routed and has no bandwidth or metric set; every other object stays as it
was. -/
theorem C103_add_lsp {env : Env} {s t : State} {a b nm : String} (hg : Grounded s)
    (hset : CktIdsSet s) (he : EndsAgree s) (h : addLsp env a b nm s = .ok () t) :
    ∃ l, l ∉ s.lsps ∧ t.lsps = s.lsps ++ [l] ∧ AllKept s t ∧ t.ifs = s.ifs ∧ t.nodes = s.nodes ∧
      t.dmds = s.dmds ∧ t.srlgs = s.srlgs ∧ (t.lsp l).src ∈ s.nodes ∧ (t.lsp l).dst ∈ s.nodes ∧
      t.lspSrc l = a ∧ t.lspDst l = b ∧ (t.lsp l).name = nm ∧ (t.lsp l).path = .initial ∧
      (t.lsp l).reserved = .initial ∧ (t.lsp l).setup = none ∧ (t.lsp l).configured = none ∧
      (t.lsp l).manual = none ∧ (t.lsp l).initialMetric = none := by
  rw [addLsp_eq] at h
  cases h1 : s.getNode a with
  | error e => rw [h1] at h; cases h
  | ok src =>
  rw [h1] at h
  cases h2 : s.getNode b with
  | error e => rw [h2] at h; cases h
  | ok dst =>
  rw [h2] at h
  simp only [] at h
  split at h
  · cases h
  obtain ⟨C, B, I, rfl, hI⟩ := validate_frame (s := { s.withLsp _ with lsps := _ })
    (show CktIdsSet _ from hset) (show EndsAgree _ from he) h
  have hnew : ∀ x, (s.withLsp x).lsp s.next = x := fun x => by simp [State.withLsp]
  obtain ⟨n1, n2⟩ := getNode_found h1
  obtain ⟨n3, n4⟩ := getNode_found h2
  refine ⟨s.next, fun hm => Nat.lt_irrefl _ (hg.lsps _ hm).1, rfl, ⟨rfl, ⟨fun i _ => rfl, fun hk i _ =>
    hI hk i⟩, fun _ _ => rfl, fun _ _ => rfl, ?_, fun _ _ => rfl⟩, rfl, rfl, rfl, rfl, ?_⟩
  · intro d hd
    exact (sameModel_withLsp s _).lsp d (hg.lsps d hd).1
  · have e : ((State.withCkt { s.withLsp { src := src, dst := dst, name := nm } with
        lsps := (s.withLsp { src := src, dst := dst, name := nm }).lsps ++ [s.next] }
        C B I).lsp s.next) = { src := src, dst := dst, name := nm } := hnew _
    unfold State.lspSrc State.lspDst
    rw [e]
    exact ⟨n1, n3, n2, n4, rfl, rfl, rfl, rfl, rfl, rfl, rfl⟩

/-- **C103** A successful `add_node(Node(name, lat, lon))` adds that node, up, without SRLGs and
without IGP shortcuts; every other object stays as it was. -/
theorem C103_add_node {env : Env} {s t : State} {a : String} {lat lon : ℚ} (hg : Grounded s)
    (hset : CktIdsSet s) (he : EndsAgree s)
    (h : (Edit.addNode a lat lon).run env s = .ok () t) :
    ∃ n, n ∉ s.nodes ∧ t.nodes = s.nodes ++ [n] ∧ AllKept s t ∧ t.ifs = s.ifs ∧ t.dmds = s.dmds ∧
      t.lsps = s.lsps ∧ t.srlgs = s.srlgs ∧ (t.node n).name = a ∧ (t.node n).lat = lat ∧
      (t.node n).lon = lon ∧ (t.node n).failed = false ∧ (t.node n).srlgs = [] ∧
      (t.node n).shortcuts = false := by
  have h := (addNode_eq env a lat lon s).symm.trans h
  simp only [] at h
  split at h
  · cases h
  have hold := (sameModel_withNode s { name := a, lat := lat, lon := lon }).node
  set u := s.withNode { name := a, lat := lat, lon := lon } with hu
  have htail : ∀ i ∈ s.ifs, u.tail i = s.tail i := fun i hi => by
    unfold State.tail
    rw [← hold _ (hg.nodes _ (hg.ifs i hi).2.1)]
    rfl
  have hhead : ∀ i ∈ s.ifs, u.head i = s.head i := fun i hi => by
    unfold State.head
    rw [← hold _ (hg.nodes _ (hg.ifs i hi).2.2)]
    rfl
  have he' : EndsAgree { u with nodes := u.nodes ++ [s.next] } := by
    intro i hi j hj ho
    refine he i hi j hj ⟨?_, ?_, ho.2.2⟩
    · rw [← htail i hi, ← hhead j hj]; exact ho.1
    · rw [← hhead i hi, ← htail j hj]; exact ho.2.1
  obtain ⟨C, B, I, rfl, hI⟩ := validate_frame
    (show CktIdsSet { u with nodes := u.nodes ++ [s.next] } from hset) he' h
  have hnew : u.node s.next = { name := a, lat := lat, lon := lon } := by simp [hu, State.withNode]
  refine ⟨s.next, fun hm => Nat.lt_irrefl _ (hg.nodes _ hm), rfl, ⟨rfl, ⟨fun i _ => rfl, fun hk i _ =>
    hI hk i⟩, ?_, fun _ _ => rfl, fun _ _ => rfl, fun _ _ => rfl⟩, rfl, rfl, rfl, rfl, ?_⟩
  · exact fun n hn => hold n (hg.nodes n hn)
  · have e : (State.withCkt { u with nodes := u.nodes ++ [s.next] } C B I).node s.next =
        { name := a, lat := lat, lon := lon } := hnew
    rw [e]
    exact ⟨rfl, rfl, rfl, rfl, rfl, rfl⟩

/-- additions to the square -/
example (k : Kind) :
    let s := Ex.square k
    Grounded s ∧ CktIdsSet s ∧ EndsAgree s ∧
      addDemand Env.default "B" "C" 12 "new" s =
        .ok () (finalState (addDemand Env.default "B" "C" 12 "new") s) ∧
      addLsp Env.default "B" "C" "new" s =
        .ok () (finalState (addLsp Env.default "B" "C" "new") s) ∧
      (Edit.addNode "E" 3 4).run Env.default s =
        .ok () (finalState ((Edit.addNode "E" 3 4).run Env.default) s) := by
  unfold CktIdsSet EndsAgree
  cases k <;> exact ⟨⟨by decide +kernel, by decide +kernel, by decide +kernel, by decide +kernel,
    by decide +kernel⟩, by decide +kernel, by decide +kernel, ok_of_raised (by decide +kernel),
    ok_of_raised (by decide +kernel), ok_of_raised (by decide +kernel)⟩

/-- **C103** A successful `add_network_interfaces_from_list` with entries for new interfaces adds
one interface per entry, as described, up and idle, and one node for every name in the list that
the model did not know; every other object stays as it was. -/
theorem C103_from_list {env : Env} {s t : State} {xs : List IfcSpec} (hg : Grounded s)
    (hset : CktIdsSet s) (hids : s.kind = .flex → ∀ x ∈ xs, x.ckt ≠ .none) (he : EndsAgree s)
    (hkeys : FreshKeys s xs) (hfail : ApartFromFailed s xs)
    (h : addIfcsFromList env xs s = .ok () t) :
    ∃ is ns, t.ifs = s.ifs ++ is ∧ t.nodes = s.nodes ++ ns ∧ t.dmds = s.dmds ∧ t.lsps = s.lsps ∧
      t.srlgs = s.srlgs ∧ AllKept s t ∧ (∀ i ∈ is, i ∉ s.ifs) ∧ List.Forall₂ (AsListed t) is xs ∧
      (∀ n ∈ ns, n ∉ s.nodes ∧ t.node n = { name := (t.node n).name }) ∧
      (ns.map fun n => (t.node n).name).Nodup ∧
      ∀ a, (∃ n ∈ ns, (t.node n).name = a) ↔
        a ∉ s.nodeNames ∧ ∃ x ∈ xs, a = x.node ∨ a = x.remote :=
  addIfcsFromList_ok hg hset hids he hkeys hfail h

/-- a circuit to a new node, and one between known nodes -/
def Ex.listed : List IfcSpec :=
  [⟨"de", 3, 70, "D", "E", .num 21⟩, ⟨"bc", 4, 70, "B", "C", .num 22⟩,
    ⟨"cb", 4, 70, "C", "B", .num 22⟩, ⟨"ed", 5, 70, "E", "D", .num 21⟩]

example (k : Kind) :
    let s := Ex.square k
    Grounded s ∧ CktIdsSet s ∧ (s.kind = .flex → ∀ x ∈ Ex.listed, x.ckt ≠ .none) ∧
      EndsAgree s ∧ FreshKeys s Ex.listed ∧ ApartFromFailed s Ex.listed ∧
      addIfcsFromList Env.default Ex.listed s =
        .ok () (finalState (addIfcsFromList Env.default Ex.listed) s) := by
  unfold CktIdsSet EndsAgree FreshKeys ApartFromFailed
  cases k <;> exact ⟨⟨by decide +kernel, by decide +kernel, by decide +kernel, by decide +kernel,
    by decide +kernel⟩, by decide +kernel, by decide +kernel, by decide +kernel, by decide +kernel,
    by decide +kernel, ok_of_raised (by decide +kernel)⟩

end NTM
