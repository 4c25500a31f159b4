import Verif.Spec.Failure
import Verif.Model.Load

/-!
# Specification vocabulary for adding objects to a model
-/

namespace NTM.Spec

/-- no two nodes share a name, no two interfaces (name, node), no two demands or LSPs
(source, destination, name), and no two SRLGs a name -/
structure UniqueKeys (s : State) : Prop where
  nodes : s.nodeNames.Nodup
  ifs : (s.ifs.map fun i => ((s.ifc i).name, s.tail i)).Nodup
  dmds : (s.dmds.map fun d => (s.dmdSrc d, s.dmdDst d, (s.dmd d).name)).Nodup
  lsps : (s.lsps.map fun l => (s.lspSrc l, s.lspDst l, (s.lsp l).name)).Nodup
  srlgs : (s.srlgs.map fun g => (s.srlg g).name).Nodup

/-- the calls that build and change a model.  `addNode` is given a new `Node(name, lat, lon)`;
`addCircuit` takes node objects. -/
inductive Edit where
  | addNode (name : String) (lat lon : ℚ)
  | addCircuit (a b : ℕ) (nameA nameB : String) (costA costB : ℤ) (capacity : ℚ) (failed : Bool)
      (circuitId : CktId)
  | addDemand (src dst : String) (traffic : ℚ) (name : String)
  | addLsp (src dst name : String)
  | call (c : Call)

/-- the method an edit invokes -/
def Edit.run (env : Env) : Edit → Py Unit
  | .addNode a lat lon => do
    let n ← newNode a lat lon
    NTM.addNode env n
  | .addCircuit a b x y c d cap f id => NTM.addCircuit env a b x y c d cap f id
  | .addDemand a b t n => NTM.addDemand env a b t n
  | .addLsp a b n => NTM.addLsp env a b n
  | .call c => c.run env

/-- the objects given to the call belong to the model -/
def Edit.OnModel (s : State) : Edit → Prop
  | .addCircuit a b _ _ _ _ _ _ _ => a ∈ s.nodes ∧ b ∈ s.nodes
  | .call c => c.OnModel s
  | _ => True

/-- `t` is reached from `s` by edits; an edit that raises leaves the state it had reached, and
the history goes on from there -/
inductive Edited (env : Env) : State → State → Prop
  | start (s : State) : Edited env s s
  | edit {s t : State} (e : Edit) (h : Edited env s t) (he : e.OnModel t) :
      Edited env s (finalState (e.run env) t)

/-- `t` differs from `s` at most in objects that were created but belong to no collection: the
collections are the same and so is every object that existed -/
structure SameModel (s t : State) : Prop where
  nodes : t.nodes = s.nodes
  ifs : t.ifs = s.ifs
  dmds : t.dmds = s.dmds
  lsps : t.lsps = s.lsps
  srlgs : t.srlgs = s.srlgs
  circuits : t.circuits = s.circuits
  groups : t.groups = s.groups
  node : ∀ r, r < s.next → t.node r = s.node r
  ifc : ∀ r, r < s.next → t.ifc r = s.ifc r
  dmd : ∀ r, r < s.next → t.dmd r = s.dmd r
  lsp : ∀ r, r < s.next → t.lsp r = s.lsp r
  srlg : ∀ r, r < s.next → t.srlg r = s.srlg r

/-- the model's objects were all created before the next one, and refer to nodes of the model -/
structure Grounded (s : State) : Prop where
  nodes : ∀ n ∈ s.nodes, n < s.next
  ifs : ∀ i ∈ s.ifs, i < s.next ∧ (s.ifc i).node ∈ s.nodes ∧ (s.ifc i).remote ∈ s.nodes
  dmds : ∀ d ∈ s.dmds, d < s.next ∧ (s.dmd d).src ∈ s.nodes ∧ (s.dmd d).dst ∈ s.nodes
  lsps : ∀ l ∈ s.lsps, l < s.next ∧ (s.lsp l).src ∈ s.nodes ∧ (s.lsp l).dst ∈ s.nodes
  srlgs : ∀ g ∈ s.srlgs, g < s.next

/-- hop interfaces of LSP paths are interfaces of the model -/
def HopsInModel (s : State) : Prop :=
  ∀ l ∈ s.lsps, ∀ is c b, (s.lsp l).path = .routed is c b → ∀ i ∈ is, i ∈ s.ifs

/-- `x` is an interface with this configuration that is up and carries and reserves nothing -/
def FreshEnd (x : Ifc) (name : String) (cost : ℤ) (cap : ℚ) (a b : ℕ) : Prop :=
  x.name = name ∧ x.cost = cost ∧ x.capacity = cap ∧ x.node = a ∧ x.remote = b ∧
    x.failed = false ∧ x.traffic = .val 0 ∧ x.reservedRaw = 0 ∧ x.srlgs = [] ∧
    x.rsvpEnabled = true ∧ x.pct = 100

/-- `t` is `s` with one circuit between the nodes `a` and `b` added -/
structure CircuitAdded (s t : State) (a b : ℕ) (nA nB : String) (cA cB : ℤ) (cap : ℚ)
    (i j : ℕ) : Prop where
  kind : t.kind = s.kind
  ifs : t.ifs = s.ifs ++ [i, j]
  new : i ∉ s.ifs ∧ j ∉ s.ifs ∧ i ≠ j
  first : FreshEnd (t.ifc i) nA cA cap a b
  second : FreshEnd (t.ifc j) nB cB cap b a
  sameId : (t.ifc i).cktId = (t.ifc j).cktId ∧ (t.ifc i).cktId ≠ .none
  ownId : ∀ k ∈ s.ifs, (t.ifc k).cktId ≠ (t.ifc i).cktId
  others : ∀ k ∈ s.ifs, t.ifc k =
    { s.ifc k with cktId := (t.ifc k).cktId, inCkt := (t.ifc k).inCkt }
  nodes : t.nodes = s.nodes ∧ t.node = s.node
  dmds : t.dmds = s.dmds ∧ t.dmd = s.dmd
  lsps : t.lsps = s.lsps ∧ t.lsp = s.lsp
  srlgs : t.srlgs = s.srlgs ∧ t.srlg = s.srlg

/-- the groups hold every object exactly once, under the key "source-destination", together with
exactly those that share its source and destination -/
structure Grouped (groups : List (String × List ℕ)) (objs : List ℕ) (src dst : ℕ → String) :
    Prop where
  keys : (groups.map Prod.fst).Nodup
  some : ∀ g ∈ groups, ∃ o ∈ g.2, o ∈ objs
  one : ∀ o ∈ objs, ∃ g ∈ groups, g.1 = src o ++ "-" ++ dst o ∧
    (∀ o', o' ∈ g.2 ↔ o' ∈ objs ∧ src o' = src o ∧ dst o' = dst o) ∧
    ∀ g' ∈ groups, o ∈ g'.2 → g' = g

/-- demand `d` has the LSP `l` in one of its paths -/
def RidesThe (s : State) (d l : ℕ) : Prop :=
  ∃ ps p, (s.dmd d).path = Option.some ps ∧ p ∈ ps ∧ Item.lsp l ∈ p

/-- the objects an addition puts into the model are new and all others are as before; the
validation that follows is not part of it -/
def Extends (s u : State) : Prop :=
  (∃ l, u.nodes = s.nodes ++ l ∧ ∀ r ∈ l, s.next ≤ r) ∧
  (∃ l, u.ifs = s.ifs ++ l ∧ ∀ r ∈ l, s.next ≤ r) ∧
  (∃ l, u.dmds = s.dmds ++ l ∧ ∀ r ∈ l, s.next ≤ r) ∧
  (∃ l, u.lsps = s.lsps ++ l ∧ ∀ r ∈ l, s.next ≤ r) ∧ u.srlgs = s.srlgs ∧
  ∀ r < s.next, u.node r = s.node r ∧ u.ifc r = s.ifc r ∧ u.dmd r = s.dmd r ∧
    u.lsp r = s.lsp r ∧ u.srlg r = s.srlg r

end NTM.Spec
