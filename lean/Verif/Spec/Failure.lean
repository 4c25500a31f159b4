import Verif.Spec.Decide

/-!
# Specification vocabulary for failures
-/

namespace NTM.Spec

/-- the objects of the model fit together: node names, SRLG names and (interface name, node)
pairs are unique, SRLG references are allocated ones, interfaces attach to nodes of the model,
every interface has one in the opposite direction, and that one is determined by the ends (PerformanceModel) resp. by the
circuit id (FlexModel) -/
structure Wired (s : State) : Prop where
  names : s.nodeNames.Nodup
  ends : ∀ i ∈ s.ifs, (s.ifc i).node ∈ s.nodes ∧ (s.ifc i).remote ∈ s.nodes
  keys : UniqueIfcKeys s
  srlgs : UniqueSrlgNames s
  fresh : ∀ g ∈ s.srlgs, g < s.next
  twin : ∀ i ∈ s.ifs, ∃ j ∈ s.ifs, Opposite s i j
  single : s.kind = .perf → SingleLinks s
  unique : s.kind = .flex → IdsUniquePerNode s
  ids : CktIdsSet s

/-- the two directions of a circuit carry the same circuit id, and no other interface of the
same node does -/
def IdsMatch (s : State) : Prop :=
  IdsUniquePerNode s ∧
  ∀ i ∈ s.ifs, ∀ j ∈ s.ifs, Opposite s i j → (s.ifc i).cktId = (s.ifc j).cktId

/-- an interface whose local or remote node is failed is itself failed -/
def DeadNodesDark (s : State) : Prop :=
  ∀ i ∈ s.ifs, (s.node (s.ifc i).node).failed = true ∨ (s.node (s.ifc i).remote).failed = true →
    (s.ifc i).failed = true

/-- node `n` of the model is a member of SRLG `g` -/
def NodeIn (s : State) (g n : ℕ) : Prop := n ∈ s.nodes ∧ g ∈ (s.node n).srlgs

/-- interface `i` of the model is a member of SRLG `g` -/
def IfcIn (s : State) (g i : ℕ) : Prop := i ∈ s.ifs ∧ g ∈ (s.ifc i).srlgs

/-- every member node of a failed SRLG is failed -/
def MemberNodesDown (s : State) : Prop :=
  ∀ n ∈ s.nodes, ∀ g ∈ (s.node n).srlgs, (s.srlg g).failed = true → (s.node n).failed = true

/-- every member interface of a failed SRLG is failed -/
def MemberIfcsDown (s : State) : Prop :=
  ∀ i ∈ s.ifs, ∀ g ∈ (s.ifc i).srlgs, (s.srlg g).failed = true → (s.ifc i).failed = true

/-- an interface belongs to every SRLG its opposite direction belongs to -/
def SrlgsMatch (s : State) : Prop :=
  ∀ i ∈ s.ifs, ∀ j ∈ s.ifs, Opposite s i j → ∀ g ∈ (s.ifc j).srlgs, g ∈ (s.ifc i).srlgs

/-- every interface takes part in RSVP and is not over-reserved -/
def RsvpReady (s : State) : Prop :=
  ∀ i ∈ s.ifs, 0 ≤ (s.ifc i).capacity * ((s.ifc i).pct / 100) ∧ 0 ≤ s.reservable i

/-- no LSP of the model has a path -/
def NoLspRouted (s : State) : Prop := ∀ l ∈ s.lsps, (s.lsp l).path.saysUnrouted = true

/-- `t` is `s` with the interfaces `F` and the nodes `N` failed (a failed interface loses its
reservations) and nothing else changed -/
def FailedOnly (s t : State) (F N : ℕ → Prop) : Prop :=
  (∀ i, F i → t.ifc i = { s.ifc i with failed := true, reservedRaw := 0 }) ∧
  (∀ i, ¬ F i → t.ifc i = s.ifc i) ∧
  (∀ n, N n → t.node n = { s.node n with failed := true }) ∧
  (∀ n, ¬ N n → t.node n = s.node n) ∧
  t = { s with ifc := t.ifc, node := t.node }

/-- the calls whose histories are considered.  `interfaceFail`, `interfaceUnfail` and the
membership calls are methods of an interface or node object, the others take names. -/
inductive Call where
  | failInterface (ifcName nodeName : String)
  | unfailInterface (ifcName nodeName : String) (raiseException : Bool)
  | interfaceFail (i : ℕ)
  | interfaceUnfail (i : ℕ)
  | failNode (name : String)
  | unfailNode (name : String)
  | failSrlg (name : String)
  | unfailSrlg (name : String)
  | addSrlg (name : String)
  | validate
  | simulate
  | joinIfc (i : ℕ) (srlg : String) (create : Bool)
  | leaveIfc (i : ℕ) (srlg : String)
  | joinNode (n : ℕ) (srlg : String) (create : Bool)
  | leaveNode (n : ℕ) (srlg : String)

/-- the method a call invokes -/
def Call.run (env : Env) : Call → Py Unit
  | .failInterface a b => NTM.failInterface a b
  | .unfailInterface a b e => NTM.unfailInterface env a b e
  | .interfaceFail i => ifcFail i
  | .interfaceUnfail i => ifcUnfail i
  | .failNode a => NTM.failNode a
  | .unfailNode a => NTM.unfailNode env a
  | .failSrlg a => NTM.failSrlg a
  | .unfailSrlg a => NTM.unfailSrlg env a
  | .addSrlg a => NTM.addSrlg a
  | .validate => NTM.validate env
  | .simulate => updateSimulation env
  | .joinIfc i a c => ifcAddToSrlg i a c
  | .leaveIfc i a => ifcRemoveFromSrlg i a
  | .joinNode n a c => nodeAddToSrlg n a c
  | .leaveNode n a => nodeRemoveFromSrlg n a

/-- the object whose method is called belongs to the model -/
def Call.OnModel (s : State) : Call → Prop
  | .interfaceFail i | .interfaceUnfail i | .joinIfc i _ _ | .leaveIfc i _ => i ∈ s.ifs
  | .joinNode n _ _ | .leaveNode n _ => n ∈ s.nodes
  | _ => True

/-- some SRLG of that name is failed -/
def SrlgFailed (s : State) (name : String) : Prop :=
  ∃ g ∈ s.srlgs, (s.srlg g).name = name ∧ (s.srlg g).failed = true

/-- the call adds no node to a failed SRLG -/
def Call.NodeJoinsLive (s : State) : Call → Prop
  | .joinNode _ a _ => ¬ SrlgFailed s a
  | _ => True

/-- the call adds no node or interface to a failed SRLG -/
def Call.JoinsLive (s : State) : Call → Prop
  | .joinNode _ a _ | .joinIfc _ a _ => ¬ SrlgFailed s a
  | _ => True

/-- the call does not change the SRLG membership of an interface -/
def Call.KeepsIfcMembers : Call → Prop
  | .joinIfc _ _ _ | .leaveIfc _ _ => False
  | _ => True

/-- `t` is reached from `s` by calls that are allowed when they are made; a call that raises
leaves the state it had reached, and the history goes on from there -/
inductive History (env : Env) (allowed : State → Call → Prop) : State → State → Prop
  | start (s : State) : History env allowed s s
  | call {s t : State} (c : Call) (h : History env allowed s t) (hc : allowed t c) :
      History env allowed s (finalState (c.run env) t)

theorem wired_iff (s : State) : Wired s ↔ s.nodeNames.Nodup ∧
    (∀ i ∈ s.ifs, (s.ifc i).node ∈ s.nodes ∧ (s.ifc i).remote ∈ s.nodes) ∧ UniqueIfcKeys s ∧
    UniqueSrlgNames s ∧ (∀ g ∈ s.srlgs, g < s.next) ∧ (∀ i ∈ s.ifs, ∃ j ∈ s.ifs, Opposite s i j) ∧
    (s.kind = .perf → SingleLinks s) ∧ (s.kind = .flex → IdsUniquePerNode s) ∧ CktIdsSet s :=
  ⟨fun h => ⟨h.1, h.2, h.3, h.4, h.5, h.6, h.7, h.8, h.9⟩, fun ⟨h1, h2, h3, h4, h5, h6, h7, h8, h9⟩ =>
    ⟨h1, h2, h3, h4, h5, h6, h7, h8, h9⟩⟩

instance (s : State) : Decidable (Wired s) := decidable_of_iff' _ (wired_iff s)
instance (s : State) : Decidable (IdsMatch s) := by unfold IdsMatch; infer_instance
instance (s : State) : Decidable (DeadNodesDark s) := by unfold DeadNodesDark; infer_instance
instance (s : State) (g n : ℕ) : Decidable (NodeIn s g n) := by unfold NodeIn; infer_instance
instance (s : State) (g n : ℕ) : Decidable (IfcIn s g n) := by unfold IfcIn; infer_instance

instance (s : State) : Decidable (MemberNodesDown s) := by unfold MemberNodesDown; infer_instance
instance (s : State) : Decidable (MemberIfcsDown s) := by unfold MemberIfcsDown; infer_instance
instance (s : State) : Decidable (RsvpReady s) := by unfold RsvpReady; infer_instance
instance (s : State) : Decidable (SrlgsMatch s) := by unfold SrlgsMatch; infer_instance
instance (s : State) : Decidable (NoLspRouted s) := by unfold NoLspRouted; infer_instance

end NTM.Spec
