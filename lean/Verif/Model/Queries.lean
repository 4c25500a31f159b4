import Verif.Model.Registry

/-!
# Queries about circuits and nodes
-/

namespace NTM

namespace State

/-- `Circuit.failed` with `get_circuit_interfaces` (`pyNTM/circuit.py:20-40`) -/
def circuitFailed (s : State) (c : ℕ × ℕ) : Bool := (s.ifc c.1).failed || (s.ifc c.2).failed

/-- `Circuit.circuit_id` (`pyNTM/circuit.py:42-47`) -/
def circuitId (s : State) (c : ℕ × ℕ) : CktId := (s.ifc c.1).cktId

/-- `Interface.get_circuit_object` (`pyNTM/interface.py:271-280`) -/
def ifcCircuit (s : State) (i : ℕ) : Except Exn (ℕ × ℕ) := s.getCircuit (s.ifc i).name (s.tail i)

/-- `all_interface_circuit_ids` (`pyNTM/master_model.py:465-470`), with repetitions -/
def allCktIds (s : State) : List CktId := s.ifs.map fun i => (s.ifc i).cktId

/-- `get_node_interfaces` (`pyNTM/master_model.py:793-795`): looks the interfaces up by the name of
the node, which need not be in the model -/
def nodeIfcs (s : State) (name : String) : List ℕ := s.ifcsOn name

/-- the loop of `get_failed_node_objects` (`pyNTM/master_model.py:831-842`) and
`get_non_failed_node_objects` (`pyNTM/master_model.py:844-853`): every node with the status is
looked up again by its name -/
def nodesWith (s : State) (status : Bool) : List ℕ → Except Exn (List ℕ)
  | [] => .ok []
  | n :: rest =>
    if (s.node n).failed = status then do
      let m ← s.getNode (s.node n).name
      let r ← nodesWith s status rest
      .ok (m :: r)
    else nodesWith s status rest

/-- `get_failed_node_objects` (`pyNTM/master_model.py:831-842`) -/
def failedNodes (s : State) : Except Exn (List ℕ) := s.nodesWith true s.nodes

/-- `get_non_failed_node_objects` (`pyNTM/master_model.py:844-853`) -/
def upNodes (s : State) : Except Exn (List ℕ) := s.nodesWith false s.nodes

/-- `is_node_an_orphan` (`pyNTM/master_model.py:1067-1075`) -/
def isOrphan (s : State) (n : ℕ) : Bool := s.memNode n s.orphans

/-- `validate_srlg_nodes` (`pyNTM/performance_model.py:225-249`): the names of nodes that are in
the node set of an SRLG without having it in their own set.  Simplification: the keys of the
returned dict only. -/
def srlgNodeErrors (s : State) : List String :=
  s.srlgs.flatMap fun g =>
    ((s.srlgNodes g).filter fun n => g ∉ (s.node n).srlgs).map fun n => (s.node n).name

end State

end NTM
