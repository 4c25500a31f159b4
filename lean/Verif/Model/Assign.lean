import Verif.Model.Failures

/-!
# Assignments to the public attributes of an SRLG
-/

namespace NTM

/-- a value assigned to a status -/
inductive Status where
  | bool (b : Bool)
  | other

/-- `srlg.failed = value` (`pyNTM/srlg.py:41-46`) -/
def assignSrlg (g : ℕ) : Status → Py Unit
  | .bool b => modify fun s => s.updSrlg g fun x => { x with failed := b }
  | .other => raise (.model "must be boolean")

end NTM
