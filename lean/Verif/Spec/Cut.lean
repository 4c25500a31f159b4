import Verif.Spec.Impact

/-!
# Specification vocabulary for a set of nodes and its border

`W` is a set of node names.
-/

namespace NTM.Spec

/-- the interfaces that lead out of the set -/
def outOf (s : State) (W : String → Bool) : List ℕ :=
  s.ifs.filter fun i => W (s.tail i) && !W (s.head i)

/-- the interfaces that lead into the set -/
def into (s : State) (W : String → Bool) : List ℕ :=
  s.ifs.filter fun i => !W (s.tail i) && W (s.head i)

/-- total traffic of a list of interfaces -/
def trafficOn (s : State) (is : List ℕ) : ℚ :=
  (is.map fun i => trafficValue (s.ifc i).traffic).sum

/-- total traffic of the routed demands from inside the set to outside -/
def demandOut (s : State) (W : String → Bool) : ℚ :=
  ((s.dmds.filter fun d => decide ((s.dmd d).path ≠ none) && (W (s.dmdSrc d) && !W (s.dmdDst d))).map
    fun d => (s.dmd d).traffic).sum

/-- total traffic of the routed demands from outside the set to inside -/
def demandIn (s : State) (W : String → Bool) : ℚ :=
  ((s.dmds.filter fun d => decide ((s.dmd d).path ≠ none) && (!W (s.dmdSrc d) && W (s.dmdDst d))).map
    fun d => (s.dmd d).traffic).sum

end NTM.Spec
