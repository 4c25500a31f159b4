import Verif.Model.Sim

/-!
# Concrete models used as witnesses

Small networks written down in full.  They witness that hypotheses of theorems can be met
and serve as counterexamples where a property fails.
-/

namespace NTM.Ex

/-- the `i`-th element of a list as a heap -/
def heap {α : Type} (l : List α) (d : α) : ℕ → α := fun i => l.getD i d

/-- A model written down as lists: object `i` of each kind is the `i`-th list element. -/
def mk (k : Kind) (ns : List Node) (is : List Ifc) (ds : List Dmd) (ls : List Lsp)
    (gs : List Srlg) : State where
  kind := k
  node := heap ns { name := "" }
  ifc := heap is { name := "", cost := 1, capacity := 1, node := 0, remote := 0 }
  dmd := heap ds { src := 0, dst := 0, traffic := 0, name := "" }
  lsp := heap ls { src := 0, dst := 0, name := "" }
  srlg := heap gs { name := "" }
  nodes := List.range ns.length
  ifs := List.range is.length
  dmds := List.range ds.length
  lsps := List.range ls.length
  srlgs := List.range gs.length
  next := ns.length + is.length + ds.length + ls.length + gs.length

/-- the two interfaces of a circuit between nodes `a` and `b` -/
def link (nm : String) (a b cost : ℕ) (cap : ℚ) (id : ℤ) : List Ifc :=
  [{ name := nm ++ "1", cost := cost, capacity := cap, node := a, remote := b, cktId := .num id },
   { name := nm ++ "2", cost := cost, capacity := cap, node := b, remote := a, cktId := .num id }]

/-- Square A-B-D, A-C-D with equal costs, a demand A→D of 10 and one A→B of 3. -/
def square (k : Kind) : State := mk k
  [{ name := "A" }, { name := "B" }, { name := "C" }, { name := "D" }]
  (link "ab" 0 1 10 100 1 ++ link "bd" 1 3 10 100 2 ++ link "ac" 0 2 10 100 3 ++
    link "cd" 2 3 10 100 4)
  [{ src := 0, dst := 3, traffic := 10, name := "x" },
   { src := 0, dst := 1, traffic := 3, name := "y" }]
  [] []

end NTM.Ex
