import Mathlib.Data.Nat.Basic

/-!
# Specification: routes in a network

Independent of the model: a network is given by the two end points of each link, a cost
per link and the set of links that may be used.
-/

namespace NTM.Spec

/-- `Route tail head ok u p v`: the links `p`, taken in order, lead contiguously from `u`
to `v`, and every one of them may be used. -/
inductive Route (tail head : ℕ → String) (ok : ℕ → Prop) : String → List ℕ → String → Prop
  | nil (u : String) : Route tail head ok u [] u
  | cons {i : ℕ} {p : List ℕ} {v : String} :
      ok i → Route tail head ok (head i) p v → Route tail head ok (tail i) (i :: p) v

/-- total cost of a sequence of links -/
def totalCost (cost : ℕ → ℕ) (p : List ℕ) : ℕ := (p.map cost).sum

/-- `p` is a route from `u` to `v` and no route from `u` to `v` is cheaper. -/
def Cheapest (tail head : ℕ → String) (cost : ℕ → ℕ) (ok : ℕ → Prop)
    (u : String) (p : List ℕ) (v : String) : Prop :=
  Route tail head ok u p v ∧ ∀ q, Route tail head ok u q v → totalCost cost p ≤ totalCost cost q

/-- there is some route from `u` to `v` -/
def Reachable (tail head : ℕ → String) (ok : ℕ → Prop) (u v : String) : Prop :=
  ∃ p, Route tail head ok u p v

/-- the sequence of nodes a list of links visits, starting at `u` -/
def visited (head : ℕ → String) (u : String) (p : List ℕ) : List String := u :: p.map head

/-- a route that visits no node twice -/
def SimpleRoute (tail head : ℕ → String) (ok : ℕ → Prop) (u : String) (p : List ℕ) (v : String) :
    Prop :=
  Route tail head ok u p v ∧ (visited head u p).Nodup

end NTM.Spec
