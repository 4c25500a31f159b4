import Verif.Props.Routing
import Verif.Props.Lsp

/-!
# C71: interfaces with `rsvp_enabled=False`
-/

namespace NTM

open Spec

/-- A–B–C; the A–B circuit is not enabled for RSVP when `rsvp` is false. -/
def Ex.plainIgp (k : Kind) (rsvp : Bool) : State := Ex.mk k
  [{ name := "A" }, { name := "B" }, { name := "C" }]
  ((Ex.link "ab" 0 1 10 100 1).map (fun i => { i with rsvpEnabled := rsvp }) ++
    Ex.link "bc" 1 2 10 100 2)
  [{ src := 0, dst := 2, traffic := 4, name := "x" }, { src := 1, dst := 2, traffic := 5, name := "y" }]
  [] []

/-- **C71** is false: of two models without LSPs that differ only in `rsvp_enabled` of one
circuit, one routes the demand over that circuit and the other leaves it unrouted. -/
theorem C71_igp_ignores_rsvp_false (k : Kind) : ∃ env s t s' t', s.kind = k ∧ t.kind = k ∧
    Tidy s ∧ Tidy t ∧ s.lsps = [] ∧
    s = { t with ifc := fun i => { t.ifc i with rsvpEnabled := (s.ifc i).rsvpEnabled } } ∧
    updateSimulation env s = .ok () s' ∧ updateSimulation env t = .ok () t' ∧
    ∃ d ∈ s.dmds, (s'.dmd d).path = some [[.ifc 0, .ifc 2]] ∧ (t'.dmd d).path = none := by
  refine ⟨Env.default, Ex.plainIgp k true, Ex.plainIgp k false, _, _, rfl, rfl, ?_, ?_, ?_, ?_,
    ok_of_raised ?_, ok_of_raised ?_, 0, ?_, ?_, ?_⟩
  case refine_4 =>
    have e : (Ex.plainIgp k true).ifc = fun i => { (Ex.plainIgp k false).ifc i with
        rsvpEnabled := ((Ex.plainIgp k true).ifc i).rsvpEnabled } := by
      funext i
      match i with
      | 0 => rfl
      | 1 => rfl
      | 2 => rfl
      | 3 => rfl
      | n + 4 => rfl
    exact congrArg (fun f => ({ Ex.plainIgp k false with ifc := f } : State)) e
  all_goals cases k <;> decide +kernel

/-- **C71** What happens instead, in every model: no demand is ever routed over an interface
with `rsvp_enabled=False`, with or without LSPs. -/
theorem C71_demands_avoid_disabled {env : Env} {s s' : State} (ht : Tidy s)
    (hrun : updateSimulation env s = .ok () s') {d : ℕ} (hd : d ∈ s'.dmds)
    {paths : List (List Item)} (hp : (s'.dmd d).path = some paths) {p : List Item}
    (hpm : p ∈ paths) {i : ℕ} (hi : Item.ifc i ∈ p) : (s'.ifc i).rsvpEnabled = true := by
  have h := (demand_not_failed ht hrun hd hp hpm hi).2.2
  by_contra hf
  unfold State.reservable at h
  rw [if_neg hf] at h
  exact absurd h (by norm_num)

/-- **C71** (partial) The part of the claim that holds: LSPs avoid such interfaces, and it is
all that is asked of an LSP path besides being up and connected (in a PerformanceModel, on
networks without parallel links, and whenever no LSP group ends partly routed). -/
theorem C71_lsps_avoid_disabled_partial {env : Env} {s s' : State} (ht : Tidy s)
    (hrun : updateSimulation env s = .ok () s')
    (hx : s.kind = .perf ∨ SingleLinks s ∨ AllOrNone s') {l : ℕ} (hl : l ∈ s'.lsps)
    {p : List ℕ} {c : ℕ} {m : ℚ} (hp : (s'.lsp l).path = .routed p c m) :
    ∀ i ∈ p, (s'.ifc i).rsvpEnabled = true :=
  fun i hi => (Route.mem_ok (C15_final_paths_eligible_partial ht hrun hx hl hp) i hi).2.2

/-- the model with the disabled circuit: the second demand is still routed -/
example (k : Kind) : Tidy (Ex.plainIgp k false) ∧ SingleLinks (Ex.plainIgp k false) ∧
    updateSimulation Env.default (Ex.plainIgp k false) =
      .ok () (finalState (updateSimulation Env.default) (Ex.plainIgp k false)) ∧
    ((finalState (updateSimulation Env.default) (Ex.plainIgp k false)).dmd 1).path =
      some [[.ifc 2]] ∧
    ((finalState (updateSimulation Env.default) (Ex.plainIgp k false)).ifc 0).rsvpEnabled =
      false := by
  cases k <;> exact ⟨by decide +kernel, by decide +kernel, ok_of_raised (by decide +kernel),
    by decide +kernel, by decide +kernel⟩

end NTM
