import Verif.Proof.WhatIf
import Verif.Proof.Membership
import Verif.Props.Rerun

/-!
# C106: after any what-if history the status of the objects decides the results

Failures and repairs of interfaces, nodes and SRLGs, validations and simulations change nothing a
later simulation reads but the failed states.
-/

namespace NTM

open Spec

namespace Spec

/-- a call of a what-if session: a failure or repair (whether it succeeds or raises), a validation,
or a simulation that succeeds; no membership of an SRLG is changed -/
def Call.Probes (env : Env) (s : State) : Call → Prop
  | .addSrlg _ | .joinIfc _ _ _ | .leaveIfc _ _ | .joinNode _ _ _ | .leaveNode _ _ => False
  | .simulate => raised (updateSimulation env) s = none
  | c => c.OnModel s

/-- every interface and node of the model is failed in one exactly if it is in the other -/
structure SameStatus (s t : State) : Prop where
  ifcs : ∀ i ∈ s.ifs, (t.ifc i).failed = (s.ifc i).failed
  nodes : ∀ n ∈ s.nodes, (t.node n).failed = (s.node n).failed

theorem sameStatus_iff (s t : State) : SameStatus s t ↔
    (∀ i ∈ s.ifs, (t.ifc i).failed = (s.ifc i).failed) ∧
    (∀ n ∈ s.nodes, (t.node n).failed = (s.node n).failed) :=
  ⟨fun h => ⟨h.1, h.2⟩, fun h => ⟨h.1, h.2⟩⟩

instance (s t : State) : Decidable (SameStatus s t) := decidable_of_iff _ (sameStatus_iff s t).symm

end Spec

theorem probes_step (env : Env) {w : State} (hw : Tidy w) (t : State) (c : Call)
    (h : EndsInv t ∧ Loose w t) (hc : c.Probes env t) :
    EndsInv (finalState (c.run env) t) ∧ Loose w (finalState (c.run env) t) := by
  have hI := looseInv w
  cases c with
  | failInterface a b => exact final_of_wp (hI.failInterface a b t h)
  | unfailInterface a b e => exact final_of_wp (hI.unfailInterface env a b e t h)
  | interfaceFail i => exact final_of_wp (hI.ifcFail i t h hc)
  | interfaceUnfail i => exact final_of_wp (hI.ifcUnfail i t h hc)
  | failNode a => exact final_of_wp (hI.failNode a t h)
  | unfailNode a => exact final_of_wp (hI.unfailNode env a t h)
  | failSrlg a => exact final_of_wp (hI.failSrlg a t h)
  | unfailSrlg a => exact final_of_wp (hI.unfailSrlg env a t h)
  | validate => exact final_of_wp (hI.valid env t h)
  | simulate =>
    have hr := ok_of_raised (show raised (updateSimulation env) t = none from hc)
    have ht := h.2.tidy hw h.1.2.1
    exact ⟨final_of_wp (stays_simBody env _ endsInv_cfg (endsInv.valid env) t h.1),
      h.2.trans (.of (Recfg.simulation ht hr) fun i _ => Recfg.simulation_failed ht hr i)⟩
  | addSrlg | joinIfc | leaveIfc | joinNode | leaveNode => exact hc.elim

theorem probes_loose {env : Env} {s t : State} (ht : Tidy s) (hw : Wired s) (hm : SrlgsMatch s)
    (hd : MemberIfcsDown s) (h : History env (Call.Probes env) s t) : EndsInv t ∧ Loose s t :=
  h.keeps (fun u c => probes_step env ht u c) ⟨⟨hw, ht.ends, hd, hm⟩, Loose.refl s⟩

/-- **C106** Two what-if sessions on the same model that leave the same interfaces and nodes failed
lead to the same simulation: it succeeds after one exactly if it succeeds after the other,
and then with the same results, whatever was failed, repaired and simulated on the way and in
whichever order. -/
theorem C106_status_decides {env env1 env2 : Env} {s t u : State} (ht : Tidy s) (hw : Wired s)
    (hm : SrlgsMatch s) (hd : MemberIfcsDown s) (h1 : History env1 (Call.Probes env1) s t)
    (h2 : History env2 (Call.Probes env2) s u) (hs : SameStatus t u) :
    SameOutcome (updateSimulation env t)
      (updateSimulation env { u with rngPos := t.rngPos }) := by
  obtain ⟨e1, l1⟩ := probes_loose ht hw hm hd h1
  obtain ⟨-, l2⟩ := probes_loose ht hw hm hd h2
  exact C55_no_carry_over env e1.1.keys ((l1.symm.trans l2).same hs.ifcs hs.nodes)

/-- **C106** A what-if session that puts every status back leaves no trace: simulating again, with
the random choices of the first simulation, succeeds with its results. -/
theorem C106_what_if {env env2 : Env} {s s1 t : State} (ht : Tidy s) (hw : Wired s)
    (hm : SrlgsMatch s) (hd : MemberIfcsDown s) (h1 : updateSimulation env s = .ok () s1)
    (h : History env2 (Call.Probes env2) s1 t) (hs : SameStatus s t) :
    ∃ s5, updateSimulation env { t with rngPos := s.rngPos } = .ok () s5 ∧
      SameResults s1 s5 := by
  have l0 : EndsInv s1 ∧ Loose s s1 := by
    have hr : raised (updateSimulation env) s = none := by unfold raised; rw [h1]
    have := probes_step env ht s .simulate ⟨⟨hw, ht.ends, hd, hm⟩, Loose.refl s⟩ hr
    rwa [show finalState (Call.simulate.run env) s = s1 by
      show finalState (updateSimulation env) s = s1; unfold finalState; rw [h1]] at this
  have l1 := h.keeps (fun u c => probes_step env2 ht u c) l0
  exact rerun_of_same hw.keys h1 (l1.2.same hs.ifcs hs.nodes)

/-- the end of a session on the network with two SRLGs: fail a node, fail an SRLG, simulate, repair
the SRLG, repair the node -/
def Ex.probed (k : Kind) : List Call → State :=
  List.foldl (fun s c => finalState (c.run Env.default) s)
    (finalState (updateSimulation Env.default) (Ex.risk k))

instance (env : Env) (s : State) (c : Call) : Decidable (c.Probes env s) := by
  cases c <;> unfold Call.Probes <;> try unfold Call.OnModel
  all_goals infer_instance

/-- each of the calls is a probe when its turn comes -/
def Ex.probesAll (env : Env) : List Call → State → Prop
  | [], _ => True
  | c :: cs, s => c.Probes env s ∧ Ex.probesAll env cs (finalState (c.run env) s)

instance Ex.decProbesAll (env : Env) : (cs : List Call) → (s : State) → Decidable (Ex.probesAll env cs s)
  | [], _ => isTrue trivial
  | c :: cs, s =>
    have := Ex.decProbesAll env cs (finalState (c.run env) s)
    inferInstanceAs (Decidable (_ ∧ _))

theorem Ex.historyOf {env : Env} {r : State} : ∀ (cs : List Call) (s : State),
    History env (Call.Probes env) r s → Ex.probesAll env cs s →
    History env (Call.Probes env) r (cs.foldl (fun s c => finalState (c.run env) s) s)
  | [], _, h, _ => h
  | c :: cs, _, h, hg => Ex.historyOf cs _ (.call c h hg.1) hg.2

def Ex.session : List Call :=
  [.failNode "C", .failSrlg "h", .validate, .unfailSrlg "h", .simulate, .unfailNode "C"]

/-- the session is one of the theorem, the failure changes the results on the way, and every status
is back at the end -/
example (k : Kind) : Tidy (Ex.risk k) ∧ Wired (Ex.risk k) ∧ SrlgsMatch (Ex.risk k) ∧
    MemberIfcsDown (Ex.risk k) ∧ raised (updateSimulation Env.default) (Ex.risk k) = none ∧
    History Env.default (Call.Probes Env.default) (Ex.probed k []) (Ex.probed k Ex.session) ∧
    SameStatus (Ex.risk k) (Ex.probed k Ex.session) ∧
    ¬ SameStatus (Ex.risk k) (Ex.probed k (Ex.session.take 4)) ∧
    ((Ex.probed k []).ifc 0).traffic = .val 5 ∧
    ((Ex.probed k (Ex.session.take 5)).ifc 0).traffic = .val 10 := by
  refine ⟨?_, ?_, ?_, ?_, ?_, ?_, ?_, ?_, ?_, ?_⟩
  case refine_6 => exact Ex.historyOf _ _ (.start _) (by cases k <;> decide +kernel)
  all_goals cases k <;> decide +kernel

/-- two sessions that end with the same objects failed, one through the SRLG and one directly -/
example (k : Kind) : Tidy (Ex.probed k []) ∧ Wired (Ex.probed k []) ∧
    SrlgsMatch (Ex.probed k []) ∧ MemberIfcsDown (Ex.probed k []) ∧
    History Env.default (Call.Probes Env.default) (Ex.probed k [])
      (Ex.probed k [.failSrlg "g", .simulate]) ∧
    History Env.default (Call.Probes Env.default) (Ex.probed k [])
      (Ex.probed k [.failInterface "ab1" "A", .failNode "C"]) ∧
    SameStatus (Ex.probed k [.failSrlg "g", .simulate])
      (Ex.probed k [.failInterface "ab1" "A", .failNode "C"]) ∧
    ¬ SameStatus (Ex.risk k) (Ex.probed k [.failInterface "ab1" "A", .failNode "C"]) := by
  refine ⟨?_, ?_, ?_, ?_, ?_, ?_, ?_, ?_⟩
  case refine_5 => exact Ex.historyOf _ _ (.start _) (by cases k <;> decide +kernel)
  case refine_6 => exact Ex.historyOf _ _ (.start _) (by cases k <;> decide +kernel)
  all_goals cases k <;> decide +kernel

end NTM
