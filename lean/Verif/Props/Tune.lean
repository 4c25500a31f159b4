import Verif.Proof.Tune
import Verif.Props.WhatIf

/-!
# C110: after any session the settings and the status of the objects decide the results
-/

namespace NTM

open Spec

namespace Spec

/-- a failure, a repair, a validation, a successful simulation, or an assignment to an attribute of
an object of the model -/
def Move.Allowed (env : Env) (s : State) : Move → Prop
  | .call c => c.Probes env s
  | .set x => x.OnModel s

end Spec

theorem tune_step (env : Env) {w : State} (t : State) (m : Move)
    (h : TuneInv w t) (hm : m.Allowed env t) : TuneInv w (finalState (m.run env) t) := by
  cases m with
  | call c =>
    obtain ⟨he, ht, v, hv, hl⟩ := h
    obtain ⟨a, b⟩ := probes_step env ht t c ⟨he, .refl t⟩ hm
    exact ⟨a, b.tidy ht a.2.1, v, hv, hl.trans b⟩
  | set x => exact tuneInv_set x hm h

theorem tune_session {env : Env} {s t : State} (ht : Tidy s) (hw : Wired s) (hm : SrlgsMatch s)
    (hd : MemberIfcsDown s) (h : Session env (Move.Allowed env) s t) : TuneInv s t := by
  induction h with
  | start => exact ⟨⟨hw, ht.ends, hd, hm⟩, ht, _, .refl _, .refl _⟩
  | move m _ hm' ih => exact tune_step env _ m ih hm'

/-- **C110** Two sessions on the same model that end with the same settings (costs, capacities,
reservable shares, demand traffic, LSP bandwidths and metrics, IGP shortcuts) and the same
interfaces and nodes failed lead to the same simulation: it succeeds after one exactly if it
succeeds after the other, and then with the same results, whatever was set, failed, repaired and
simulated on the way and in whichever order. -/
theorem C110_settings_decide {env env1 env2 : Env} {s t u : State} (ht : Tidy s) (hw : Wired s)
    (hm : SrlgsMatch s) (hd : MemberIfcsDown s) (h1 : Session env1 (Move.Allowed env1) s t)
    (h2 : Session env2 (Move.Allowed env2) s u) (hs : SameSettings t u) (hst : SameStatus t u) :
    SameOutcome (updateSimulation env t)
      (updateSimulation env { u with rngPos := t.rngPos }) := by
  obtain ⟨e1, -, v, r1, l1⟩ := tune_session ht hw hm hd h1
  obtain ⟨-, -, v', r2, l2⟩ := tune_session ht hw hm hd h2
  have hv : v = v' := by
    refine r1.eq r2 ⟨fun i hi => ?_, fun i hi => ?_, fun i hi => ?_, fun i hi => ?_⟩
    · have hi1 : i ∈ t.ifs := by rw [l1.ifs]; exact hi
      have hi2 : i ∈ v'.ifs := by rw [r2.ifs, ← r1.ifs]; exact hi
      obtain ⟨a, b, c, d⟩ := hs.ifcs i hi1
      obtain ⟨a1, b1, c1, d1⟩ := l1.settings.ifcs i hi
      obtain ⟨a2, b2, c2, d2⟩ := l2.settings.ifcs i hi2
      exact ⟨by rw [← a1, ← a2, a], by rw [← b1, ← b2, b], by rw [← c1, ← c2, c],
        by rw [← d1, ← d2, d]⟩
    · have hi1 : i ∈ t.dmds := by rw [l1.core.dmds]; exact hi
      have hi2 : i ∈ v'.dmds := by rw [r2.dmds, ← r1.dmds]; exact hi
      rw [← l1.settings.dmds i hi, ← l2.settings.dmds i hi2, hs.dmds i hi1]
    · have hi1 : i ∈ t.lsps := by rw [l1.core.lsps]; exact hi
      have hi2 : i ∈ v'.lsps := by rw [r2.lsps, ← r1.lsps]; exact hi
      obtain ⟨a, b, c⟩ := hs.lsps i hi1
      obtain ⟨a1, b1, c1⟩ := l1.settings.lsps i hi
      obtain ⟨a2, b2, c2⟩ := l2.settings.lsps i hi2
      exact ⟨by rw [← a1, ← a2, a], by rw [← b1, ← b2, b], by rw [← c1, ← c2, c]⟩
    · have hi1 : i ∈ t.nodes := by rw [l1.core.nodes]; exact hi
      have hi2 : i ∈ v'.nodes := by rw [r2.nodes, ← r1.nodes]; exact hi
      rw [← l1.settings.nodes i hi, ← l2.settings.nodes i hi2, hs.nodes i hi1]
  subst hv
  exact C55_no_carry_over env e1.1.keys ((l1.symm.trans l2).same hst.ifcs hst.nodes)

/-- **C110** A session that puts every setting and every status back leaves no trace: simulating
again, with the random choices of the first simulation, succeeds with its results. -/
theorem C110_put_back {env env2 : Env} {s s1 t : State} (ht : Tidy s) (hw : Wired s)
    (hm : SrlgsMatch s) (hd : MemberIfcsDown s) (h1 : updateSimulation env s = .ok () s1)
    (h : Session env2 (Move.Allowed env2) s1 t) (hs : SameSettings s t) (hst : SameStatus s t) :
    ∃ s5, updateSimulation env { t with rngPos := s.rngPos } = .ok () s5 ∧
      SameResults s1 s5 := by
  have l0 : EndsInv s1 ∧ Loose s s1 := by
    have hr : raised (updateSimulation env) s = none := by unfold raised; rw [h1]
    have := probes_step env ht s .simulate ⟨⟨hw, ht.ends, hd, hm⟩, Loose.refl s⟩ hr
    rwa [show finalState (Call.simulate.run env) s = s1 by
      show finalState (updateSimulation env) s = s1; unfold finalState; rw [h1]] at this
  have l1 : TuneInv s t := by
    have : TuneInv s s1 := ⟨l0.1, l0.2.tidy ht l0.1.2.1, s, .refl s, l0.2⟩
    clear l0 h1 hs hst
    induction h with
    | start => exact this
    | move m _ hm' ih => exact tune_step env2 _ m ih hm'
  obtain ⟨-, -, v, r, l⟩ := l1
  have hv : s = v := by
    refine (Retuned.refl s).eq r ⟨fun i hi => ?_, fun i hi => ?_, fun i hi => ?_, fun i hi => ?_⟩
    · obtain ⟨a, b, c, d⟩ := hs.ifcs i hi
      obtain ⟨a2, b2, c2, d2⟩ := l.settings.ifcs i (by rw [r.ifs]; exact hi)
      exact ⟨by rw [← a2, a], by rw [← b2, b], by rw [← c2, c], by rw [← d2, d]⟩
    · rw [← l.settings.dmds i (by rw [r.dmds]; exact hi), hs.dmds i hi]
    · obtain ⟨a, b, c⟩ := hs.lsps i hi
      obtain ⟨a2, b2, c2⟩ := l.settings.lsps i (by rw [r.lsps]; exact hi)
      exact ⟨by rw [← a2, a], by rw [← b2, b], by rw [← c2, c]⟩
    · rw [← l.settings.nodes i (by rw [r.nodes]; exact hi), hs.nodes i hi]
  rw [← hv] at l
  exact rerun_of_same hw.keys h1 (l.same hst.ifcs hst.nodes)

instance (s : State) (x : Setting) : Decidable (x.OnModel s) := by
  cases x <;> unfold Setting.OnModel <;> infer_instance

instance (env : Env) (s : State) (m : Move) : Decidable (m.Allowed env s) := by
  cases m <;> unfold Move.Allowed <;> infer_instance

/-- each of the moves is allowed when its turn comes -/
def Ex.allowedAll (env : Env) : List Move → State → Prop
  | [], _ => True
  | m :: ms, s => m.Allowed env s ∧ Ex.allowedAll env ms (finalState (m.run env) s)

instance Ex.decAllowedAll (env : Env) :
    (ms : List Move) → (s : State) → Decidable (Ex.allowedAll env ms s)
  | [], _ => isTrue trivial
  | m :: ms, s =>
    have := Ex.decAllowedAll env ms (finalState (m.run env) s)
    inferInstanceAs (Decidable (_ ∧ _))

theorem Ex.sessionOf {env : Env} {r : State} : ∀ (ms : List Move) (s : State),
    Session env (Move.Allowed env) r s → Ex.allowedAll env ms s →
    Session env (Move.Allowed env) r (ms.foldl (fun s m => finalState (m.run env) s) s)
  | [], _, h, _ => h
  | m :: ms, _, h, hg => Ex.sessionOf ms _ (.move m h hg.1) hg.2

/-- the network with two SRLGs and an LSP from A to D -/
def Ex.leased (k : Kind) : State :=
  { Ex.risk k with lsp := fun _ => { src := 0, dst := 3, name := "l" }, lsps := [0] }

/-- the end of a session, after a simulation -/
def Ex.tuned (k : Kind) : List Move → State :=
  List.foldl (fun s m => finalState (m.run Env.default) s)
    (finalState (updateSimulation Env.default) (Ex.leased k))

/-- raise a cost, try a cost of 0, change a demand, a bandwidth, a metric and a capacity, fail a
node, simulate, and put it all back -/
def Ex.trial : List Move :=
  [.set (.cost 0 30), .set (.cost 0 0), .set (.traffic 0 7), .set (.configured 0 (some 3)),
    .set (.metric 0 4), .set (.capacity 2 50), .set (.capacity 3 50), .call .simulate,
    .call (.failNode "C"), .call .simulate, .set (.capacity 2 100), .set (.capacity 3 100),
    .set (.metric 0 (-1)), .set (.traffic 0 10), .call (.unfailNode "C"),
    .set (.shortcuts 0 true), .set (.cost 0 10), .set (.configured 0 none),
    .set (.shortcuts 0 false)]

/-- the session is one of the theorem, results differ on the way, and everything is back at the
end -/
example (k : Kind) : Tidy (Ex.leased k) ∧ Wired (Ex.leased k) ∧ SrlgsMatch (Ex.leased k) ∧
    MemberIfcsDown (Ex.leased k) ∧ raised (updateSimulation Env.default) (Ex.leased k) = none ∧
    Session Env.default (Move.Allowed Env.default) (Ex.tuned k []) (Ex.tuned k Ex.trial) ∧
    SameSettings (Ex.leased k) (Ex.tuned k Ex.trial) ∧
    SameStatus (Ex.leased k) (Ex.tuned k Ex.trial) ∧
    ¬ SameSettings (Ex.leased k) (Ex.tuned k (Ex.trial.take 8)) ∧
    ((Ex.tuned k []).lsp 0).reserved = .val 10 ∧
    ((Ex.tuned k (Ex.trial.take 8)).lsp 0).reserved = .val 3 := by
  refine ⟨?_, ?_, ?_, ?_, ?_, ?_, ?_, ?_, ?_, ?_, ?_⟩
  case refine_6 => exact Ex.sessionOf _ _ (.start _) (by cases k <;> decide +kernel)
  all_goals cases k <;> decide +kernel

/-- two sessions that end with the same settings and the same interfaces failed -/
example (k : Kind) : Tidy (Ex.tuned k []) ∧ Wired (Ex.tuned k []) ∧
    SrlgsMatch (Ex.tuned k []) ∧ MemberIfcsDown (Ex.tuned k []) ∧
    Session Env.default (Move.Allowed Env.default) (Ex.tuned k [])
      (Ex.tuned k [.set (.cost 0 30), .call (.failSrlg "h"), .call .simulate,
        .set (.traffic 0 7)]) ∧
    Session Env.default (Move.Allowed Env.default) (Ex.tuned k [])
      (Ex.tuned k [.set (.traffic 0 7), .call (.failInterface "ab1" "A"), .set (.cost 0 30)]) ∧
    SameSettings
      (Ex.tuned k [.set (.cost 0 30), .call (.failSrlg "h"), .call .simulate,
        .set (.traffic 0 7)])
      (Ex.tuned k [.set (.traffic 0 7), .call (.failInterface "ab1" "A"), .set (.cost 0 30)]) ∧
    SameStatus
      (Ex.tuned k [.set (.cost 0 30), .call (.failSrlg "h"), .call .simulate,
        .set (.traffic 0 7)])
      (Ex.tuned k [.set (.traffic 0 7), .call (.failInterface "ab1" "A"), .set (.cost 0 30)]) := by
  refine ⟨?_, ?_, ?_, ?_, ?_, ?_, ?_, ?_⟩
  case refine_5 => exact Ex.sessionOf _ _ (.start _) (by cases k <;> decide +kernel)
  case refine_6 => exact Ex.sessionOf _ _ (.start _) (by cases k <;> decide +kernel)
  all_goals cases k <;> decide +kernel

end NTM
