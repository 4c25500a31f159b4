import Verif.Proof.RestoreNode
import Verif.Props.WhatIf

/-!
# C108: everything can be repaired

After any what-if session, repairing every SRLG, then every node, then every interface, in any order
within each class and whatever the calls raise, leaves nothing failed.
-/

namespace NTM

open Spec

namespace Spec

/-- a call of a what-if session whose simulations, if any, reserve no more than there is -/
def Call.Sound (env : Env) (s : State) (c : Call) : Prop :=
  c.Probes env s ∧ (c = .simulate → RsvpReady (finalState (updateSimulation env) s))

/-- the state after the calls, a `ModelException` of any of them being caught by the caller -/
def runAll (env : Env) (cs : List Call) (s : State) : State :=
  cs.foldl (fun s c => finalState (c.run env) s) s

/-- the SRLGs that nodes and interfaces belong to are SRLGs of the model -/
def SrlgsListed (s : State) : Prop :=
  (∀ n ∈ s.nodes, ∀ g ∈ (s.node n).srlgs, g ∈ s.srlgs) ∧
  ∀ i ∈ s.ifs, ∀ g ∈ (s.ifc i).srlgs, g ∈ s.srlgs

instance (s : State) : Decidable (SrlgsListed s) := by unfold SrlgsListed; infer_instance

/-- nothing is failed -/
def AllUp (s : State) : Prop :=
  (∀ g ∈ s.srlgs, (s.srlg g).failed = false) ∧ (∀ n ∈ s.nodes, (s.node n).failed = false) ∧
  ∀ i ∈ s.ifs, (s.ifc i).failed = false

instance (s : State) : Decidable (AllUp s) := by unfold AllUp; infer_instance

/-- the calls that repair SRLGs `gs`, then nodes `ns`, then interfaces `is`, by their names in `s`;
`e` is the flag of `unfail_interface` -/
def repairs (s : State) (gs ns is : List ℕ) (e : Bool) : List Call :=
  gs.map (fun g => .unfailSrlg (s.srlg g).name) ++ ns.map (fun n => .unfailNode (s.node n).name) ++
    is.map fun i => .unfailInterface (s.ifc i).name (s.tail i) e

end Spec

theorem base_simulate {env : Env} {s t : State} (h : Base s)
    (hr : updateSimulation env s = .ok () t) (rr : RsvpReady t) : Base t := by
  have hE : EndsInv t := of_wp_ok (stays_simBody env _ endsInv_cfg (endsInv.valid env) s h.2.1) hr
  have hD : DownInv t := of_wp_ok (stays_simBody env _ downInv_cfg (downInv.valid env) s h.2.2) hr
  refine ⟨?_, hE, hD⟩
  unfold updateSimulation at hr
  obtain ⟨_, s0, h0, hr⟩ := py_bind_inv hr
  have : s0 = s.resetSim := by cases h0; rfl
  subst this
  obtain ⟨_, s1, hl, hr⟩ := py_bind_inv hr
  obtain ⟨_, u, hd, hv⟩ := py_bind_inv hr
  have c1 : SameCfg s s.resetSim := (SameCfg.frame.refl s).resetSim
  have c2 := of_wp_ok (stays_routeLsps (s0 := s) env s.resetSim c1) hl
  have c := of_wp_ok (stays_routeDemands (s0 := s) env s1 c2) hd
  have hEu : EndsInv u := endsInv_cfg _ _ h.2.1 c
  have hck := of_wp_ok (validate_checked env hEu.1.ids) hv
  have hl : Looser t u := by
    obtain ⟨C, B, I, F, rfl, -, hF⟩ := hck
    intro i
    have : F i = false := by
      cases hf : F i
      · rfl
      · obtain ⟨j, hj, hi, ho, hne⟩ := hF i hf
        exact absurd (hEu.2.1 i hi j hj ho) hne
    unfold State.fell
    simp only [this]
    exact ⟨rfl, rfl, rfl, .inl rfl⟩
  have ru : RsvpReady u := ready_congr rr hck.sameNet.ifs.symm hl
  have mu : MatchInv u := ⟨hEu.1, h.1.2.1.congr c.sameNet fun i => by rw [c.ifc i], hEu.2.2.2, ru⟩
  exact of_wp_ok (matchInv_validate env u mu) hv

/-- what a session leaves alone -/
def Kin (s t : State) : Prop := Base t ∧ Loose s t

theorem kin_step (env : Env) {s : State} (hs : Tidy s) (t : State) (c : Call)
    (h : Kin s t) (hc : c.Sound env t) : Kin s (finalState (c.run env) t) := by
  have hl := (probes_step env hs t c ⟨h.1.2.1, h.2⟩ hc.1).2
  refine ⟨?_, hl⟩
  have hI := baseInv
  have hb := h.1
  obtain ⟨hc, hsim⟩ := hc
  cases c with
  | failInterface a b => exact final_of_wp (hI.failInterface a b t hb)
  | unfailInterface a b e => exact final_of_wp (hI.unfailInterface env a b e t hb)
  | interfaceFail i => exact final_of_wp (hI.ifcFail i t hb hc)
  | interfaceUnfail i => exact final_of_wp (hI.ifcUnfail i t hb hc)
  | failNode a => exact final_of_wp (hI.failNode a t hb)
  | unfailNode a => exact final_of_wp (hI.unfailNode env a t hb)
  | failSrlg a => exact final_of_wp (hI.failSrlg a t hb)
  | unfailSrlg a => exact final_of_wp (hI.unfailSrlg env a t hb)
  | validate => exact final_of_wp (hI.valid env t hb)
  | simulate =>
    exact base_simulate hb (ok_of_raised (show raised (updateSimulation env) t = none from hc))
      (hsim rfl)
  | addSrlg | joinIfc | leaveIfc | joinNode | leaveNode => exact hc.elim

/-- repeated calls reach what each of them reaches and none undoes -/
theorem sweep {α : Type} (env : Env) (f : α → Call) (K : State → Prop) (D : α → State → Prop)
    (all : List α) (h : ∀ x ∈ all, ∀ t, K t → K (finalState ((f x).run env) t) ∧
      D x (finalState ((f x).run env) t) ∧
      ∀ y ∈ all, D y t → D y (finalState ((f x).run env) t)) :
    ∀ (xs : List α) (t : State) (done : α → Prop), (∀ x ∈ xs, x ∈ all) → K t →
      (∀ y ∈ all, done y → D y t) →
      K (runAll env (xs.map f) t) ∧ ∀ y ∈ all, done y ∨ y ∈ xs → D y (runAll env (xs.map f) t) := by
  intro xs
  induction xs with
  | nil =>
    intro t done _ hK hd
    exact ⟨hK, fun y hy h => hd y hy (h.resolve_right (by simp))⟩
  | cons x xs ih =>
    intro t done hx hK hd
    obtain ⟨k1, k2, k3⟩ := h x (hx x (by simp)) t hK
    have := ih (finalState ((f x).run env) t) (fun y => done y ∨ y = x)
      (fun y hy => hx y (by simp [hy])) k1 (by
        rintro y hy (hy' | rfl)
        · exact k3 y hy (hd y hy hy')
        · exact k2)
    refine ⟨this.1, fun y hy hy' => this.2 y hy ?_⟩
    rcases hy' with h | h
    · exact .inl (.inl h)
    · rcases List.mem_cons.1 h with rfl | h
      · exact .inl (.inr rfl)
      · exact .inr h

theorem runAll_append (env : Env) (a b : List Call) (s : State) :
    runAll env (a ++ b) s = runAll env b (runAll env a s) := by
  unfold runAll; rw [List.foldl_append]

theorem Loose.nodeName {s t : State} (h : Loose s t) (n : ℕ) : (t.node n).name = (s.node n).name := by
  rw [h.node n]

theorem Loose.tail {s t : State} (h : Loose s t) (i : ℕ) : t.tail i = s.tail i := by
  unfold State.tail
  rw [h.nodeName, h.core.ifc i]

theorem repairs_kin {env : Env} {s t : State} (ht : Tidy s) (hl : SrlgsListed s) (h : Kin s t)
    {gs ns is : List ℕ} (hg : ∀ g, g ∈ gs ↔ g ∈ s.srlgs) (hn : ∀ n, n ∈ ns ↔ n ∈ s.nodes)
    (hi : ∀ i, i ∈ is ↔ i ∈ s.ifs) (e : Bool) :
    Kin s (runAll env (repairs s gs ns is e) t) ∧ AllUp (runAll env (repairs s gs ns is e) t) := by
  unfold repairs
  rw [runAll_append, runAll_append]
  -- the SRLGs
  have p1 := sweep env (fun g => .unfailSrlg (s.srlg g).name) (Kin s)
    (fun g t => (t.srlg g).failed = false) gs (fun g hgm t hk => by
      have hname : (t.srlg g).name = (s.srlg g).name := by rw [hk.2.srlg g]
      have hgt : g ∈ t.srlgs := by rw [hk.2.core.srlgs]; exact (hg g).1 hgm
      have hu := final_of_wp (wp_mono (unfailSrlg_spec env hk.1 hgt) (fun _ u h => ⟨h.1, h.2.1⟩)
        (fun _ u h => h))
      rw [hname] at hu
      refine ⟨kin_step env ht t _ hk ⟨trivial, by simp⟩, ?_, fun y _ hy => ?_⟩
      · show ((finalState (unfailSrlg env (s.srlg g).name) t).srlg g).failed = false
        rw [hu.2.srlg]
        unfold State.setSrlg State.updSrlg
        simp
      · show ((finalState (unfailSrlg env (s.srlg g).name) t).srlg y).failed = false
        rw [hu.2.srlg]
        unfold State.setSrlg State.updSrlg
        simp only []
        split
        · rfl
        · exact hy) gs t (fun _ => False) (fun _ h => h) h (fun _ _ h => h.elim)
  set t1 := runAll env (gs.map fun g => .unfailSrlg (s.srlg g).name) t with ht1
  have up1 : ∀ g ∈ s.srlgs, (t1.srlg g).failed = false := fun g hgm =>
    p1.2 g ((hg g).2 hgm) (.inr ((hg g).2 hgm))
  clear_value t1
  -- the nodes
  have p2 := sweep env (fun n => .unfailNode (s.node n).name)
    (fun t => Kin s t ∧ ∀ g ∈ s.srlgs, (t.srlg g).failed = false)
    (fun n t => (t.node n).failed = false) ns (fun n hnm t hk => by
      obtain ⟨hk, hup⟩ := hk
      have hnt : n ∈ t.nodes := by rw [hk.2.core.nodes]; exact (hn n).1 hnm
      have hheld : t.nodeHeld n = false := by
        by_contra hc
        obtain ⟨g, hgm, hgf⟩ := nodeHeld_iff.1 (by simpa using hc)
        rw [hk.2.node n] at hgm
        rw [hup g (hl.1 n ((hn n).1 hnm) g hgm)] at hgf
        cases hgf
      have hc := final_of_wp ((climbAll t).unfailNode env (t.node n).name t ⟨hk.1, Climb.refl t⟩)
      have hu := final_of_wp (unfailNode_up env hk.1 hnt hheld)
      rw [hk.2.nodeName] at hc hu
      refine ⟨⟨kin_step env ht t _ hk ⟨trivial, by simp⟩, fun g hgm => ?_⟩, hu, fun y hy hyf => ?_⟩
      · show ((finalState (unfailNode env (s.node n).name) t).srlg g).failed = false
        rw [hc.2.srlg]; exact hup g hgm
      · exact hc.2.nup y (by rw [hk.2.core.nodes]; exact (hn y).1 hy) hyf)
    ns t1 (fun _ => False) (fun _ h => h) ⟨p1.1, up1⟩ (fun _ _ h => h.elim)
  set t2 := runAll env (ns.map fun n => .unfailNode (s.node n).name) t1 with ht2
  have up2 : ∀ n ∈ s.nodes, (t2.node n).failed = false := fun n hnm =>
    p2.2 n ((hn n).2 hnm) (.inr ((hn n).2 hnm))
  clear_value t2
  -- the interfaces
  have p3 := sweep env (fun i => .unfailInterface (s.ifc i).name (s.tail i) e)
    (fun t => (Kin s t ∧ ∀ g ∈ s.srlgs, (t.srlg g).failed = false) ∧
      ∀ n ∈ s.nodes, (t.node n).failed = false)
    (fun i t => (t.ifc i).failed = false) is (fun i him t hk => by
      obtain ⟨⟨hk, hup⟩, hnup⟩ := hk
      have hit : i ∈ t.ifs := by rw [hk.2.ifs]; exact (hi i).1 him
      have hheld : t.ifcHeld i = false := by
        by_contra hc
        obtain ⟨g, hgm, hgf⟩ := ifcHeld_iff.1 (by simpa using hc)
        rw [hk.2.core.ifc i] at hgm
        rw [hup g (hl.2 i ((hi i).1 him) g hgm)] at hgf
        cases hgf
      have hends := hk.1.1.1.ends i hit
      rw [hk.2.core.nodes] at hends
      have hc := final_of_wp ((climbAll t).unfailInterface env (t.ifc i).name (t.tail i) e t
        ⟨hk.1, Climb.refl t⟩)
      have hu := final_of_wp (unfailInterface_up env e hk.1 hit (hnup _ hends.1) (hnup _ hends.2)
        hheld)
      rw [hk.2.tail, show (t.ifc i).name = (s.ifc i).name by rw [hk.2.core.ifc i]] at hc hu
      refine ⟨⟨⟨kin_step env ht t _ hk ⟨trivial, by simp⟩, fun g hgm => ?_⟩, fun n hnm => ?_⟩, hu,
        fun y hy hyf => ?_⟩
      · show ((finalState (unfailInterface env (s.ifc i).name (s.tail i) e) t).srlg g).failed = false
        rw [hc.2.srlg]; exact hup g hgm
      · exact hc.2.nup n (by rw [hk.2.core.nodes]; exact hnm) (hnup n hnm)
      · exact hc.2.up y (by rw [hk.2.ifs]; exact (hi y).1 hy) hyf)
    is t2 (fun _ => False) (fun _ h => h) ⟨p2.1, up2⟩ (fun _ _ h => h.elim)
  set t3 := runAll env (is.map fun i => .unfailInterface (s.ifc i).name (s.tail i) e) t2 with ht3
  obtain ⟨⟨⟨hk, ug⟩, un⟩, ui⟩ := p3
  clear_value t3
  refine ⟨hk, fun g hgm => ug g (by rw [← hk.2.core.srlgs]; exact hgm),
    fun n hnm => un n (by rw [← hk.2.core.nodes]; exact hnm), fun i him => ?_⟩
  have him' : i ∈ is := (hi i).2 (by rw [← hk.2.ifs]; exact him)
  exact ui i him' (.inr him')

/-- **C108** After any what-if session on a valid model, calling `unfail_srlg` for every SRLG, then
`unfail_node` for every node, then `unfail_interface` for every interface, in any order within each
of the three, repeated at will and whatever the calls raise, leaves nothing failed. -/
theorem C108_full_repair {env env2 : Env} {s t : State} (ht : Tidy s) (hw : Wired s)
    (hid : IdsMatch s) (hm : SrlgsMatch s) (hr : RsvpReady s) (hn : MemberNodesDown s)
    (hd : MemberIfcsDown s) (hl : SrlgsListed s) (h : History env (Call.Sound env) s t)
    {gs ns is : List ℕ} (hgs : ∀ g, g ∈ gs ↔ g ∈ s.srlgs) (hns : ∀ n, n ∈ ns ↔ n ∈ s.nodes)
    (his : ∀ i, i ∈ is ↔ i ∈ s.ifs) (e : Bool) :
    AllUp (runAll env2 (repairs s gs ns is e) t) := by
  have hk : Kin s t := h.keeps (fun u c => kin_step env ht u c)
    ⟨⟨⟨hw, hid, hm, hr⟩, ⟨hw, ht.ends, hd, hm⟩, hw, hn, hd⟩, Loose.refl s⟩
  exact (repairs_kin ht hl hk hgs hns his e).2

/-- **C108** If nothing was failed before the session, simulating after the repair, with the random
choices of the first simulation, succeeds with the results of the first simulation. -/
theorem C108_recovers {env env2 env3 : Env} {s s1 t : State} (ht : Tidy s) (hw : Wired s)
    (hid : IdsMatch s) (hm : SrlgsMatch s) (hr : RsvpReady s) (hl : SrlgsListed s) (hup : AllUp s)
    (h1 : updateSimulation env s = .ok () s1) (hr1 : RsvpReady s1)
    (h : History env2 (Call.Sound env2) s1 t)
    {gs ns is : List ℕ} (hgs : ∀ g, g ∈ gs ↔ g ∈ s.srlgs) (hns : ∀ n, n ∈ ns ↔ n ∈ s.nodes)
    (his : ∀ i, i ∈ is ↔ i ∈ s.ifs) (e : Bool) :
    ∃ s5, updateSimulation env
        { runAll env3 (repairs s gs ns is e) t with rngPos := s.rngPos } = .ok () s5 ∧
      SameResults s1 s5 := by
  have hn : MemberNodesDown s := by
    intro n hn g hg hf
    rw [hup.1 g (hl.1 n hn g hg)] at hf; cases hf
  have hd : MemberIfcsDown s := by
    intro i hi g hg hf
    rw [hup.1 g (hl.2 i hi g hg)] at hf; cases hf
  have hraise : raised (updateSimulation env) s = none := by unfold raised; rw [h1]
  have hfin : finalState (updateSimulation env) s = s1 := by unfold finalState; rw [h1]
  have hk1 : Kin s s1 := by
    have := kin_step env ht s .simulate
      ⟨⟨⟨hw, hid, hm, hr⟩, ⟨hw, ht.ends, hd, hm⟩, hw, hn, hd⟩, Loose.refl s⟩
      ⟨hraise, fun _ => by rw [hfin]; exact hr1⟩
    rwa [show finalState (Call.simulate.run env) s = s1 from hfin] at this
  have hk : Kin s t := h.keeps (fun u c => kin_step env2 ht u c) hk1
  obtain ⟨k, ug, un, ui⟩ := repairs_kin (env := env3) ht hl hk hgs hns his e
  refine rerun_of_same hw.keys h1 (k.2.same (fun i hi => ?_) fun n hn => ?_)
  · rw [ui i (by rw [k.2.ifs]; exact hi), hup.2.2 i hi]
  · rw [un n (by rw [k.2.core.nodes]; exact hn), hup.2.1 n hn]

deriving instance DecidableEq for Spec.Call

instance (env : Env) (s : State) (c : Call) : Decidable (c.Sound env s) := by
  unfold Call.Sound; infer_instance

/-- each of the calls is allowed when its turn comes -/
def Ex.soundAll (env : Env) : List Call → State → Prop
  | [], _ => True
  | c :: cs, s => c.Sound env s ∧ Ex.soundAll env cs (finalState (c.run env) s)

instance Ex.decSoundAll (env : Env) : (cs : List Call) → (s : State) → Decidable (Ex.soundAll env cs s)
  | [], _ => isTrue trivial
  | c :: cs, s =>
    have := Ex.decSoundAll env cs (finalState (c.run env) s)
    inferInstanceAs (Decidable (_ ∧ _))

theorem Ex.soundHistory {env : Env} {r : State} : ∀ (cs : List Call) (s : State),
    History env (Call.Sound env) r s → Ex.soundAll env cs s →
    History env (Call.Sound env) r (runAll env cs s)
  | [], _, h, _ => h
  | c :: cs, _, h, hg => Ex.soundHistory cs _ (.call c h hg.1) hg.2

/-- two overlapping SRLGs and a node fail, one of the SRLGs is repaired in vain, with a simulation in
between -/
def Ex.storm : List Call :=
  [.failSrlg "g", .failSrlg "h", .simulate, .failNode "D", .unfailSrlg "h", .unfailInterface "ab1" "A" true]

/-- after the first simulation of the network with two SRLGs -/
def Ex.calm (k : Kind) : State := finalState (updateSimulation Env.default) (Ex.risk k)

/-- the hypotheses are met by a session that leaves two nodes failed, one of them held by an SRLG -/
example (k : Kind) : Tidy (Ex.risk k) ∧ Wired (Ex.risk k) ∧ IdsMatch (Ex.risk k) ∧
    SrlgsMatch (Ex.risk k) ∧ RsvpReady (Ex.risk k) ∧ SrlgsListed (Ex.risk k) ∧ AllUp (Ex.risk k) ∧
    raised (updateSimulation Env.default) (Ex.risk k) = none ∧ RsvpReady (Ex.calm k) ∧
    History Env.default (Call.Sound Env.default) (Ex.calm k)
      (runAll Env.default Ex.storm (Ex.calm k)) ∧
    ((Ex.risk k).nodes.filter fun n =>
      ((runAll Env.default Ex.storm (Ex.calm k)).node n).failed) = [2, 3] ∧
    AllUp (runAll Env.default (repairs (Ex.risk k) [1, 0] [3, 2, 1, 0] (Ex.risk k).ifs true)
      (runAll Env.default Ex.storm (Ex.calm k))) := by
  refine ⟨?_, ?_, ?_, ?_, ?_, ?_, ?_, ?_, ?_, ?_, ?_, ?_⟩
  case refine_10 => exact Ex.soundHistory _ _ (.start _) (by cases k <;> decide +kernel)
  all_goals cases k <;> decide +kernel

/-- four nodes in a ring; the circuit between A and B is an SRLG of its own -/
def Ex.lone (k : Kind) : State := Ex.mk k
  [{ name := "A" }, { name := "B" }, { name := "C" }, { name := "D" }]
  ((Ex.link "ab" 0 1 10 100 1).map (fun i => { i with srlgs := [0] }) ++
    Ex.link "bd" 1 3 10 100 2 ++ Ex.link "ac" 0 2 10 100 3 ++ Ex.link "cd" 2 3 10 100 4)
  [{ src := 0, dst := 3, traffic := 10, name := "x" }]
  [] [{ name := "h" }]

/-- **C108** is false of the opposite order: after failing node A and the SRLG, repairing every
interface, then every node (last one first), then the SRLG, leaves the circuit between A and C
failed, because `unfail_node` gives up at the circuit that the SRLG still holds. The order of the
theorem repairs everything. -/
theorem C108_other_order_false (k : Kind) :
    AllUp (Ex.lone k) ∧ Tidy (Ex.lone k) ∧ Wired (Ex.lone k) ∧ SrlgsListed (Ex.lone k) ∧
    ¬ AllUp (runAll Env.default
      (((Ex.lone k).ifs.map fun i => Call.unfailInterface ((Ex.lone k).ifc i).name ((Ex.lone k).tail i) false) ++
        ["D", "C", "B", "A"].map Call.unfailNode ++ [Call.unfailSrlg "h"])
      (runAll Env.default [.failNode "A", .failSrlg "h"] (Ex.lone k))) ∧
    AllUp (runAll Env.default (repairs (Ex.lone k) [0] [3, 2, 1, 0] (Ex.lone k).ifs false)
      (runAll Env.default [.failNode "A", .failSrlg "h"] (Ex.lone k))) := by
  refine ⟨?_, ?_, ?_, ?_, ?_, ?_⟩ <;> cases k <;> decide +kernel

end NTM
