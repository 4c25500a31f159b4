import Verif.Proof.Recfg
import Verif.Proof.RoundTrip
import Verif.Props.Carry
import Verif.Props.Failure

/-!
# C76 and C82: running a simulation again, and undoing a failure
-/

namespace NTM

open Spec

theorem rerun_of_same {env : Env} {s s' t : State} (hu : UniqueIfcKeys s)
    (hrun : updateSimulation env s = .ok () s') (h : SameConfig s t) :
    ∃ t', updateSimulation env t = .ok () t' ∧ SameResults s' t' := by
  have := C55_no_carry_over env hu h
  rw [hrun] at this
  cases hx : updateSimulation env t with
  | ok a t' => rw [hx] at this; exact ⟨t', rfl, this⟩
  | error e t' => rw [hx] at this; exact this.elim

/-- **C76** Running `update_simulation()` once more, with the random choices repeated, succeeds
and gives the same results. -/
theorem C76_rerun {env : Env} {s s' : State} (ht : Tidy s) (hu : UniqueIfcKeys s)
    (hrun : updateSimulation env s = .ok () s') :
    ∃ t, updateSimulation env { s' with rngPos := s.rngPos } = .ok () t ∧ SameResults s' t :=
  rerun_of_same hu hrun
    ((Recfg.simulation ht hrun).same (Recfg.simulation_failed ht hrun))

/-- **C76** A run that needed no random choice can be repeated as it is, any number of times. -/
theorem C76_rerun_deterministic {env : Env} {s s' : State} (ht : Tidy s) (hu : UniqueIfcKeys s)
    (hrun : updateSimulation env s = .ok () s') (hd : s'.rngPos = s.rngPos) (n : ℕ) :
    ∃ t, forEach (List.range n) (fun _ => updateSimulation env) s' = .ok () t ∧
      SameResults s' t := by
  have key : ∀ (l : List ℕ) (u : State), SameResults s' u → Recfg s u →
      (∀ i, (u.ifc i).failed = (s.ifc i).failed) → u.rngPos = s.rngPos → Tidy u →
      ∃ t, forEach l (fun _ => updateSimulation env) u = .ok () t ∧ SameResults s' t := by
    intro l
    induction l with
    | nil => intro u hs _ _ _ _; exact ⟨u, rfl, hs⟩
    | cons a l ih =>
      intro u hs hc hf hp htu
      have hsame := hc.same hf
      rw [show ({ u with rngPos := s.rngPos } : State) = u by rw [← hp]] at hsame
      obtain ⟨v, hv, hres⟩ := rerun_of_same hu hrun hsame
      have hcv := Recfg.simulation htu hv
      have hfv : ∀ i, (v.ifc i).failed = (s.ifc i).failed := fun i =>
        (Recfg.simulation_failed htu hv i).trans (hf i)
      have hpv : v.rngPos = s.rngPos := hres.draws.trans hd
      have hcsv := hc.trans hcv
      obtain ⟨t, h1, h2⟩ := ih v hres hcsv hfv hpv (hcsv.tidy ht (by
        intro i hi j hj hij
        rw [hfv, hfv]
        exact ht.ends i (hcsv.ifs ▸ hi) j (hcsv.ifs ▸ hj) ((hcsv.net.opposite i j).1 hij)))
      refine ⟨t, ?_, h2⟩
      show (updateSimulation env >>= fun _ => forEach l fun _ => updateSimulation env) u = _
      rw [py_bind_ok hv]
      exact h1
  have hc := Recfg.simulation ht hrun
  have hf := Recfg.simulation_failed ht hrun
  refine key _ s' ⟨rfl, rfl, rfl, fun _ _ => rfl, fun _ _ _ => rfl, fun _ _ => rfl,
    fun _ _ => rfl, fun _ _ => rfl, fun _ _ => rfl, fun _ _ _ => rfl, rfl, rfl⟩ hc hf hd ?_
  refine hc.tidy ht ?_
  intro i hi j hj hij
  rw [hf, hf]
  exact ht.ends i (hc.ifs ▸ hi) j (hc.ifs ▸ hj) ((hc.net.opposite i j).1 hij)

/-- the hypotheses hold for the diamond, where two of three LSPs are routed and carry a demand -/
example (k : Kind) : Tidy (Ex.diamond k) ∧ UniqueIfcKeys (Ex.diamond k) ∧
    raised (updateSimulation Env.default) (Ex.diamond k) = none ∧
    ((finalState (updateSimulation Env.default) (Ex.diamond k)).dmd 0).path =
      some [[.lsp 0], [.lsp 1]] := by
  refine ⟨?_, ?_, ?_, ?_⟩ <;> cases k <;> decide +kernel

/-- a triangle in which the LSP has one cheapest path -/
def Ex.triangle (k : Kind) : State := Ex.mk k [{ name := "A" }, { name := "B" }, { name := "C" }]
  (Ex.link "ab" 0 1 10 100 1 ++ Ex.link "bc" 1 2 10 100 2 ++ Ex.link "ac" 0 2 30 100 3)
  [{ src := 0, dst := 2, traffic := 7, name := "x" }, { src := 2, dst := 1, traffic := 3, name := "y" }]
  [{ src := 0, dst := 2, name := "l" }] []

/-- an LSP routed without a random choice -/
example (k : Kind) : Tidy (Ex.triangle k) ∧ UniqueIfcKeys (Ex.triangle k) ∧
    raised (updateSimulation Env.default) (Ex.triangle k) = none ∧
    (finalState (updateSimulation Env.default) (Ex.triangle k)).rngPos = (Ex.triangle k).rngPos ∧
    ((finalState (updateSimulation Env.default) (Ex.triangle k)).dmd 0).path = some [[.lsp 0]] := by
  refine ⟨?_, ?_, ?_, ?_, ?_⟩ <;> cases k <;> decide +kernel

/-- **C82** What-if analysis leaves no trace.  Simulate; fail an interface that is up; simulate;
restore the interface; simulate with the random choices of the first run: the last simulation
succeeds with the results of the first, LSPs included. -/
theorem C82_what_if {env env2 env3 : Env} {e : Bool} {s s1 s2 s3 s4 : State} (ht : Tidy s)
    (hw : Wired s) {i : ℕ} (hi : i ∈ s.ifs) (hup : (s.ifc i).failed = false)
    (hn1 : (s.node (s.ifc i).node).failed = false)
    (hn2 : (s.node (s.ifc i).remote).failed = false)
    (h1 : updateSimulation env s = .ok () s1)
    (h2 : failInterface (s.ifc i).name (s.tail i) s1 = .ok () s2)
    (h3 : updateSimulation env2 s2 = .ok () s3)
    (h4 : unfailInterface env3 (s.ifc i).name (s.tail i) e s3 = .ok () s4) :
    ∃ s5, updateSimulation env { s4 with rngPos := s.rngPos } = .ok () s5 ∧
      SameResults s1 s5 := by
  have c1 := Recfg.simulation ht h1
  have f1 := Recfg.simulation_failed ht h1
  have hw1 := hw.congr c1.net
  -- the failure
  obtain ⟨i', hi', r, hr, hkey, hopp, e2⟩ := of_wp_ok (failInterface_spec s1 _ _) h2
  have hii : i' = i := by
    refine hw1.keys i' hi' i (by rw [c1.ifs]; exact hi) ?_
    rw [hkey]
    unfold State.ifcKey
    rw [c1.net.ifcName, c1.net.tail]
  subst hii
  have c2 : Recfg s1 s2 := by
    rw [e2]
    refine Recfg.fell fun k hk => ?_
    unfold pairOf at hk
    rw [Bool.or_eq_true, decide_eq_true_eq, decide_eq_true_eq] at hk
    rcases hk with rfl | rfl
    · exact hi'
    · exact hr
  have f2 : ∀ k, (s2.ifc k).failed = (pairOf i' r k || (s.ifc k).failed) := by
    intro k; rw [e2, fell_failed, f1]
  have c12 := c1.trans c2
  have hw2 := hw.congr c12.net
  have hopps : Opposite s i' r := (c1.net.opposite i' r).1 hopp
  have hrs : r ∈ s.ifs := c1.ifs ▸ hr
  have hupr : (s.ifc r).failed = false := by rw [← ht.ends i' hi r hrs hopps]; exact hup
  have hclosed : TwinClosed s (pairOf i' r) := pairOf_closed hw hi hrs hopps
  have ends2 : EndsAgree s2 := by
    intro a ha b hb hab
    rw [c12.ifs] at ha hb
    have hab' := (c12.net.opposite a b).1 hab
    rw [f2, f2, ht.ends a ha b hb hab']
    congr 1
    rw [Bool.eq_iff_iff]
    exact ⟨hclosed.twin a ha b hb hab', hclosed.twin b hb a ha (opposite_symm hab')⟩
  have ht2 := c12.tidy ht ends2
  -- the second simulation
  have c3 := Recfg.simulation ht2 h3
  have f3 := Recfg.simulation_failed ht2 h3
  have c13 := c12.trans c3
  have hw3 := hw.congr c13.net
  have hi3 : i' ∈ s3.ifs := by rw [c13.ifs]; exact hi
  -- the repair
  have hget := getIfc_eq hw3 hi3
  rw [c13.net.ifcName, c13.net.tail] at hget
  obtain ⟨r', hrem⟩ : ∃ r', s3.remoteIfc i' = .ok r' := by
    cases hx : s3.remoteIfc i' with
    | ok r' => exact ⟨r', rfl⟩
    | error x =>
      unfold unfailInterface at h4
      rw [py_bind_ok (show (get : Py State) s3 = .ok s3 s3 from rfl), hget,
        py_bind_ok (show liftE (.ok i') s3 = .ok i' s3 from rfl), hx] at h4
      obtain ⟨_, _, h, -⟩ := py_bind_inv h4
      cases h
  obtain ⟨hr3, hopp3, -⟩ := remote_opposite hi3 hrem
  have hrr : r' = r := by
    refine hw.twin_unique (c13.ifs ▸ hr3) hrs ((c13.net.opposite i' r').1 hopp3) hopps
  subst hrr
  have n1 : (s3.node (s3.ifc i').node).failed = false := by
    rw [c13.node, c13.net.node]; exact hn1
  have n2 : (s3.node (s3.ifc i').remote).failed = false := by
    rw [c13.node, c13.net.remote]; exact hn2
  have e3 : (s3.ifc r').node = (s3.ifc i').remote :=
    hw3.node_inj (hw3.ends r' hr3).1 (hw3.ends i' hi3).2 hopp3.2.1.symm
  have e4 : (s3.ifc r').remote = (s3.ifc i').node :=
    hw3.node_inj (hw3.ends r' hr3).2 (hw3.ends i' hi3).1 hopp3.1.symm
  rw [unfailInterface_eq env3 _ _ e hw3 hget hrem, if_pos ⟨n1, n2⟩] at h4
  obtain ⟨_, w, hb, hv⟩ := py_bind_inv h4
  obtain ⟨-, -, hwq⟩ := of_wp_ok (bringUp_spec hw3 hr3 hi3 (opposite_symm hopp3)
    (by rw [e3]; exact n2) (by rw [e4]; exact n1)) hb
  have cw : Recfg s3 w := by
    rw [hwq]
    refine Recfg.trans (t := s3.upIfc r') Recfg.upIfc ?_
    refine Recfg.trans (Recfg.setReserved (s := s3.upIfc r') hr3 0) ?_
    refine Recfg.trans (t := ((s3.upIfc r').setReserved r' 0).upIfc i') Recfg.upIfc ?_
    exact Recfg.setReserved (s := ((s3.upIfc r').setReserved r' 0).upIfc i') hi3 0
  have fw : ∀ k, (w.ifc k).failed = (s.ifc k).failed := by
    intro k
    have h0 : (s3.ifc k).failed = (pairOf i' r' k || (s.ifc k).failed) := (f3 k).trans (f2 k)
    rw [hwq]
    unfold State.setReserved State.upIfc State.updIfc
    unfold pairOf at h0
    by_cases k1 : k = i' <;> by_cases k2 : k = r'
    · simp [k1, hup]
    · subst k1; simp [hup]
    · subst k2; simp [k1, hupr]
    · simp [k1, k2] at h0 ⊢; exact h0
  have c1w := c13.trans cw
  have endsw : EndsAgree w := by
    intro a ha b hb hab
    rw [fw, fw]
    exact ht.ends a (c1w.ifs ▸ ha) b (c1w.ifs ▸ hb) ((c1w.net.opposite a b).1 hab)
  have hck := of_wp_ok (validate_checked (s := w) env3 (hw.congr c1w.net).ids) hv
  have c14 := c1w.trans (Recfg.checked hck)
  have f4 : ∀ k, (s4.ifc k).failed = (s.ifc k).failed := fun k =>
    (hck.failed endsw k).trans (fw k)
  exact rerun_of_same hw.keys h1 (c14.same f4)

/-- the diamond and its first failed circuit -/
def Ex.diamondRun (k : Kind) : State := finalState (updateSimulation Env.default) (Ex.diamond k)
def Ex.diamondCut (k : Kind) : State := finalState (failInterface "ab1" "A") (Ex.diamondRun k)
def Ex.diamondRerun (k : Kind) : State :=
  finalState (updateSimulation Env.default) (Ex.diamondCut k)

/-- every step of the cycle succeeds on the diamond, and the failure does change the results -/
example (k : Kind) : Tidy (Ex.diamond k) ∧ Wired (Ex.diamond k) ∧
    raised (updateSimulation Env.default) (Ex.diamond k) = none ∧
    raised (failInterface "ab1" "A") (Ex.diamondRun k) = none ∧
    raised (updateSimulation Env.default) (Ex.diamondCut k) = none ∧
    raised (unfailInterface Env.default "ab1" "A" true) (Ex.diamondRerun k) = none ∧
    ((Ex.diamondRun k).ifc 4).traffic ≠ ((Ex.diamondRerun k).ifc 4).traffic := by
  refine ⟨?_, ?_, ?_, ?_, ?_, ?_, ?_⟩ <;> cases k <;> decide +kernel

end NTM
