import Verif.Proof.Readers
import Verif.Proof.ShortcutLsps

/-!
# A simulation changes results only, even when it raises

Every routing function keeps `SameCfg`, on normal and on exceptional exit.
-/

namespace NTM

/-- `I` holds at every exit if it holds at the start -/
def Stays {α : Type} (I : State → Prop) (x : Py α) : Prop :=
  ∀ s, I s → wp x (fun _ t => I t) (fun _ t => I t) s

section
variable {α β : Type} {I : State → Prop}

theorem Stays.pure (a : α) : Stays I (pure a : Py α) := fun _ h => h
theorem Stays.get : Stays I (get : Py State) := fun _ h => h
theorem Stays.raise (e : Exn) : Stays I (raise e : Py α) := fun _ h => h
theorem Stays.liftE (x : Except Exn α) : Stays I (liftE x) := by
  intro s h; cases x <;> exact h
theorem Stays.modify {f : State → State} (hf : ∀ s, I s → I (f s)) :
    Stays I (modify f : Py PUnit) := fun s h => hf s h
theorem Stays.bind {x : Py β} {f : β → Py α} (hx : Stays I x) (hf : ∀ b, Stays I (f b)) :
    Stays I (x >>= f) := by
  intro s h
  rw [wp_bind]
  exact wp_mono (hx s h) (fun b t ht => hf b t ht) (fun _ _ h => h)
/-- reading the state first: the invariant holds of the state read -/
theorem Stays.get_bind {f : State → Py α} (hf : ∀ s, I s → wp (f s) (fun _ t => I t) (fun _ t => I t) s) :
    Stays I (Bind.bind (MonadState.get : Py State) f) := fun s h => by
  rw [wp_bind]; exact hf s h
theorem Stays.ite {c : Prop} [Decidable c] {x y : Py α} (hx : Stays I x) (hy : Stays I y) :
    Stays I (if c then x else y) := by split <;> assumption
theorem Stays.forEach (f : β → Py Unit) (l : List β) (hf : ∀ b ∈ l, Stays I (f b)) :
    Stays I (forEach l f) := by
  induction l with
  | nil => exact Stays.pure ()
  | cons a l ih =>
    exact Stays.bind (hf a (by simp)) fun _ => ih fun b hb => hf b (by simp [hb])
theorem Stays.foldlM (f : β → α → Py β) (hf : ∀ b a, Stays I (f b a)) :
    ∀ (l : List α) (b : β), Stays I (l.foldlM f b) := by
  intro l
  induction l with
  | nil => intro b; exact Stays.pure b
  | cons a l ih =>
    intro b
    rw [List.foldlM_cons]
    exact Stays.bind (hf b a) ih
theorem Keeps.stays {R : State → State → Prop} {x : Py α} (h : Keeps R x) (hI : ∀ s t, I s → R s t → I t) :
    Stays I x := fun s hs => wp_mono (h s) (fun _ _ ht => hI _ _ hs ht) (fun _ _ ht => hI _ _ hs ht)
theorem Stays.final {x : Py α} (h : Stays I x) {s : State} (hs : I s) : I (finalState x s) := by
  have := h s hs
  unfold wp at this
  unfold finalState
  cases hx : x s <;> simp only [hx] at this ⊢ <;> exact this
end

variable {s0 : State}

theorem SameCfg.updIfc {s : State} (h : SameCfg s0 s) (i : ℕ) {f : Ifc → Ifc}
    (hf : ∀ x, f x = { x with reservedRaw := (f x).reservedRaw, traffic := (f x).traffic }) :
    SameCfg s0 (s.updIfc i f) :=
  SameCfg.frame.trans h
    { kind := rfl, node := rfl, srlg := rfl, nodes := rfl, ifs := rfl, dmds := rfl, lsps := rfl
      srlgs := rfl, circuits := rfl, next := rfl
      ifc := fun j => by
        unfold State.updIfc
        simp only []
        split
        · exact hf _
        · rfl
      lsp := fun _ => rfl, dmd := fun _ => rfl }

theorem SameCfg.updLsp {s : State} (h : SameCfg s0 s) (l : ℕ) {f : Lsp → Lsp}
    (hf : f (s.lsp l) = { s.lsp l with
      path := (f (s.lsp l)).path, reserved := (f (s.lsp l)).reserved,
      setup := (f (s.lsp l)).setup }) :
    SameCfg s0 (s.updLsp l f) :=
  SameCfg.frame.trans h
    { kind := rfl, node := rfl, srlg := rfl, nodes := rfl, ifs := rfl, dmds := rfl, lsps := rfl
      srlgs := rfl, circuits := rfl, next := rfl, ifc := fun _ => rfl
      lsp := fun j => by
        unfold State.updLsp
        simp only []
        split
        · next e => subst e; exact hf
        · rfl
      dmd := fun _ => rfl }

theorem SameCfg.updDmd {s : State} (h : SameCfg s0 s) (d : ℕ) {f : Dmd → Dmd}
    (hf : ∀ x, f x = { x with path := (f x).path, detail := (f x).detail }) :
    SameCfg s0 (s.updDmd d f) :=
  SameCfg.frame.trans h
    { kind := rfl, node := rfl, srlg := rfl, nodes := rfl, ifs := rfl, dmds := rfl, lsps := rfl
      srlgs := rfl, circuits := rfl, next := rfl, ifc := fun _ => rfl, lsp := fun _ => rfl
      dmd := fun j => by
        unfold State.updDmd
        simp only []
        split
        · exact hf _
        · rfl }

theorem SameCfg.mapIfc {s : State} (h : SameCfg s0 s) {F : ℕ → Ifc}
    (hf : ∀ i, F i = { s.ifc i with reservedRaw := (F i).reservedRaw, traffic := (F i).traffic }) :
    SameCfg s0 { s with ifc := F } :=
  SameCfg.frame.trans h
    { kind := rfl, node := rfl, srlg := rfl, nodes := rfl, ifs := rfl, dmds := rfl, lsps := rfl
      srlgs := rfl, circuits := rfl, next := rfl, ifc := hf, lsp := fun _ => rfl, dmd := fun _ => rfl }

theorem SameCfg.rng {s : State} (h : SameCfg s0 s) (n : ℕ) (G : List (String × List ℕ)) :
    SameCfg s0 { s with rngPos := n, groups := G } :=
  ⟨h.kind, h.node, h.srlg, h.nodes, h.ifs, h.dmds, h.lsps, h.srlgs, h.circuits, h.next, h.ifc,
    h.lsp, h.dmd⟩

theorem SameCfg.reserveOn {s : State} (h : SameCfg s0 s) (p : List ℕ) (v : ℚ) :
    SameCfg s0 (s.reserveOn p v) := by
  unfold State.reserveOn
  induction p generalizing s with
  | nil => exact h
  | cons i p ih => exact ih (s := s.addReserved i v) (by
      unfold State.addReserved State.setReserved
      exact h.updIfc i fun _ => rfl)

theorem SameCfg.clearReserved {s : State} (h : SameCfg s0 s) : SameCfg s0 s.clearReserved :=
  h.mapIfc fun i => by split <;> rfl

theorem SameCfg.resetTraffic {s : State} (h : SameCfg s0 s) : SameCfg s0 s.resetTraffic :=
  h.mapIfc fun i => by split <;> rfl

theorem SameCfg.resetSim {s : State} (h : SameCfg s0 s) : SameCfg s0 s.resetSim :=
  SameCfg.frame.trans h
    { kind := rfl, node := rfl, srlg := rfl, nodes := rfl, ifs := rfl, dmds := rfl, lsps := rfl
      srlgs := rfl, circuits := rfl, next := rfl
      ifc := fun i => by unfold State.resetSim; simp only []; split <;> rfl
      lsp := fun i => by unfold State.resetSim; simp only []; split <;> rfl
      dmd := fun i => by unfold State.resetSim; simp only []; split <;> rfl }

/-! ### Reading groups and metrics -/

/-- closes `Stays` goals for computations made of reads -/
macro "stays" : tactic => `(tactic|
  repeat' (first
    | assumption
    | exact Stays.pure _
    | exact Stays.get
    | exact Stays.raise _
    | exact Stays.liftE _
    | (refine Stays.bind ?_ (fun _ => ?_))
    | split
    | (show Stays _ (Bind.bind _ _))))

theorem stays_lspGroups (env : Env) : Stays (SameCfg s0) (lspGroups env) := by
  intro s h
  unfold wp lspGroups
  split
  · next a t e =>
    split at e
    · cases e; exact h
    · cases e; exact h.rng _ _
  · next e' t e =>
    split at e <;> cases e

theorem stays_ridingLsps (env : Env) (key : String) : Stays (SameCfg s0) (ridingLsps env key) := by
  have := stays_lspGroups (s0 := s0) env
  unfold ridingLsps
  stays

theorem stays_bestLsps (env : Env) (key : String) : Stays (SameCfg s0) (bestLsps env key) := by
  have := stays_lspGroups (s0 := s0) env
  unfold bestLsps
  stays

theorem stays_findShortcut (env : Env) (s : State) (u : String) (vs : List String) :
    Stays (SameCfg s0) (findShortcut env s u vs) := by
  induction vs with
  | nil => exact Stays.pure _
  | cons v vs ih =>
    have := stays_bestLsps (s0 := s0) env (pairKey u v)
    unfold findShortcut
    stays

theorem stays_shortcutLsps (env : Env) (path : List String) (l : List String) :
    ∀ skip, Stays (SameCfg s0) (shortcutLsps env path l skip) := by
  induction l with
  | nil => intro _; exact Stays.pure _
  | cons u l ih =>
    intro skip
    unfold shortcutLsps
    have h1 := ih skip
    refine Stays.bind Stays.get fun s => ?_
    refine Stays.ite h1 ?_
    · refine Stays.bind (Stays.liftE _) fun n => ?_
      split
      · refine Stays.bind (stays_findShortcut _ _ _ _) fun found => ?_
        split
        · exact Stays.bind (ih _) fun _ => Stays.pure _
        · exact h1
      · exact h1

theorem stays_insertShortcuts (env : Env) (np : List (List String)) (ps : List (List ℕ)) :
    Stays (SameCfg s0) (insertShortcuts env np ps) := by
  unfold insertShortcuts
  refine Stays.bind ?_ fun found => ?_
  · refine Stays.foldlM _ ?_ _ _
    intro b a
    exact Stays.bind (stays_shortcutLsps _ _ _ _) fun _ => Stays.pure _
  · stays

theorem stays_findIgpShortcuts (env : Env) (ps : List (List ℕ)) (np : List (List String)) :
    Stays (SameCfg s0) (findIgpShortcuts env ps np) := by
  have := stays_insertShortcuts (s0 := s0) env np ps
  unfold findIgpShortcuts
  stays

theorem stays_igpPaths (env : Env) (g : NxG) (es : List ℕ) (a b : String) :
    Stays (SameCfg s0) (igpPaths env g es a b) := by
  unfold igpPaths
  refine Stays.bind Stays.get fun s => ?_
  split
  · stays
  · stays
  · split
    · stays
    · exact Stays.bind (stays_findIgpShortcuts _ _ _) fun _ => Stays.pure _

/-! ### LSPs -/

theorem stays_randomChoice {α : Type} (env : Env) (l : List α) :
    Stays (SameCfg s0) (randomChoice env l) := by
  intro s h
  unfold wp randomChoice
  cases l[env.rand s.rngPos % l.length]? with
  | some x => exact h.rng _ s.groups
  | none => exact h

theorem stays_choosePath (env : Env) (cands : List (List ℕ)) :
    Stays (SameCfg s0) (choosePath env cands) := by
  unfold choosePath
  split
  · exact Stays.pure _
  · split
    · exact Stays.pure _
    · exact stays_randomChoice _ _

theorem stays_pickCandidate (env : Env) (cands : List (List ℕ)) :
    Stays (SameCfg s0) (pickCandidate env cands) := by
  unfold pickCandidate
  split
  · exact Stays.pure _
  · exact stays_randomChoice _ _

theorem SameCfg.unrouteLsp {s : State} (h : SameCfg s0 s) (l : ℕ) : SameCfg s0 (s.unrouteLsp l) :=
  h.updLsp l (by rfl)

theorem stays_signalLsp (env : Env) (traff : ℚ) (l : ℕ) :
    Stays (SameCfg s0) (signalLsp env traff l) := by
  unfold signalLsp
  refine Stays.get_bind fun s h => ?_
  rw [wp_bind, wp_liftE]
  split
  · next x hx =>
    rw [wp_bind, wp_set]
    have hx' := setSetup_eq hx
    have h1 : SameCfg s0 (s.updLsp l fun _ => { x with path := .blank }) := by
      refine h.updLsp l ?_
      rw [hx']
    refine (?_ : Stays (SameCfg s0) _) _ h1
    split
    · exact Stays.modify fun s h => h.unrouteLsp l
    · exact Stays.raise _
    · refine Stays.bind (Stays.liftE _) fun all => Stays.bind (Stays.liftE _) fun cands => ?_
      split
      · exact Stays.modify fun s h => h.unrouteLsp l
      · refine Stays.bind (stays_choosePath _ _) fun p => Stays.modify fun s h => ?_
        exact (h.updLsp l (by rfl)).reserveOn _ _
  · exact h

theorem stays_findPathWithBw (env : Env) (l : ℕ) (needed : ℚ) :
    Stays (SameCfg s0) (findPathWithBw env l needed) := by
  unfold findPathWithBw
  refine Stays.bind Stays.get fun s => Stays.bind (Stays.liftE _) fun path =>
    Stays.bind (Stays.liftE _) fun res => ?_
  refine Stays.ite (Stays.raise _) ?_
  split
  · exact Stays.pure _
  · refine Stays.bind (stays_pickCandidate _ _) fun p => ?_
    refine Stays.bind (Stays.modify fun s h => h.updLsp l (by rfl)) fun _ => ?_
    refine Stays.get_bind fun t ht => ?_
    rw [wp_bind, wp_liftE]
    split
    · next y hy =>
      rw [wp_set]
      refine ht.updLsp l ?_
      have hy' := setSetup_eq hy
      rw [hy']
    · exact ht

theorem stays_reoptLsp (env : Env) (needed : ℚ) (l : ℕ) :
    Stays (SameCfg s0) (reoptLsp env needed l) := by
  unfold reoptLsp
  refine Stays.bind Stays.get fun s => Stays.bind (Stays.liftE _) fun before =>
    Stays.bind (stays_findPathWithBw _ _ _) fun _ => Stays.bind Stays.get fun s' => ?_
  refine Stays.ite ?_ (Stays.pure _)
  refine Stays.bind (Stays.liftE _) fun old =>
    Stays.bind (Stays.modify fun s h => h.reserveOn _ _) fun _ => Stays.bind Stays.get fun _ =>
    Stays.bind (Stays.liftE _) fun _ => Stays.bind (Stays.liftE _) fun _ =>
    Stays.modify fun s h => h.reserveOn _ _

theorem stays_routeGroup (env : Env) (dg : List (String × List ℕ)) (grp : String × List ℕ) :
    Stays (SameCfg s0) (routeGroup env dg grp) := by
  unfold routeGroup
  refine Stays.bind Stays.get fun s =>
    Stays.bind (Stays.forEach _ _ fun l _ => stays_signalLsp _ _ _) fun _ =>
    Stays.bind Stays.get fun s' => ?_
  exact Stays.ite (Stays.forEach _ _ fun l _ => stays_reoptLsp _ _ _) (Stays.pure _)

theorem stays_routeLsps (env : Env) : Stays (SameCfg s0) (routeLsps env) := by
  unfold routeLsps
  refine Stays.bind (Stays.modify fun s h => h.clearReserved) fun _ =>
    Stays.bind (stays_lspGroups env) fun _ => Stays.bind Stays.get fun _ =>
    Stays.forEach _ _ fun _ _ => stays_routeGroup _ _ _

/-! ### Demands -/

theorem stays_routeDemand (env : Env) (g : NxG) (es : List ℕ) (d : ℕ) :
    Stays (SameCfg s0) (routeDemand env g es d) := by
  unfold routeDemand
  refine Stays.bind (Stays.modify fun s h => h.updDmd d fun _ => rfl) fun _ =>
    Stays.bind Stays.get fun s => Stays.bind (stays_ridingLsps _ _) fun ls => ?_
  split
  · exact Stays.bind (stays_igpPaths _ _ _ _ _) fun p =>
      Stays.modify fun s h => h.updDmd d fun _ => rfl
  · exact Stays.modify fun s h => h.updDmd d fun _ => rfl

theorem stays_addTraffic (i : ℕ) (q : ℚ) : Stays (SameCfg s0) (addTraffic i q) := by
  intro s h
  unfold wp addTraffic
  cases (s.ifc i).traffic with
  | down => exact h
  | val t => exact h.updIfc i fun _ => rfl

theorem stays_applyItem (k : Kind) (infos : List PathInfo) (x : Item) :
    Stays (SameCfg s0) (applyItem k infos x) := by
  unfold applyItem
  split
  · exact stays_addTraffic _ _
  · exact Stays.raise _
  · exact Stays.forEach _ _ fun p _ => Stays.ite (stays_addTraffic _ _) (Stays.pure _)
  · exact Stays.bind Stays.get fun s => Stays.bind (Stays.liftE _) fun ifs =>
      Stays.forEach _ _ fun i _ => stays_addTraffic _ _

theorem stays_loadDemand (env : Env) (d : ℕ) : Stays (SameCfg s0) (loadDemand env d) := by
  unfold loadDemand
  refine Stays.bind Stays.get fun s => ?_
  split
  · exact Stays.pure _
  · refine Stays.bind (stays_bestLsps _ _) fun ls => Stays.bind Stays.get fun s' => ?_
    split
    · exact Stays.bind (Stays.liftE _) fun infos =>
        Stays.bind (Stays.modify fun s h => h.updDmd d fun _ => rfl) fun _ =>
        Stays.forEach _ _ fun x _ => stays_applyItem _ _ _
    · refine Stays.bind (Stays.forEach _ _ fun l _ => ?_) fun _ =>
        Stays.modify fun s h => h.updDmd d fun _ => rfl
      exact Stays.bind Stays.get fun s => Stays.bind (Stays.liftE _) fun ifs =>
        Stays.forEach _ _ fun i _ => stays_addTraffic _ _

theorem stays_routeDemands (env : Env) : Stays (SameCfg s0) (routeDemands env) := by
  unfold routeDemands
  refine Stays.bind Stays.get fun s =>
    Stays.bind (Stays.forEach _ _ fun d _ => stays_routeDemand _ _ _ _) fun _ => ?_
  unfold updateUtilization
  exact Stays.bind (Stays.modify fun s h => h.resetTraffic) fun _ => Stays.bind Stays.get fun _ =>
    Stays.forEach _ _ fun d _ => stays_loadDemand _ _

/-- the state reached by a simulation, before its trailing validation or on an earlier
exception, has the configuration it started from -/
theorem stays_simBody (env : Env) (I : State → Prop) (hcfg : ∀ s t, I s → SameCfg s t → I t)
    (hv : Stays I (validate env)) : Stays I (updateSimulation env) := by
  intro s h
  unfold updateSimulation
  simp only [wp_bind, wp_modify]
  have h1 : SameCfg s s.resetSim := (SameCfg.frame.refl s).resetSim
  refine wp_mono (stays_routeLsps (s0 := s) env _ h1) ?_ (fun _ t ht => hcfg _ _ h ht)
  intro _ t ht
  refine wp_mono (stays_routeDemands (s0 := s) env _ ht) ?_ (fun _ t ht => hcfg _ _ h ht)
  intro _ u hu
  exact hv u (hcfg _ _ h hu)

end NTM
