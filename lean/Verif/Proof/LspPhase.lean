import Verif.Proof.Readers
import Verif.Proof.Query

/-!
# The LSP phase of a simulation
-/

namespace NTM

open Spec

/-- same state except for reservations, LSP results and random draws -/
structure LspFrame (s t : State) : Prop where
  kind : t.kind = s.kind
  node : t.node = s.node
  srlg : t.srlg = s.srlg
  nodes : t.nodes = s.nodes
  ifs : t.ifs = s.ifs
  dmds : t.dmds = s.dmds
  lsps : t.lsps = s.lsps
  srlgs : t.srlgs = s.srlgs
  circuits : t.circuits = s.circuits
  next : t.next = s.next
  groups : t.groups = s.groups
  dmd : t.dmd = s.dmd
  ifc : ∀ i, t.ifc i = { s.ifc i with reservedRaw := (t.ifc i).reservedRaw }
  lsp : ∀ l, t.lsp l = { s.lsp l with
    path := (t.lsp l).path, reserved := (t.lsp l).reserved, setup := (t.lsp l).setup }

theorem LspFrame.frame : Frame LspFrame where
  refl s := ⟨rfl, rfl, rfl, rfl, rfl, rfl, rfl, rfl, rfl, rfl, rfl, rfl, fun _ => rfl, fun _ => rfl⟩
  trans {s t u} h g :=
    { kind := g.kind.trans h.kind, node := g.node.trans h.node, srlg := g.srlg.trans h.srlg
      nodes := g.nodes.trans h.nodes, ifs := g.ifs.trans h.ifs, dmds := g.dmds.trans h.dmds
      lsps := g.lsps.trans h.lsps, srlgs := g.srlgs.trans h.srlgs
      circuits := g.circuits.trans h.circuits, next := g.next.trans h.next
      groups := g.groups.trans h.groups, dmd := g.dmd.trans h.dmd
      ifc := fun i => by rw [g.ifc i, h.ifc i]
      lsp := fun l => by rw [g.lsp l, h.lsp l] }

theorem LspFrame.refl (s : State) : LspFrame s s := LspFrame.frame.refl s
theorem LspFrame.trans {s t u : State} (h : LspFrame s t) (g : LspFrame t u) : LspFrame s u :=
  LspFrame.frame.trans h g

theorem LspFrame.updLsp (s : State) (l : ℕ) (f : Lsp → Lsp)
    (hf : ∀ x, f x = { x with path := (f x).path, reserved := (f x).reserved,
                              setup := (f x).setup }) : LspFrame s (s.updLsp l f) := by
  refine ⟨rfl, rfl, rfl, rfl, rfl, rfl, rfl, rfl, rfl, rfl, rfl, rfl, fun _ => rfl, fun k => ?_⟩
  by_cases h : k = l
  · simp only [State.updLsp, h, if_true]; exact hf _
  · simp only [State.updLsp, h, if_false]

theorem LspFrame.addReserved (s : State) (i : ℕ) (v : ℚ) : LspFrame s (s.addReserved i v) := by
  refine ⟨rfl, rfl, rfl, rfl, rfl, rfl, rfl, rfl, rfl, rfl, rfl, rfl, fun j => ?_, fun _ => rfl⟩
  by_cases h : j = i
  · simp only [State.addReserved, State.setReserved, State.updIfc, h, if_true]
  · simp only [State.addReserved, State.setReserved, State.updIfc, h, if_false]

theorem LspFrame.reserveOn (s : State) (p : List ℕ) (v : ℚ) : LspFrame s (s.reserveOn p v) := by
  unfold State.reserveOn
  induction p generalizing s with
  | nil => exact .refl s
  | cons i p ih => exact (LspFrame.addReserved s i v).trans (ih _)

theorem LspFrame.rng (s : State) (k : ℕ) : LspFrame s { s with rngPos := k } :=
  ⟨rfl, rfl, rfl, rfl, rfl, rfl, rfl, rfl, rfl, rfl, rfl, rfl, fun _ => rfl, fun _ => rfl⟩

theorem LspFrame.clearReserved (s : State) : LspFrame s s.clearReserved := by
  refine ⟨rfl, rfl, rfl, rfl, rfl, rfl, rfl, rfl, rfl, rfl, rfl, rfl, fun i => ?_, fun _ => rfl⟩
  by_cases h : i ∈ s.ifs
  · simp only [State.clearReserved, h, if_true]
  · simp only [State.clearReserved, h, if_false]

theorem LspFrame.tail {s t : State} (h : LspFrame s t) (i : ℕ) : t.tail i = s.tail i := by
  unfold State.tail; rw [h.ifc i, h.node]
theorem LspFrame.head {s t : State} (h : LspFrame s t) (i : ℕ) : t.head i = s.head i := by
  unfold State.head; rw [h.ifc i, h.node]
theorem LspFrame.lspSrc {s t : State} (h : LspFrame s t) : t.lspSrc = s.lspSrc := by
  funext l; unfold State.lspSrc; rw [h.lsp l, h.node]
theorem LspFrame.lspDst {s t : State} (h : LspFrame s t) : t.lspDst = s.lspDst := by
  funext l; unfold State.lspDst; rw [h.lsp l, h.node]
theorem LspFrame.fresh {env : Env} {s t : State} (h : LspFrame s t) (hs : GroupsFresh env s) :
    GroupsFresh env t := by
  unfold GroupsFresh at *
  rw [h.groups, h.lsps, h.lspSrc, h.lspDst, hs]

theorem setSetup_eq {x y : Lsp} {q : ℚ} (h : x.setSetup q = .ok y) :
    y = { x with setup := y.setup } := by
  unfold Lsp.setSetup at h
  split at h
  · split at h
    · cases h; rfl
    · split at h
      · cases h; rfl
      · cases h
  · split at h
    · cases h; rfl
    · cases h

theorem randomChoice_spec {α : Type} (env : Env) (l : List α) (s : State) :
    wp (randomChoice env l) (fun x t => x ∈ l ∧ t = { s with rngPos := s.rngPos + 1 })
      (fun _ t => t = s ∧ l = []) s := by
  unfold wp randomChoice
  cases h : l[env.rand s.rngPos % l.length]? with
  | some x => exact ⟨List.mem_of_getElem? h, rfl⟩
  | none =>
    refine ⟨rfl, ?_⟩
    by_contra hne
    have hpos : 0 < l.length := List.length_pos_of_ne_nil hne
    have := Nat.mod_lt (env.rand s.rngPos) hpos
    rw [List.getElem?_eq_getElem this] at h
    cases h

theorem fewestHops_ne_nil {ps : List (List ℕ)} (h : ps ≠ []) : fewestHops ps ≠ [] := by
  cases hm : (ps.map List.length).min? with
  | none => rw [List.min?_eq_none_iff] at hm; exact absurd (List.map_eq_nil_iff.1 hm) h
  | some m =>
    have := (List.min?_eq_some_iff.1 hm).1
    obtain ⟨p, hp, hl⟩ := List.mem_map.1 this
    intro he
    have : p ∈ fewestHops ps := by
      unfold fewestHops
      rw [List.mem_filter]
      exact ⟨hp, by simp [hm, hl]⟩
    rw [he] at this; cases this

theorem mem_fewestHops {ps : List (List ℕ)} {p : List ℕ} :
    p ∈ fewestHops ps ↔ p ∈ ps ∧ ∀ q ∈ ps, p.length ≤ q.length := by
  unfold fewestHops
  rw [List.mem_filter, decide_eq_true_eq]
  constructor
  · rintro ⟨h1, h2⟩
    refine ⟨h1, fun q hq => ?_⟩
    exact (List.min?_eq_some_iff.1 h2).2 _ (List.mem_map.2 ⟨q, hq, rfl⟩)
  · rintro ⟨h1, h2⟩
    refine ⟨h1, List.min?_eq_some_iff.2 ⟨List.mem_map.2 ⟨p, h1, rfl⟩, ?_⟩⟩
    intro x hx
    obtain ⟨q, hq, rfl⟩ := List.mem_map.1 hx
    exact h2 q hq

theorem choosePath_spec (env : Env) (ps : List (List ℕ)) (s : State) (h : ps ≠ []) :
    wp (choosePath env ps) (fun p t => p ∈ fewestHops ps ∧ ∃ k, t = { s with rngPos := k })
      (fun _ _ => False) s := by
  unfold choosePath
  split
  · next p =>
    refine ⟨?_, s.rngPos, rfl⟩
    rw [mem_fewestHops]; simp
  · split
    · next p hp => exact ⟨by rw [hp]; simp, s.rngPos, rfl⟩
    · refine wp_mono (randomChoice_spec env _ s) ?_ ?_
      · rintro p t ⟨h1, h2⟩; exact ⟨h1, _, h2⟩
      · rintro _ t ⟨-, h2⟩; exact fewestHops_ne_nil h h2

/-- the bandwidth an LSP asks for -/
def askedBw (s : State) (traff : ℚ) (l : ℕ) : ℚ := (s.lsp l).configured.getD traff

/-- the LSP is left unrouted -/
def State.afterUnrouted (s : State) (l : ℕ) (bw : ℚ) : State :=
  s.updLsp l fun x => { x with path := .unrouted, reserved := .unrouted, setup := some bw }

/-- the LSP is placed on `p` -/
def State.afterRouted (s : State) (l : ℕ) (bw : ℚ) (p : List ℕ) : State :=
  (s.updLsp l fun x => { x with
    path := .routed p (s.pathCost p) ((s.pathHeadroom p).getD 0)
    reserved := .val bw, setup := some bw }).reserveOn p bw

theorem updLsp_updLsp (s : State) (l : ℕ) (f g : Lsp → Lsp) :
    (s.updLsp l f).updLsp l g = s.updLsp l fun x => g (f x) := by
  unfold State.updLsp
  congr 1
  funext k
  by_cases h : k = l <;> simp [h]

theorem setSetup_asked {x y : Lsp} {bw : ℚ} (hx : x.configured = none ∨ x.configured = some bw)
    (h : x.setSetup bw = .ok y) : y = { x with setup := some bw } := by
  unfold Lsp.setSetup at h
  split at h
  · next c hc =>
    have : c = bw := by rcases hx with hx | hx <;> rw [hc] at hx <;> cases hx; rfl
    subst this
    split at h
    · cases h; rfl
    · split at h
      · cases h; rfl
      · cases h
  · split at h
    · cases h; rfl
    · cases h

/-- what signalling one LSP does, step by step -/
theorem signalLsp_raw (env : Env) (traff : ℚ) (l : ℕ) (s : State) :
    wp (signalLsp env traff l)
      (fun _ t =>
        ((s.lspGraph (askedBw s traff l)).allShortestPaths (s.lspSrc l) (s.lspDst l)
            = .error .noPath ∧ t = s.afterUnrouted l (askedBw s traff l)) ∨
        ∃ nxSp all cands,
          (s.lspGraph (askedBw s traff l)).allShortestPaths (s.lspSrc l) (s.lspDst l) = .ok nxSp ∧
          s.lspCandidates (askedBw s traff l) nxSp = .ok all ∧
          s.withHeadroom (askedBw s traff l) all = .ok cands ∧
          ((cands = [] ∧ t = s.afterUnrouted l (askedBw s traff l)) ∨
           ∃ p k, p ∈ fewestHops cands ∧
             t = { s.afterRouted l (askedBw s traff l) p with rngPos := k }))
      (fun _ t => LspFrame s t) s := by
  unfold signalLsp
  simp only [wp_bind, wp_get, wp_liftE]
  rw [show (s.lsp l).configured.getD traff = askedBw s traff l from rfl]
  generalize hb : askedBw s traff l = bw at *
  cases hset : Lsp.setSetup { s.lsp l with reserved := .val bw } bw with
  | error e => exact .refl s
  | ok x =>
    have hx : x = { s.lsp l with reserved := .val bw, setup := some bw } := by
      refine setSetup_asked ?_ hset
      unfold askedBw at hb
      cases hc : (s.lsp l).configured with
      | none => left; rfl
      | some c => right; rw [hc] at hb; simpa using hb
    subst hx
    have hpre : LspFrame s (s.updLsp l fun _ =>
        { s.lsp l with reserved := .val bw, setup := some bw, path := .blank }) := by
      refine ⟨rfl, rfl, rfl, rfl, rfl, rfl, rfl, rfl, rfl, rfl, rfl, rfl, fun _ => rfl,
        fun k => ?_⟩
      by_cases h : k = l
      · subst h; simp only [State.updLsp, if_true]
      · simp only [State.updLsp, h, if_false]
    have hcomp : ∀ f : Lsp → Lsp, (s.updLsp l fun _ =>
        { s.lsp l with reserved := .val bw, setup := some bw, path := .blank }).updLsp l f =
        s.updLsp l fun x => f { x with reserved := .val bw, setup := some bw, path := .blank } := by
      intro f
      unfold State.updLsp
      congr 1
      funext k
      by_cases h : k = l
      · subst h; simp
      · simp [h]
    simp only [wp_set, Option.getD_some]
    cases hsp : (s.lspGraph bw).allShortestPaths (s.lspSrc l) (s.lspDst l) with
    | error e =>
      by_cases he : e = .noPath
      · subst he
        simp only [wp_modify]
        left
        refine ⟨trivial, ?_⟩
        unfold State.unrouteLsp State.afterUnrouted
        rw [hcomp]
      · split
        · next h => cases h; exact absurd rfl he
        · next h => cases h; exact hpre
        · next h => cases h
    | ok nxSp =>
      simp only [wp_bind, wp_liftE]
      cases hall : s.lspCandidates bw nxSp with
      | error e => exact hpre
      | ok all =>
        simp only []
        cases hcs : s.withHeadroom bw all with
        | error e => exact hpre
        | ok cands =>
          simp only []
          cases cands with
          | nil =>
            simp only [wp_modify]
            right
            refine ⟨nxSp, all, [], rfl, hall, hcs, .inl ⟨rfl, ?_⟩⟩
            unfold State.unrouteLsp State.afterUnrouted
            rw [hcomp]
          | cons c cs =>
            simp only [wp_bind, wp_modify]
            refine wp_mono (choosePath_spec env (c :: cs) _ (by simp)) ?_ (fun _ _ h => h.elim)
            rintro p t ⟨hp, k, rfl⟩
            right
            refine ⟨nxSp, all, c :: cs, rfl, hall, hcs, .inr ⟨p, k, hp, ?_⟩⟩
            have hres : ∀ (u : State) (q : List ℕ) (v : ℚ),
                State.reserveOn { u with rngPos := k } q v =
                  { u.reserveOn q v with rngPos := k } := by
              intro u q v
              unfold State.reserveOn
              induction q generalizing u with
              | nil => rfl
              | cons i q ih => exact ih (u.addReserved i v)
            unfold State.afterRouted
            rw [← hres]
            congr 1
            have := hcomp fun y => { y with
              path := .routed p (s.pathCost p) ((s.pathHeadroom p).getD 0) }
            exact congrArg (fun u : State => { u with rngPos := k }) this


theorem LspFrame.afterUnrouted (s : State) (l : ℕ) (bw : ℚ) : LspFrame s (s.afterUnrouted l bw) :=
  LspFrame.updLsp s l _ fun _ => rfl

theorem LspFrame.afterRouted (s : State) (l : ℕ) (bw : ℚ) (p : List ℕ) :
    LspFrame s (s.afterRouted l bw p) :=
  (LspFrame.updLsp s l _ fun _ => rfl).trans (LspFrame.reserveOn _ p bw)

theorem keeps_signalLsp (env : Env) (traff : ℚ) (l : ℕ) :
    Keeps LspFrame (signalLsp env traff l) := by
  intro s
  refine wp_mono (signalLsp_raw env traff l s) ?_ (fun _ _ h => h)
  rintro _ t (⟨-, rfl⟩ | ⟨_, _, _, -, -, -, ⟨-, rfl⟩ | ⟨p, k, -, rfl⟩⟩)
  · exact .afterUnrouted ..
  · exact .afterUnrouted ..
  · exact (LspFrame.afterRouted ..).trans (.rng _ _)

theorem keeps_randomChoice {α : Type} (env : Env) (l : List α) :
    Keeps LspFrame (randomChoice env l) := by
  intro s
  refine wp_mono (randomChoice_spec env l s) ?_ ?_
  · rintro _ t ⟨-, rfl⟩; exact .rng _ _
  · rintro _ t ⟨rfl, -⟩; exact .refl _

theorem pickCandidate_spec (env : Env) (ps : List (List ℕ)) (s : State) (h : ps ≠ []) :
    wp (pickCandidate env ps) (fun p t => p ∈ ps ∧ ∃ k, t = { s with rngPos := k })
      (fun _ _ => False) s := by
  unfold pickCandidate
  split
  · exact ⟨by simp, s.rngPos, rfl⟩
  · refine wp_mono (randomChoice_spec env _ s) ?_ ?_
    · rintro p t ⟨h1, h2⟩; exact ⟨h1, _, h2⟩
    · rintro _ t ⟨-, h2⟩; exact h h2

/-- the states a re-signalling attempt can end in -/
theorem findPathWithBw_raw (env : Env) (l : ℕ) (needed : ℚ) (s : State) :
    wp (findPathWithBw env l needed)
      (fun _ t => ∃ path res, (s.lsp l).path.interfaces = .ok path ∧
        (s.lsp l).reserved = .val res ∧
        ((s.routedCandidates env (s.lspSrc l) (s.lspDst l) path res needed = [] ∧ t = s) ∨
          ∃ p k x, p ∈ s.routedCandidates env (s.lspSrc l) (s.lspDst l) path res needed ∧
            Lsp.setSetup { s.lsp l with
              path := .routed p (s.pathCost p) ((s.routedHeadroom path res p).getD 0)
              reserved := .val needed } needed = .ok x ∧
            t = { s.updLsp l fun _ => x with rngPos := k }))
      (fun _ t => LspFrame s t) s := by
  unfold findPathWithBw
  simp only [wp_bind, wp_get, wp_liftE]
  cases hpath : (s.lsp l).path.interfaces with
  | error e => exact .refl s
  | ok path =>
    simp only []
    cases hres : (s.lsp l).reserved with
    | initial => exact .refl s
    | unrouted => exact .refl s
    | val res =>
      simp only [Bw.num]
      generalize hc : s.routedCandidates env (s.lspSrc l) (s.lspDst l) path res needed = cands
      split
      · exact .refl s
      · cases cands with
        | nil => exact ⟨path, res, rfl, rfl, .inl ⟨hc, rfl⟩⟩
        | cons c cs =>
          simp only [wp_bind]
          refine wp_mono (pickCandidate_spec env (c :: cs) s (by simp)) ?_ (fun _ _ h => h.elim)
          rintro p t ⟨hp, k, rfl⟩
          simp only [wp_modify, wp_get, wp_liftE]
          have hl : ((State.updLsp { s with rngPos := k } l fun y => { y with
              path := .routed p (s.pathCost p) ((s.routedHeadroom path res p).getD 0)
              reserved := .val needed }).lsp l) = { s.lsp l with
              path := .routed p (s.pathCost p) ((s.routedHeadroom path res p).getD 0)
              reserved := .val needed } := by
            simp [State.updLsp]
          rw [hl]
          cases hset : Lsp.setSetup { s.lsp l with
              path := .routed p (s.pathCost p) ((s.routedHeadroom path res p).getD 0)
              reserved := .val needed } needed with
          | error e => exact (LspFrame.rng s k).trans (LspFrame.updLsp _ l _ fun _ => rfl)
          | ok x =>
            refine ⟨path, res, rfl, rfl, .inr ⟨p, k, x, by rw [hc]; exact hp, hset, ?_⟩⟩
            rw [updLsp_updLsp]
            rfl

theorem keeps_findPathWithBw (env : Env) (l : ℕ) (needed : ℚ) :
    Keeps LspFrame (findPathWithBw env l needed) := by
  intro s
  refine wp_mono (findPathWithBw_raw env l needed s) ?_ (fun _ _ h => h)
  rintro _ t ⟨path, res, -, -, ⟨-, rfl⟩ | ⟨p, k, x, -, hx, rfl⟩⟩
  · exact .refl _
  · refine LspFrame.trans ?_ (.rng _ _)
    have := setSetup_eq hx
    refine ⟨rfl, rfl, rfl, rfl, rfl, rfl, rfl, rfl, rfl, rfl, rfl, rfl, fun _ => rfl, fun m => ?_⟩
    by_cases h : m = l
    · subst h
      simp only [State.updLsp, if_true]
      rw [this]
    · simp only [State.updLsp, h, if_false]

theorem keeps_modify {R : State → State → Prop} {f : State → State} (h : ∀ s, R s (f s)) :
    Keeps R (modify f : Py PUnit) := fun s => h s

theorem keeps_reoptLsp (env : Env) (needed : ℚ) (l : ℕ) :
    Keeps LspFrame (reoptLsp env needed l) := by
  have F := LspFrame.frame
  unfold reoptLsp
  refine Keeps.bind F (Keeps.get F) fun s => ?_
  refine Keeps.bind F (Keeps.liftE F _) fun before => ?_
  refine Keeps.bind F (keeps_findPathWithBw env l needed) fun _ => ?_
  refine Keeps.bind F (Keeps.get F) fun s' => ?_
  refine Keeps.ite ?_ (Keeps.pure F _)
  refine Keeps.bind F (Keeps.liftE F _) fun old => ?_
  refine Keeps.bind F (keeps_modify fun s => LspFrame.reserveOn s _ _) fun _ => ?_
  refine Keeps.bind F (Keeps.get F) fun s'' => ?_
  refine Keeps.bind F (Keeps.liftE F _) fun after => ?_
  refine Keeps.bind F (Keeps.liftE F _) fun new => ?_
  exact keeps_modify fun s => LspFrame.reserveOn s _ _

theorem keeps_routeGroup (env : Env) (dg : List (String × List ℕ)) (grp : String × List ℕ) :
    Keeps LspFrame (routeGroup env dg grp) := by
  have F := LspFrame.frame
  unfold routeGroup
  refine Keeps.bind F (Keeps.get F) fun s => ?_
  refine Keeps.bind F (Keeps.forEach F _ (fun l => keeps_signalLsp env _ l) _) fun _ => ?_
  refine Keeps.bind F (Keeps.get F) fun s' => ?_
  refine Keeps.ite ?_ (Keeps.pure F _)
  exact Keeps.forEach F _ (fun l => keeps_reoptLsp env _ l) _

/-- the LSP phase fills the cache and otherwise changes only reservations, LSP results and
random draws -/
theorem routeLsps_frame (env : Env) (s : State) (hg : s.groups = []) :
    wp (routeLsps env)
      (fun _ t => LspFrame { s with groups := buildGroups env s.lsps s.lspSrc s.lspDst } t ∧
        GroupsFresh env t)
      (fun _ t => LspFrame { s with groups := buildGroups env s.lsps s.lspSrc s.lspDst } t) s := by
  unfold routeLsps
  simp only [wp_bind, wp_modify]
  have h1 : lspGroups env s.clearReserved =
      .ok (buildGroups env s.lsps s.lspSrc s.lspDst)
        { s.clearReserved with groups := buildGroups env s.lsps s.lspSrc s.lspDst } := by
    unfold lspGroups
    have : s.clearReserved.groups = [] := hg
    rw [this]
    simp only [ne_eq, not_true_eq_false, if_false]
    rfl
  rw [wp_ok h1]
  simp only [wp_get]
  have hf : LspFrame { s with groups := buildGroups env s.lsps s.lspSrc s.lspDst }
      { s.clearReserved with groups := buildGroups env s.lsps s.lspSrc s.lspDst } :=
    LspFrame.clearReserved { s with groups := buildGroups env s.lsps s.lspSrc s.lspDst }
  have hk := Keeps.forEach LspFrame.frame _
    (fun g => keeps_routeGroup env (State.demandGroups
      { s.clearReserved with groups := buildGroups env s.lsps s.lspSrc s.lspDst } env) g)
    (buildGroups env s.lsps s.lspSrc s.lspDst)
    { s.clearReserved with groups := buildGroups env s.lsps s.lspSrc s.lspDst }
  have fresh0 : GroupsFresh env { s with groups := buildGroups env s.lsps s.lspSrc s.lspDst } := rfl
  refine wp_mono hk ?_ ?_
  · intro _ t ht
    have h2 := hf.trans ht
    exact ⟨h2, h2.fresh fresh0⟩
  · intro _ t ht
    exact hf.trans ht

end NTM
