import Verif.Spec.Seed
import Verif.Proof.Reopt
import Verif.Proof.Outcome
import Verif.Proof.SimFrame

/-!
# Runs that do not depend on the random choices
-/

namespace NTM

open Spec

/-- started in `s`, both programs do the same and draw nothing -/
def Calm {α : Type} (x y : Py α) (s : State) : Prop :=
  y s = x s ∧ ∀ a t, x s = .ok a t → t.rngPos = s.rngPos

section
variable {α β : Type}

theorem Calm.bind {x y : Py α} {f g : α → Py β} {s : State} (h : Calm x y s)
    (hf : ∀ a t, x s = .ok a t → Calm (f a) (g a) t) : Calm (x >>= f) (y >>= g) s := by
  unfold Calm
  show EStateM.bind y g s = EStateM.bind x f s ∧ ∀ a t, EStateM.bind x f s = .ok a t → _
  unfold EStateM.bind
  rw [h.1]
  cases hx : x s with
  | error e t => exact ⟨rfl, fun _ _ h => nomatch h⟩
  | ok a t =>
    obtain ⟨h1, h2⟩ := hf a t hx
    exact ⟨h1, fun b u hu => (h2 b u hu).trans (h.2 a t hx)⟩

theorem Calm.pure (a : α) (s : State) : Calm (pure a : Py α) (Pure.pure a) s :=
  ⟨rfl, fun _ _ h => by cases h; rfl⟩

theorem Calm.get (s : State) : Calm (get : Py State) MonadState.get s :=
  ⟨rfl, fun _ _ h => by cases h; rfl⟩

theorem Calm.raise (e : Exn) (s : State) : Calm (raise e : Py α) (NTM.raise e) s :=
  ⟨rfl, fun _ _ h => nomatch h⟩

theorem Calm.liftE (x : Except Exn α) (s : State) : Calm (liftE x) (NTM.liftE x) s := by
  cases x with
  | ok a => exact ⟨rfl, fun _ _ h => by cases h; rfl⟩
  | error e => exact ⟨rfl, fun _ _ h => nomatch h⟩

theorem Calm.modify {f : State → State} {s : State} (h : (f s).rngPos = s.rngPos) :
    Calm (modify f : Py PUnit) (_root_.modify f) s :=
  ⟨rfl, fun _ _ e => by cases e; exact h⟩

theorem Calm.set {u s : State} (h : u.rngPos = s.rngPos) :
    Calm (set u : Py PUnit) (MonadStateOf.set u) s :=
  ⟨rfl, fun _ _ e => by cases e; exact h⟩

theorem Calm.ite {c : Prop} [Decidable c] {x y x' y' : Py α} {s : State} (h : Calm x y s)
    (h' : Calm x' y' s) : Calm (if c then x else x') (if c then y else y') s := by
  split
  · exact h
  · exact h'

theorem keeps_ok {R : State → State → Prop} {x : Py α} (h : Keeps R x) {s t : State} {a : α}
    (hx : x s = .ok a t) : R s t := by
  have := h s
  unfold wp at this
  rw [hx] at this
  exact this

theorem Calm.forEach {s0 : State} {f g : α → Py Unit} :
    ∀ (l : List α), (∀ a ∈ l, ∀ t, LspFrame s0 t → Calm (f a) (g a) t) →
      (∀ a, Keeps LspFrame (f a)) → ∀ s, LspFrame s0 s → Calm (forEach l f) (forEach l g) s := by
  intro l
  induction l with
  | nil => intro _ _ s _; exact Calm.pure () s
  | cons a l ih =>
    intro h hk s hs
    refine Calm.bind (h a (by simp) s hs) fun _ t ht => ?_
    exact ih (fun b hb => h b (by simp [hb])) hk t (hs.trans (keeps_ok (hk a) ht))

end

/-- at most one element -/
theorem length_le_one {α : Type} {l : List α} (hn : l.Nodup) (h : ∀ a ∈ l, ∀ b ∈ l, a = b) :
    l = [] ∨ ∃ a, l = [a] := by
  match l, hn, h with
  | [], _, _ => exact .inl rfl
  | [a], _, _ => exact .inr ⟨a, rfl⟩
  | a :: b :: l, hn, h =>
    have := h a (by simp) b (by simp)
    subst this
    simp at hn

theorem distinctCosts_frame {s t : State} (h : LspFrame s t) (hn : DistinctCosts s) : DistinctCosts t := by
  have hup : RsvpUp t = RsvpUp s := by
    funext i
    unfold RsvpUp
    rw [h.ifs, h.ifc i]
  have ht : t.tail = s.tail := funext h.tail
  have hh : t.head = s.head := funext h.head
  have hc : (fun i => (t.ifc i).cost) = fun i => (s.ifc i).cost := by
    funext i
    rw [h.ifc i]
  unfold DistinctCosts
  rw [h.lsps, hup, ht, hh, h.lspSrc, h.lspDst, hc]
  exact hn

/-- two cheapest paths of an LSP are the same path -/
theorem distinct_cheapest {s : State} (h : DistinctCosts s) (hc : PosCosts s) {l : ℕ} (hl : l ∈ s.lsps)
    {ok : ℕ → Prop} (hok : ∀ i, ok i → RsvpUp s i) {p q : List ℕ}
    (hp : CheapestOver s ok (s.lspSrc l) p (s.lspDst l))
    (hq : CheapestOver s ok (s.lspSrc l) q (s.lspDst l)) : p = q := by
  have key : ∀ r, CheapestOver s ok (s.lspSrc l) r (s.lspDst l) →
      SimpleRoute s.tail s.head (RsvpUp s) (s.lspSrc l) r (s.lspDst l) := fun r hr =>
    ⟨hr.1.mono fun i _ hi => hok i hi,
      cheapest_simple (fun i hi => hc i (hok i (Route.mem_ok hr.1 i hi)).1) hr⟩
  exact h l hl p q (key p hp) (key q hq) (le_antisymm (hp.2 q hq.1) (hq.2 p hp.1))

theorem reserveOn_rngPos (s : State) (p : List ℕ) (v : ℚ) : (s.reserveOn p v).rngPos = s.rngPos := by
  unfold State.reserveOn
  induction p generalizing s with
  | nil => rfl
  | cons i p ih => exact ih (s.addReserved i v)

theorem calm_signalLsp (env : Env) (r : ℕ → ℕ) {s : State} (h : Sane s) (hn : DistinctCosts s) (traff : ℚ)
    {l : ℕ} (hl : l ∈ s.lsps) :
    Calm (signalLsp env traff l) (signalLsp { env with rand := r } traff l) s := by
  unfold signalLsp
  refine Calm.bind (Calm.get s) fun s' t ht => ?_
  cases ht
  refine Calm.bind (Calm.liftE _ s) fun x t ht => ?_
  have ht' : t = s := by
    unfold liftE at ht
    split at ht
    · cases ht; rfl
    · cases ht
  subst ht'
  refine Calm.bind (Calm.set rfl) fun _ u hu => ?_
  clear hu
  generalize x.setup.getD 0 = b
  cases hsp : (t.lspGraph b).allShortestPaths (t.lspSrc l) (t.lspDst l) with
  | error e =>
    cases e <;> first | exact Calm.modify rfl | exact Calm.raise _ _
  | ok nxSp =>
    refine Calm.bind (Calm.liftE _ u) fun all v hv => ?_
    have hall : t.lspCandidates b nxSp = .ok all := by
      unfold liftE at hv
      split at hv
      · next hx => cases hv; exact hx
      · cases hv
    clear hv
    refine Calm.bind (Calm.liftE _ v) fun cands w hw => ?_
    have hcands : t.withHeadroom b all = .ok cands := by
      unfold liftE at hw
      split at hw
      · next hx => cases hw; exact hx
      · cases hw
    clear hw
    obtain ⟨hnd, hmem⟩ := lspCandidates_spec h hsp hall
    have hres : ∀ p ∈ all, ∀ i ∈ p, b ≤ t.reservable i := by
      intro p hp i hi
      exact (Route.mem_ok ((hmem p).1 hp).1 i hi).1.2.2
    obtain ⟨rfl, -⟩ := withHeadroom_eq hres hcands
    rcases length_le_one hnd (fun p hp q hq => distinct_cheapest hn h.costs hl
      (fun i (hi : RsvpUsable t b i) => ⟨hi.1.1, hi.1.2.1, hi.2⟩) ((hmem p).1 hp) ((hmem q).1 hq))
      with rfl | ⟨p, rfl⟩
    · exact Calm.modify rfl
    · refine Calm.bind (Calm.pure p w) fun q z hz => Calm.modify ?_
      exact reserveOn_rngPos _ _ _

/-- there is one node path at most -/
theorem one_node_path {s : State} (h : Sane s) (hn : DistinctCosts s) {l : ℕ} (hl : l ∈ s.lsps)
    {es : List ℕ} (hes : ∀ i ∈ es, RsvpUp s i) {ps : List (List String)}
    (hp : (s.graphOf es).allShortestPaths (s.lspSrc l) (s.lspDst l) = .ok ps) :
    ∃ np, ps = [np] := by
  have hsub : es ⊆ s.ifs := fun i hi => (hes i hi).1
  obtain ⟨h1, h2, h3⟩ := allShortestPaths_ok (graphOf_closed h hsub) (graphOf_pos h hsub) hp
  have key : ∀ np ∈ ps, ∃ q, CheapestOver s (· ∈ es) (s.lspSrc l) q (s.lspDst l) ∧
      np = s.lspSrc l :: q.map s.head := by
    intro np hnp
    obtain ⟨rest, rfl, hcw⟩ := (h3 np).1 hnp
    obtain ⟨q, q2, q3, q4⟩ := hcw.1.exists_route (graphOf_min h hsub)
    refine ⟨q, (cheapest_iff (graphOf_min h hsub)).2 ⟨q2, ?_, ?_⟩, by rw [q3]⟩
    · rw [q3]; exact hcw
    · rw [q3]; exact q4
  rcases length_le_one h1 (fun a ha b hb => by
    obtain ⟨p, hp, rfl⟩ := key a ha
    obtain ⟨q, hq, rfl⟩ := key b hb
    rw [distinct_cheapest hn h.costs hl hes hp hq]) with h | h
  · exact absurd h h2
  · exact h

theorem one_routedCandidate (env : Env) {s : State} (h : Sane s) (hn : DistinctCosts s) {l : ℕ}
    (hl : l ∈ s.lsps) (path : List ℕ) (res needed : ℚ) :
    s.routedCandidates env (s.lspSrc l) (s.lspDst l) path res needed = [] ∨
      ∃ p, s.routedCandidates env (s.lspSrc l) (s.lspDst l) path res needed = [p] := by
  unfold State.routedCandidates
  have hperm := env.ordI_perm (s.routedEdges path res needed)
  generalize env.ordI (s.routedEdges path res needed) = es at hperm
  have hes : ∀ i ∈ es, RsvpUp s i := by
    intro i hi
    have := hperm.mem_iff.1 hi
    unfold State.routedEdges at this
    simp only [List.mem_filter, Bool.and_eq_true, Bool.not_eq_true', decide_eq_true_eq] at this
    exact ⟨this.1, this.2.1.1, this.2.1.2⟩
  have hsub : es ⊆ s.ifs := fun i hi => (hes i hi).1
  cases hk : s.kind with
  | perf =>
    simp only []
    have hg : s.graphOf es =
        { nodes := s.graphNodes es, w := weightDi s.tail s.head s.costOf es } := by
      unfold State.graphOf; rw [hk]
    rw [← hg]
    cases hps : (s.graphOf es).allShortestPaths (s.lspSrc l) (s.lspDst l) with
    | error e => exact .inl rfl
    | ok ps =>
      obtain ⟨np, rfl⟩ := one_node_path h hn hl hes hps
      simp only [List.map_cons, List.map_nil]
      cases (s.convertPerf np).toOption with
      | none => exact .inl rfl
      | some p => exact .inr ⟨p, rfl⟩
  | flex =>
    simp only []
    have hg : s.graphOf es =
        { nodes := s.graphNodes es, w := weightMulti s.tail s.head s.costOf es } := by
      unfold State.graphOf; rw [hk]
    rw [← hg]
    cases hps : (s.graphOf es).allShortestPaths (s.lspSrc l) (s.lspDst l) with
    | error e => exact .inl rfl
    | ok ps =>
      obtain ⟨np, rfl⟩ := one_node_path h hn hl hes hps
      refine .inr ⟨(hopsByIndex np).flatMap (s.routedHop path res needed), ?_⟩
      simp only [List.map_cons, List.map_nil, State.normalize, List.flatMap_cons, List.flatMap_nil,
        List.append_nil]
      rw [convertRouted_eq, pyProduct_singletons]

theorem calm_findPathWithBw (env : Env) (r : ℕ → ℕ) {s : State} (h : Sane s) (hn : DistinctCosts s)
    {l : ℕ} (hl : l ∈ s.lsps) (needed : ℚ) :
    Calm (findPathWithBw env l needed) (findPathWithBw { env with rand := r } l needed) s := by
  unfold findPathWithBw
  refine Calm.bind (Calm.get s) fun s' t ht => ?_
  cases ht
  refine Calm.bind (Calm.liftE _ s) fun path t ht => ?_
  refine Calm.bind (Calm.liftE _ t) fun res u hu => ?_
  clear ht hu
  rw [show s.routedCandidates { env with rand := r } (s.lspSrc l) (s.lspDst l) path res needed =
    s.routedCandidates env (s.lspSrc l) (s.lspDst l) path res needed from rfl]
  have hone := one_routedCandidate env h hn hl path res needed
  generalize s.routedCandidates env (s.lspSrc l) (s.lspDst l) path res needed = cands at hone ⊢
  dsimp only
  split
  · exact Calm.raise _ _
  · rcases hone with rfl | ⟨p, rfl⟩
    · exact Calm.pure _ _
    · refine Calm.bind (Calm.pure p u) fun q v hv => ?_
      refine Calm.bind (Calm.modify rfl) fun _ w hw => ?_
      refine Calm.bind (Calm.get w) fun x z hz => ?_
      cases hz
      refine Calm.bind (Calm.liftE _ w) fun y z hz => ?_
      have hz' : z = w := by
        unfold liftE at hz
        split at hz
        · cases hz; rfl
        · cases hz
      subst hz'
      exact Calm.set rfl

theorem calm_reoptLsp (env : Env) (r : ℕ → ℕ) {s : State} (h : Sane s) (hn : DistinctCosts s)
    {l : ℕ} (hl : l ∈ s.lsps) (needed : ℚ) :
    Calm (reoptLsp env needed l) (reoptLsp { env with rand := r } needed l) s := by
  unfold reoptLsp
  refine Calm.bind (Calm.get s) fun s' t ht => ?_
  cases ht
  refine Calm.bind (Calm.liftE _ s) fun path t ht => ?_
  have ht' : t = s := by
    unfold liftE at ht
    split at ht
    · cases ht; rfl
    · cases ht
  subst ht'
  refine Calm.bind (calm_findPathWithBw env r h hn hl needed) fun _ u _ => ?_
  refine Calm.bind (Calm.get u) fun v w _ => ?_
  split
  · refine Calm.bind (Calm.liftE _ w) fun old x _ => ?_
    refine Calm.bind (Calm.modify (reserveOn_rngPos _ _ _)) fun _ y _ => ?_
    refine Calm.bind (Calm.get y) fun z z' _ => ?_
    refine Calm.bind (Calm.liftE _ z') fun a b _ => ?_
    refine Calm.bind (Calm.liftE _ b) fun c d _ => ?_
    exact Calm.modify (reserveOn_rngPos _ _ _)
  · exact Calm.pure _ _

theorem calm_routeGroup (env : Env) (r : ℕ → ℕ) {s : State} (h : Sane s) (hn : DistinctCosts s)
    (dg : List (String × List ℕ)) {grp : String × List ℕ} (hg : ∀ l ∈ grp.2, l ∈ s.lsps) :
    Calm (routeGroup env dg grp) (routeGroup { env with rand := r } dg grp) s := by
  unfold routeGroup
  refine Calm.bind (Calm.get s) fun s' t ht => ?_
  cases ht
  have hsig : ∀ each, Calm (forEach grp.2 (signalLsp env each))
      (forEach grp.2 (signalLsp { env with rand := r } each)) s := fun each =>
    Calm.forEach (s0 := s) grp.2 (fun l hl t ht => calm_signalLsp env r (ht.sane h)
      (distinctCosts_frame ht hn) each (by rw [ht.lsps]; exact hg l hl))
      (fun l => keeps_signalLsp env each l) s (.refl s)
  refine Calm.bind (hsig _) fun _ t ht => ?_
  have hf : LspFrame s t := keeps_ok (Keeps.forEach LspFrame.frame _
    (fun l => keeps_signalLsp env _ l) _) ht
  clear ht
  refine Calm.bind (Calm.get t) fun u v hv => ?_
  cases hv
  refine Calm.ite ?_ (Calm.pure _ _)
  refine Calm.forEach (s0 := s) _ ?_ (fun l => keeps_reoptLsp env _ l) t hf
  intro l hl v hv
  exact calm_reoptLsp env r (hv.sane h) (distinctCosts_frame hv hn)
    (by rw [hv.lsps]; exact hg l (List.mem_of_mem_filter hl)) _

theorem calm_routeLsps (env : Env) (r : ℕ → ℕ) {s : State} (hs : s.groups = []) (h : Sane s)
    (hn : DistinctCosts s) :
    Calm (routeLsps env) (routeLsps { env with rand := r }) s := by
  unfold routeLsps
  refine Calm.bind (Calm.modify rfl) fun _ t ht => ?_
  have ht' : t = s.clearReserved := by cases ht; rfl
  subst ht'
  have h1 : lspGroups env s.clearReserved =
      .ok (buildGroups env s.lsps s.lspSrc s.lspDst)
        { s.clearReserved with groups := buildGroups env s.lsps s.lspSrc s.lspDst } := by
    unfold lspGroups
    have : s.clearReserved.groups = [] := hs
    rw [this]
    simp only [ne_eq, not_true_eq_false, if_false]
    rfl
  refine Calm.bind ⟨rfl, fun a t e => ?_⟩ fun gs t e => ?_
  · rw [h1] at e; cases e; rfl
  rw [h1] at e
  cases e
  refine Calm.bind (Calm.get _) fun u v hv => ?_
  cases hv
  generalize hz : ({ s.clearReserved with groups := buildGroups env s.lsps s.lspSrc s.lspDst } :
    State) = z
  have hf : LspFrame s { z with groups := s.groups } := by
    subst hz
    exact LspFrame.clearReserved s
  have hz1 : Sane z := by
    have := hf.sane h
    exact ⟨this.nodup, this.costs, this.single⟩
  have hz2 : DistinctCosts z := by
    have := distinctCosts_frame hf hn
    exact this
  have hz3 : z.lsps = s.lsps := hf.lsps
  exact Calm.forEach (s0 := z) _ (fun g hg t ht => calm_routeGroup env r (ht.sane hz1)
    (distinctCosts_frame ht hz2) _ (fun l hl => by
      rw [ht.lsps, hz3]; exact mem_of_buildGroups hg hl))
    (fun g => keeps_routeGroup env _ g) z (.refl z)

/-! ### Demands and validation draw nothing -/

theorem findShortcut_seed (env : Env) (r : ℕ → ℕ) (s : State) (u : String) (vs : List String) :
    findShortcut { env with rand := r } s u vs = findShortcut env s u vs := by
  induction vs with
  | nil => rfl
  | cons v vs ih =>
    unfold findShortcut
    rw [ih]
    rfl

theorem shortcutLsps_seed (env : Env) (r : ℕ → ℕ) (path rest : List String)
    (skip : Option String) :
    shortcutLsps { env with rand := r } path rest skip = shortcutLsps env path rest skip := by
  induction rest generalizing skip with
  | nil => rfl
  | cons u rest ih =>
    unfold shortcutLsps
    simp only [ih, findShortcut_seed]

theorem insertShortcuts_seed (env : Env) (r : ℕ → ℕ) (nps : List (List String))
    (ps : List (List ℕ)) :
    insertShortcuts { env with rand := r } nps ps = insertShortcuts env nps ps := by
  unfold insertShortcuts
  simp only [shortcutLsps_seed]

theorem routeDemands_seed (env : Env) (r : ℕ → ℕ) :
    routeDemands { env with rand := r } = routeDemands env := by
  have h : ∀ g es d, routeDemand { env with rand := r } g es d = routeDemand env g es d := by
    intro g es d
    have e : ∀ a b, igpPaths { env with rand := r } g es a b = igpPaths env g es a b := by
      intro a b
      unfold igpPaths findIgpShortcuts
      simp only [insertShortcuts_seed]
    unfold routeDemand
    simp only [e]
    rfl
  unfold routeDemands
  simp only [funext (h _ _)]
  rfl

/-- `k` random choices have been drawn -/
def Still (k : ℕ) (t : State) : Prop := t.rngPos = k

section
variable {k : ℕ}

theorem still_lspGroups (env : Env) : Stays (Still k) (lspGroups env) := by
  intro s h
  unfold wp lspGroups
  split
  · next a t e =>
    split at e
    · cases e; exact h
    · cases e; exact h
  · next e' t e =>
    split at e <;> cases e

theorem still_ridingLsps (env : Env) (key : String) : Stays (Still k) (ridingLsps env key) := by
  have := still_lspGroups (k := k) env
  unfold ridingLsps
  stays

theorem still_bestLsps (env : Env) (key : String) : Stays (Still k) (bestLsps env key) := by
  have := still_lspGroups (k := k) env
  unfold bestLsps
  stays

theorem still_findShortcut (env : Env) (s : State) (u : String) (vs : List String) :
    Stays (Still k) (findShortcut env s u vs) := by
  induction vs with
  | nil => exact Stays.pure _
  | cons v vs ih =>
    have := still_bestLsps (k := k) env (pairKey u v)
    unfold findShortcut
    stays

theorem still_shortcutLsps (env : Env) (path : List String) (l : List String) :
    ∀ skip, Stays (Still k) (shortcutLsps env path l skip) := by
  induction l with
  | nil => intro _; exact Stays.pure _
  | cons u l ih =>
    intro skip
    unfold shortcutLsps
    have h1 := ih skip
    refine Stays.bind Stays.get fun s => ?_
    refine Stays.ite h1 ?_
    · refine Stays.bind (Stays.liftE _) fun n => ?_
      split
      · refine Stays.bind (still_findShortcut _ _ _ _) fun found => ?_
        split
        · exact Stays.bind (ih _) fun _ => Stays.pure _
        · exact h1
      · exact h1

theorem still_insertShortcuts (env : Env) (np : List (List String)) (ps : List (List ℕ)) :
    Stays (Still k) (insertShortcuts env np ps) := by
  unfold insertShortcuts
  refine Stays.bind ?_ fun found => ?_
  · refine Stays.foldlM _ ?_ _ _
    intro b a
    exact Stays.bind (still_shortcutLsps _ _ _ _) fun _ => Stays.pure _
  · stays

theorem still_findIgpShortcuts (env : Env) (ps : List (List ℕ)) (np : List (List String)) :
    Stays (Still k) (findIgpShortcuts env ps np) := by
  have := still_insertShortcuts (k := k) env np ps
  unfold findIgpShortcuts
  stays

theorem still_igpPaths (env : Env) (g : NxG) (es : List ℕ) (a b : String) :
    Stays (Still k) (igpPaths env g es a b) := by
  unfold igpPaths
  refine Stays.bind Stays.get fun s => ?_
  split
  · stays
  · stays
  · split
    · stays
    · exact Stays.bind (still_findIgpShortcuts _ _ _) fun _ => Stays.pure _



theorem still_routeDemand (env : Env) (g : NxG) (es : List ℕ) (d : ℕ) :
    Stays (Still k) (routeDemand env g es d) := by
  unfold routeDemand
  refine Stays.bind (Stays.modify fun s h => h) fun _ =>
    Stays.bind Stays.get fun s => Stays.bind (still_ridingLsps _ _) fun ls => ?_
  split
  · exact Stays.bind (still_igpPaths _ _ _ _ _) fun p =>
      Stays.modify fun s h => h
  · exact Stays.modify fun s h => h

theorem still_addTraffic (i : ℕ) (q : ℚ) : Stays (Still k) (addTraffic i q) := by
  intro s h
  unfold wp addTraffic
  cases (s.ifc i).traffic with
  | down => exact h
  | val t => exact h

theorem still_applyItem (c : Kind) (infos : List PathInfo) (x : Item) :
    Stays (Still k) (applyItem c infos x) := by
  unfold applyItem
  split
  · exact still_addTraffic _ _
  · exact Stays.raise _
  · exact Stays.forEach _ _ fun p _ => Stays.ite (still_addTraffic _ _) (Stays.pure _)
  · exact Stays.bind Stays.get fun s => Stays.bind (Stays.liftE _) fun ifs =>
      Stays.forEach _ _ fun i _ => still_addTraffic _ _

theorem still_loadDemand (env : Env) (d : ℕ) : Stays (Still k) (loadDemand env d) := by
  unfold loadDemand
  refine Stays.bind Stays.get fun s => ?_
  split
  · exact Stays.pure _
  · refine Stays.bind (still_bestLsps _ _) fun ls => Stays.bind Stays.get fun s' => ?_
    split
    · exact Stays.bind (Stays.liftE _) fun infos =>
        Stays.bind (Stays.modify fun s h => h) fun _ =>
        Stays.forEach _ _ fun x _ => still_applyItem _ _ _
    · refine Stays.bind (Stays.forEach _ _ fun l _ => ?_) fun _ =>
        Stays.modify fun s h => h
      exact Stays.bind Stays.get fun s => Stays.bind (Stays.liftE _) fun ifs =>
        Stays.forEach _ _ fun i _ => still_addTraffic _ _

theorem still_routeDemands (env : Env) : Stays (Still k) (routeDemands env) := by
  unfold routeDemands
  refine Stays.bind Stays.get fun s =>
    Stays.bind (Stays.forEach _ _ fun d _ => still_routeDemand _ _ _ _) fun _ => ?_
  unfold updateUtilization
  exact Stays.bind (Stays.modify fun s h => h) fun _ => Stays.bind Stays.get fun _ =>
    Stays.forEach _ _ fun d _ => still_loadDemand _ _

theorem still_validate (env : Env) : Stays (Still k) (validate env) := by
  intro s hs
  refine wp_mono (validate_spec env s) ?_ ?_
  · rintro _ t ⟨u, h1, rfl, -⟩
    obtain ⟨B, I, hu⟩ := h1.eq
    rw [hu]
    exact hs
  · rintro _ t ⟨B, I, ⟨C, rfl, h1, -⟩ | ⟨u, h1, ht, -⟩⟩
    · exact hs
    · obtain ⟨B, I, hu⟩ := h1.eq
      rcases ht with rfl | rfl
      · rw [hu]; exact hs
      · rw [hu]; exact hs

end

theorem Calm.of_stays {α : Type} {x y : Py α} (he : y = x) (h : ∀ k, Stays (Still k) x)
    (s : State) : Calm x y s := by
  subst he
  refine ⟨rfl, fun a t ht => ?_⟩
  have := h s.rngPos s rfl
  unfold wp at this
  rw [ht] at this
  exact this

theorem calm_updateSimulation (env : Env) (r : ℕ → ℕ) {s : State} (h : Sane s)
    (hn : DistinctCosts s) :
    Calm (updateSimulation env) (updateSimulation { env with rand := r }) s := by
  unfold updateSimulation
  refine Calm.bind (Calm.modify rfl) fun _ t ht => ?_
  have ht' : t = s.resetSim := by cases ht; rfl
  subst ht'
  have h1 := (SameCfg.frame.refl s).resetSim
  have hs : Sane s.resetSim := by
    refine ⟨h.nodup, fun i hi => ?_, fun hk i hi j hj => ?_⟩
    · rw [h1.ifc i]; exact h.costs i hi
    · have ht : ∀ i, s.resetSim.tail i = s.tail i := fun i => by
        unfold State.tail; rw [h1.ifc i, h1.node]
      have hh : ∀ i, s.resetSim.head i = s.head i := fun i => by
        unfold State.head; rw [h1.ifc i, h1.node]
      rw [ht, ht, hh, hh]
      exact h.single hk i hi j hj
  have hd : DistinctCosts s.resetSim := by
    have ht : s.resetSim.tail = s.tail := funext fun i => by
      unfold State.tail; rw [h1.ifc i, h1.node]
    have hh : s.resetSim.head = s.head := funext fun i => by
      unfold State.head; rw [h1.ifc i, h1.node]
    have hc : (fun i => (s.resetSim.ifc i).cost) = fun i => (s.ifc i).cost :=
      funext fun i => by rw [h1.ifc i]
    have ha : s.resetSim.lspSrc = s.lspSrc := funext fun l => by
      unfold State.lspSrc; rw [h1.lsp l, h1.node]
    have hb : s.resetSim.lspDst = s.lspDst := funext fun l => by
      unfold State.lspDst; rw [h1.lsp l, h1.node]
    have hu : RsvpUp s.resetSim = RsvpUp s := funext fun i => by
      unfold RsvpUp; rw [h1.ifs, h1.ifc i]
    unfold DistinctCosts
    rw [h1.lsps, ht, hh, hc, ha, hb, hu]
    exact hn
  refine Calm.bind (calm_routeLsps env r rfl hs hd) fun _ t _ => ?_
  refine Calm.bind (Calm.of_stays (routeDemands_seed env r) (fun k => still_routeDemands env) t)
    fun _ u _ => ?_
  exact Calm.of_stays rfl (fun k => still_validate env) u

end NTM
