import Verif.Proof.Signal

/-!
# Re-signalling a routed LSP
-/

namespace NTM

open Spec

theorem _root_.NTM.Spec.Route.mono {tail head : ℕ → String} {ok ok' : ℕ → Prop} {a b : String} {p : List ℕ}
    (h : Route tail head ok a p b) (hp : ∀ i ∈ p, ok i → ok' i) : Route tail head ok' a p b := by
  induction h with
  | nil => exact .nil _
  | cons h1 _ ih => exact .cons (hp _ (by simp) h1) (ih fun j hj => hp j (by simp [hj]))

/-- with positive costs a cheapest route visits no node twice -/
theorem cheapest_simple {tail head : ℕ → String} {cost : ℕ → ℕ} {ok : ℕ → Prop} {a b : String}
    {p : List ℕ} (hpos : ∀ i ∈ p, 1 ≤ cost i) (h : Cheapest tail head cost ok a p b) :
    (visited head a p).Nodup := by
  have hok := Route.mem_ok h.1
  have h' : Cheapest tail head cost (· ∈ p) a p b :=
    ⟨h.1.mono fun i hi _ => hi, fun q hq => h.2 q (hq.mono fun i _ hi => hok i hi)⟩
  have hw : MinWeight tail head cost p (weightMulti tail head cost p) := weightMulti_min
  have := ((cheapest_iff hw).1 h').2.1
  refine this.nodup ?_
  intro u v c hc
  obtain ⟨i, hi, -, -, rfl⟩ := hw.attained hc
  exact hpos i hi

theorem visited_nodup_path {head : ℕ → String} {a : String} {p : List ℕ}
    (h : (visited head a p).Nodup) : p.Nodup := by
  unfold visited at h
  rw [List.nodup_cons] at h
  exact h.2.of_map

/-- what a re-signalled LSP from `a` to `b` may be moved to -/
structure ReoptCand (s : State) (path : List ℕ) (res needed : ℚ) (a b : String) (p : List ℕ) :
    Prop where
  nodup : p.Nodup
  hop : ∀ i ∈ p, i ∈ s.ifs ∧
    ((s.memIfc i path = true ∧ needed ≤ s.reservable i + res) ∨ needed ≤ s.reservable i)
  good : SingleLinks s → CheapestOver s (· ∈ s.routedEdges path res needed) a p b
  covers : ∃ q, CheapestOver s (· ∈ s.routedEdges path res needed) a q b ∧ (∀ i ∈ q, i ∈ p) ∧
    ∀ i ∈ p, ∃ j ∈ q, s.tail i = s.tail j ∧ s.head i = s.head j

theorem hops_of_route {tail head : ℕ → String} {ok : ℕ → Prop} {a b : String} {q : List ℕ}
    (h : Route tail head ok a q b) :
    hops (a :: q.map head) = q.map fun j => (tail j, head j) := by
  unfold hops
  induction h with
  | nil _ => rfl
  | cons _ _ ih =>
    rw [List.map_cons, List.map_cons, ← ih]
    simp

theorem mem_routedEdges {s : State} {path : List ℕ} {res needed : ℚ} {i : ℕ} :
    i ∈ s.routedEdges path res needed ↔ i ∈ s.ifs ∧ (s.ifc i).failed = false ∧
      (s.ifc i).rsvpEnabled = true ∧ needed ≤ s.effReservable path res i := by
  unfold State.routedEdges
  rw [List.mem_filter]
  simp [and_assoc]

theorem routedEdges_hop {s : State} {path : List ℕ} {res needed : ℚ} {i : ℕ}
    (h : i ∈ s.routedEdges path res needed) : i ∈ s.ifs ∧
      ((s.memIfc i path = true ∧ needed ≤ s.reservable i + res) ∨ needed ≤ s.reservable i) := by
  obtain ⟨h1, -, -, h4⟩ := mem_routedEdges.1 h
  refine ⟨h1, ?_⟩
  unfold State.effReservable at h4
  split at h4
  · next hm => exact .inl ⟨hm, h4⟩
  · exact .inr h4

theorem pyProduct_singletons (l : List ℕ) : pyProduct (l.map fun i => [i]) = [l] := by
  induction l with
  | nil => rfl
  | cons x l ih => simp [pyProduct, ih]

/-- the interfaces `convertRouted` lists for one hop -/
def State.routedHop (s : State) (path : List ℕ) (res needed : ℚ) (h : String × String) : List ℕ :=
  (s.ifs.filter fun i => s.tail i = h.1 && s.head i = h.2).filter fun i =>
    (s.memIfc i path && decide (needed ≤ s.reservable i + res)) ||
      decide (needed ≤ s.reservable i)

theorem mem_routedHop {s : State} {path : List ℕ} {res needed : ℚ} {h : String × String} {i : ℕ} :
    i ∈ s.routedHop path res needed h ↔ i ∈ s.ifs ∧ s.tail i = h.1 ∧ s.head i = h.2 ∧
      ((s.memIfc i path = true ∧ needed ≤ s.reservable i + res) ∨ needed ≤ s.reservable i) := by
  unfold State.routedHop
  rw [List.mem_filter, List.mem_filter]
  simp [and_assoc]

theorem convertRouted_eq (s : State) (path : List ℕ) (res needed : ℚ) (np : List String) :
    s.convertRouted path res needed np =
      ((hopsByIndex np).flatMap (s.routedHop path res needed)).map fun i => [i] := by
  unfold State.convertRouted
  rw [List.map_flatMap]
  rfl

theorem nodup_hops {np : List String} (h : np.Nodup) : (hops np).Nodup := by
  unfold hops
  have : ((np.zip np.tail).map Prod.snd).Nodup := by
    rw [List.map_snd_zip (by simp)]
    exact h.tail
  exact this.of_map

theorem routedCandidates_spec {s : State} (h : Sane s) {env : Env} {a b : String} {path : List ℕ}
    {res needed : ℚ} {p : List ℕ}
    (hp : p ∈ s.routedCandidates env a b path res needed) :
    ReoptCand s path res needed a b p := by
  unfold State.routedCandidates at hp
  have hperm := env.ordI_perm (s.routedEdges path res needed)
  generalize env.ordI (s.routedEdges path res needed) = es at hp hperm
  have hmem : ∀ i, i ∈ es ↔ i ∈ s.routedEdges path res needed := fun i => hperm.mem_iff
  have hes : es ⊆ s.ifs := fun i hi => (mem_routedEdges.1 ((hmem i).1 hi)).1
  have hcongr : ∀ p, CheapestOver s (· ∈ es) a p b ↔
      CheapestOver s (· ∈ s.routedEdges path res needed) a p b :=
    fun p => CheapestOver.congr hmem
  cases hk : s.kind with
  | perf =>
    rw [hk] at hp
    simp only [] at hp
    have hg : s.graphOf es =
        { nodes := s.graphNodes es, w := weightDi s.tail s.head s.costOf es } := by
      unfold State.graphOf; rw [hk]
    rw [← hg] at hp
    split at hp
    · cases hp
    · next ps hps =>
      obtain ⟨l, h1, h2, h3⟩ := perf_paths h hk hes hps
      rw [h1] at hp
      have hch := (h3 p).1 hp
      refine ⟨?_, ?_, fun _ => (hcongr p).1 hch, p, (hcongr p).1 hch, fun _ hi => hi,
        fun i hi => ⟨i, hi, rfl, rfl⟩⟩
      · exact visited_nodup_path (cheapest_simple
          (fun i hi => h.costs i (hes (Route.mem_ok hch.1 i hi))) hch)
      · intro i hi
        exact routedEdges_hop ((hmem i).1 (Route.mem_ok hch.1 i hi))
  | flex =>
    rw [hk] at hp
    simp only [] at hp
    have hg : s.graphOf es =
        { nodes := s.graphNodes es, w := weightMulti s.tail s.head s.costOf es } := by
      unfold State.graphOf; rw [hk]
    rw [← hg] at hp
    split at hp
    · cases hp
    · next ps hps =>
      unfold State.normalize at hp
      rw [List.flatMap_map, List.mem_flatMap] at hp
      obtain ⟨np, hnp, hp⟩ := hp
      rw [convertRouted_eq, pyProduct_singletons, List.mem_singleton] at hp
      obtain ⟨-, -, hps'⟩ := allShortestPaths_ok (graphOf_closed h hes) (graphOf_pos h hes) hps
      obtain ⟨rest, rfl, hcw⟩ := (hps' np).1 hnp
      have hnd : (a :: rest).Nodup := hcw.nodup (graphOf_pos h hes)
      rw [hopsByIndex_eq hnd] at hp
      refine ⟨?_, ?_, ?_, ?_⟩
      · rw [hp, List.nodup_flatMap]
        refine ⟨fun x _ => (h.nodup.filter _).filter _, ?_⟩
        refine (nodup_hops hnd).imp ?_
        intro x y hxy
        simp only [Function.onFun]
        intro i hi hi'
        obtain ⟨-, h1, h2, -⟩ := mem_routedHop.1 hi
        obtain ⟨-, h3, h4, -⟩ := mem_routedHop.1 hi'
        exact hxy (Prod.ext (h1.symm.trans h3) (h2.symm.trans h4))
      · intro i hi
        rw [hp, List.mem_flatMap] at hi
        obtain ⟨x, -, hx⟩ := hi
        obtain ⟨h1, -, -, h4⟩ := mem_routedHop.1 hx
        exact ⟨h1, h4⟩
      · intro hs
        rw [← hcongr]
        have hsing : Single s.tail s.head es := fun i hi j hj => hs i (hes hi) j (hes hj)
        obtain ⟨q, q1, q2, q3, q4, -⟩ := pick_hops (graphOf_min h hes) hsing
          (pick := fun h => s.ifcFromNodes h.1 h.2)
          (fun i hi => ifcFromNodes_single hs (hes hi)) hcw.1
        have hq : CheapestOver s (· ∈ es) a q b := by
          refine (cheapest_iff (graphOf_min h hes)).2 ⟨q2, ?_, ?_⟩
          · rw [q3]; exact hcw
          · rw [q3]; exact q4
        have hpq : p = q := by
          rw [allSome_eq_some] at q1
          rw [hp]
          have key : ∀ (hs' : List (String × String)) (q : List ℕ),
              hs'.map (fun h => s.ifcFromNodes h.1 h.2) = q.map some → (∀ i ∈ q, i ∈ es) →
              hs'.flatMap (s.routedHop path res needed) = q := by
            intro hs'
            induction hs' with
            | nil => intro q hq _; cases q; rfl; cases hq
            | cons x hs' ih =>
              intro q hq hqe
              cases q with
              | nil => cases hq
              | cons i q =>
                rw [List.map_cons, List.map_cons] at hq
                injection hq with e1 e2
                rw [List.flatMap_cons, ih q e2 (fun j hj => hqe j (by simp [hj]))]
                have hi := hqe i (by simp)
                have hfn := List.find?_some e1
                simp only [Bool.and_eq_true, decide_eq_true_eq] at hfn
                have h1 : s.routedHop path res needed x = [i] := by
                  have hmemi : i ∈ s.routedHop path res needed x :=
                    mem_routedHop.2 ⟨hes hi, hfn.1, hfn.2,
                      (routedEdges_hop ((hmem i).1 hi)).2⟩
                  have huniq : ∀ j ∈ s.routedHop path res needed x, j = i := by
                    intro j hj
                    obtain ⟨g1, g2, g3, -⟩ := mem_routedHop.1 hj
                    exact hs j g1 i (hes hi) (g2.trans hfn.1.symm) (g3.trans hfn.2.symm)
                  have hnd' : (s.routedHop path res needed x).Nodup := (h.nodup.filter _).filter _
                  generalize s.routedHop path res needed x = L at *
                  match L, hmemi, huniq, hnd' with
                  | [j], _, hu, _ => rw [hu j (by simp)]
                  | j :: k :: L, _, hu, hn =>
                    exfalso
                    have e1 := hu j (by simp)
                    have e2 := hu k (by simp)
                    rw [e1, e2] at hn
                    simp at hn
                rw [h1]; rfl
          exact key _ q q1 (Route.mem_ok q2)
        rw [hpq]
        exact hq
      · obtain ⟨q, q2, q3, q4⟩ := hcw.1.exists_route (graphOf_min h hes)
        have hq : CheapestOver s (· ∈ es) a q b := by
          refine (cheapest_iff (graphOf_min h hes)).2 ⟨q2, ?_, ?_⟩
          · rw [q3]; exact hcw
          · rw [q3]; exact q4
        have hh : hops (a :: rest) = q.map fun j => (s.tail j, s.head j) := by
          rw [← q3]; exact hops_of_route q2
        refine ⟨q, (hcongr q).1 hq, fun i hi => ?_, fun i hi => ?_⟩
        · have hi' := Route.mem_ok q2 i hi
          rw [hp, hh, List.mem_flatMap]
          exact ⟨_, List.mem_map_of_mem hi, mem_routedHop.2
            ⟨hes hi', rfl, rfl, (routedEdges_hop ((hmem i).1 hi')).2⟩⟩
        · rw [hp, hh, List.mem_flatMap] at hi
          obtain ⟨x, hx, hi⟩ := hi
          obtain ⟨j, hj, rfl⟩ := List.mem_map.1 hx
          obtain ⟨-, h1, h2, -⟩ := mem_routedHop.1 hi
          exact ⟨j, hj, h1, h2⟩

/-- the setup bandwidth an LSP reports after being re-signalled for `needed` -/
def Lsp.newSetup (x : Lsp) (needed : ℚ) : ℚ :=
  match x.configured with
  | some c => if c ≠ 0 then c else needed
  | none => needed

theorem setSetup_new {x y : Lsp} {q : ℚ} (h : x.setSetup q = .ok y) :
    y = { x with setup := some (x.newSetup q) } := by
  obtain ⟨src, dst, name, path, reserved, setup, configured, manual, initialMetric⟩ := x
  unfold Lsp.setSetup at h
  unfold Lsp.newSetup
  cases configured with
  | none =>
    simp only [] at h ⊢
    split at h
    · cases h; rfl
    · cases h
  | some c =>
    simp only [] at h ⊢
    split at h
    · next h0 => cases h; rw [if_pos h0]
    · next h0 =>
      split at h
      · cases h; rw [if_neg h0]
      · cases h

/-- the outcome of re-signalling the routed LSP `l` for `needed` -/
def Resignalled (s : State) (needed : ℚ) (l : ℕ) (t : State) : Prop :=
  ∃ path c h res, (s.lsp l).path = .routed path c h ∧ (s.lsp l).reserved = .val res ∧
    (t = s ∨ ∃ p k x, ReoptCand s path res needed (s.lspSrc l) (s.lspDst l) p ∧ p ≠ [] ∧
      x = { s.lsp l with
        path := .routed p (s.pathCost p) ((s.routedHeadroom path res p).getD 0)
        reserved := .val needed
        setup := some ((s.lsp l).newSetup needed) } ∧
      t = { (if res = needed then s.updLsp l fun _ => x
        else ((s.updLsp l fun _ => x).reserveOn path (-res)).reserveOn p needed) with
        rngPos := k })

theorem LspPath.interfaces_inv {x : LspPath} {p : List ℕ} (h : x.interfaces = .ok p) :
    ∃ c m, x = .routed p c m := by
  unfold LspPath.interfaces at h
  split at h <;> cases h
  exact ⟨_, _, rfl⟩

theorem reserveOn_rng (s : State) (p : List ℕ) (v : ℚ) (k : ℕ) :
    State.reserveOn { s with rngPos := k } p v = { s.reserveOn p v with rngPos := k } := by
  unfold State.reserveOn
  induction p generalizing s with
  | nil => rfl
  | cons i p ih => exact ih (s.addReserved i v)

theorem reserveOn_lsp (s : State) (p : List ℕ) (v : ℚ) : (s.reserveOn p v).lsp = s.lsp := by
  unfold State.reserveOn
  induction p generalizing s with
  | nil => rfl
  | cons i p ih => exact ih (s.addReserved i v)

/-- a candidate of a completed re-signalling is not empty -/
theorem findPathWithBw_spec {env : Env} {l : ℕ} {needed : ℚ} {s : State} (h : Sane s) :
    wp (findPathWithBw env l needed)
      (fun _ t => ∃ path c m res, (s.lsp l).path = .routed path c m ∧
        (s.lsp l).reserved = .val res ∧
        (t = s ∨ ∃ p k x, ReoptCand s path res needed (s.lspSrc l) (s.lspDst l) p ∧ p ≠ [] ∧
          x = { s.lsp l with
            path := .routed p (s.pathCost p) ((s.routedHeadroom path res p).getD 0)
            reserved := .val needed
            setup := some ((s.lsp l).newSetup needed) } ∧
          t = { s.updLsp l fun _ => x with rngPos := k }))
      (fun _ t => LspFrame s t) s := by
  have hne : wp (findPathWithBw env l needed) (fun _ _ => ∀ path res,
      (s.lsp l).path.interfaces = .ok path → (s.lsp l).reserved = .val res →
      [] ∉ s.routedCandidates env (s.lspSrc l) (s.lspDst l) path res needed)
      (fun _ _ => True) s := by
    unfold findPathWithBw
    simp only [wp_bind, wp_get, wp_liftE]
    cases hpath : (s.lsp l).path.interfaces with
    | error e => trivial
    | ok path =>
      simp only []
      cases hres : (s.lsp l).reserved with
      | initial => trivial
      | unrouted => trivial
      | val res =>
        simp only [Bw.num]
        by_cases hany : ((s.routedCandidates env (s.lspSrc l) (s.lspDst l) path res needed).any
            fun p => (s.routedHeadroom path res p).isNone) = true
        · rw [if_pos hany]; trivial
        · rw [if_neg hany]
          refine wp_mono (wp_trivial _) ?_ (fun _ _ h => h)
          intro _ _ _ path' res' e1 e2 hmem
          cases e1; cases e2
          apply hany
          rw [List.any_eq_true]
          exact ⟨[], hmem, rfl⟩
  refine wp_mono (wp_and (findPathWithBw_raw env l needed s) hne) ?_ (fun _ _ h => h.1)
  rintro _ t ⟨⟨path, res, h1, h2, h3⟩, hnil⟩
  obtain ⟨c, m, h1'⟩ := LspPath.interfaces_inv h1
  refine ⟨path, c, m, res, h1', h2, ?_⟩
  rcases h3 with ⟨-, rfl⟩ | ⟨p, k, x, hp, hx, rfl⟩
  · exact .inl rfl
  · refine .inr ⟨p, k, x, routedCandidates_spec h hp, ?_, ?_, rfl⟩
    · rintro rfl; exact hnil path res h1 h2 hp
    · have := setSetup_new hx
      exact this

theorem reoptLsp_spec {env : Env} {l : ℕ} {needed : ℚ} {s : State} (h : Sane s) :
    wp (reoptLsp env needed l) (fun _ t => Resignalled s needed l t)
      (fun _ t => LspFrame s t) s := by
  have hk := keeps_reoptLsp env needed l s
  suffices hok : wp (reoptLsp env needed l) (fun _ t => Resignalled s needed l t)
      (fun _ _ => True) s from
    wp_mono (wp_and hok hk) (fun _ _ h => h.1) (fun _ _ h => h.2)
  unfold reoptLsp
  simp only [wp_bind, wp_get, wp_liftE]
  cases hpath : (s.lsp l).path.interfaces with
  | error e => trivial
  | ok before =>
    simp only []
    refine wp_mono (findPathWithBw_spec h) ?_ (fun _ _ _ => trivial)
    rintro _ t ⟨path, c, m, res, h1, h2, h3⟩
    have hb : before = path := by rw [h1] at hpath; cases hpath; rfl
    subst hb
    rcases h3 with rfl | ⟨p, k, x, hc, hne, hx, rfl⟩
    · rw [if_neg (by simp)]
      exact ⟨before, c, m, res, h1, h2, .inl rfl⟩
    · have hl : ({ s.updLsp l fun _ => x with rngPos := k } : State).lsp l = x := by
        simp [State.updLsp]
      rw [hl, h2]
      have hxr : x.reserved = .val needed := by rw [hx]
      have hxp : x.path = .routed p (s.pathCost p) ((s.routedHeadroom before res p).getD 0) := by
        rw [hx]
      rw [hxr]
      by_cases hrn : res = needed
      · rw [if_neg (by simp [hrn])]
        refine ⟨before, c, m, res, h1, h2, .inr ⟨p, k, x, hc, hne, hx, ?_⟩⟩
        rw [if_pos hrn]
      · rw [if_pos (by simpa using hrn)]
        simp only [wp_bind, wp_liftE, Bw.num, wp_modify, wp_get]
        rw [reserveOn_lsp, hl, hxp, hxr]
        simp only [LspPath.interfaces]
        refine ⟨before, c, m, res, h1, h2, .inr ⟨p, k, x, hc, hne, hx, ?_⟩⟩
        rw [if_neg hrn]
        exact (congrArg (fun u => State.reserveOn u p needed)
          (reserveOn_rng _ before (-res) k)).trans (reserveOn_rng _ p needed k)

end NTM
