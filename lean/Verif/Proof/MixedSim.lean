import Verif.Proof.Mixed

/-!
# When every shortest path is substituted
-/

namespace NTM

open Spec

theorem nodup_addNew (ps acc : List (List Item)) (h : acc.Nodup) :
    (ps.foldl (fun acc q => if q ∈ acc then acc else acc ++ [q]) acc).Nodup := by
  induction ps generalizing acc with
  | nil => exact h
  | cons p ps ih =>
    rw [List.foldl_cons]
    apply ih
    split
    · exact h
    · next hp => exact List.nodup_append.2 ⟨h, by simp, fun a ha b hb e => by
        simp only [List.mem_singleton] at hb
        subst hb; subst e; exact hp ha⟩

/-- the substituted paths when no path is left over -/
theorem substitute_all {s : State} {groups : List (List ℕ)} (paths : List (List ℕ))
    (hall : ∀ p ∈ paths, ∃ rs, s.insertLsps groups p = some rs) (acc : List (List Item))
    (hacc : acc.Nodup) :
    let out := paths.foldl (init := acc) fun acc p =>
      match s.insertLsps groups p with
      | some ps => ps.foldl (fun acc q => if q ∈ acc then acc else acc ++ [q]) acc
      | none => acc ++ [p.map Item.ifc]
    out.Nodup ∧ ∀ q, q ∈ out ↔ q ∈ acc ∨ ∃ p ∈ paths, ∃ rs, s.insertLsps groups p = some rs ∧ q ∈ rs := by
  induction paths generalizing acc with
  | nil => exact ⟨hacc, fun q => by simp⟩
  | cons p paths ih =>
    obtain ⟨rs, hrs⟩ := hall p (by simp)
    simp only [List.foldl_cons, hrs]
    have := ih (fun q hq => hall q (by simp [hq])) _ (nodup_addNew rs acc hacc)
    refine ⟨this.1, fun q => ?_⟩
    rw [this.2, mem_addNew]
    simp only [List.mem_cons, exists_eq_or_imp, hrs, Option.some.injEq, exists_eq_left', or_assoc]

theorem mixedMetrics_const {s : State} {m : Except Exn ℕ} (ps : List (List Item))
    (h : ∀ p ∈ ps, s.mixedMetric p = m) {ms : List ℕ} (hm : s.mixedMetrics ps = .ok ms) :
    ms.length = ps.length ∧ ∀ n ∈ ms, m = .ok n := by
  induction ps generalizing ms with
  | nil => cases hm; simp
  | cons p ps ih =>
    unfold State.mixedMetrics at hm
    have hp := h p (by simp)
    split at hm
    · cases hm
    · next n hn =>
      cases hr : s.mixedMetrics ps with
      | error e => rw [hr] at hm; cases hm
      | ok ms' =>
        rw [hr] at hm
        cases hm
        obtain ⟨h1, h2⟩ := ih (fun q hq => h q (by simp [hq])) hr
        refine ⟨by simp [h1], fun k hk => ?_⟩
        rcases List.mem_cons.1 hk with rfl | hk
        · rw [← hp, hn]
        · exact h2 k hk

theorem inspectMetrics_const {s : State} {m : Except Exn ℕ} {ps qs : List (List Item)}
    (h : ∀ p ∈ ps, s.mixedMetric p = m) (hi : s.inspectMetrics ps = .ok qs) : qs = ps := by
  unfold State.inspectMetrics at hi
  split at hi
  · cases hi
  · next ms hms =>
    cases hi
    rw [List.filter_eq_self]
    intro p hp
    obtain ⟨h1, h2⟩ := mixedMetrics_const ps h hms
    have hne : ms ≠ [] := by
      rintro rfl
      have : ps = [] := List.eq_nil_of_length_eq_zero h1.symm
      subst this
      cases hp
    obtain ⟨n, ms', rfl⟩ := List.exists_cons_of_ne_nil hne
    have e := h2 n (by simp)
    rw [h p hp, e]
    simp only [decide_eq_true_eq]
    rw [List.min?_eq_some_iff]
    refine ⟨by simp, fun k hk => ?_⟩
    have := h2 k hk
    rw [e] at this
    cases this
    exact le_refl _

/-- the groups found have common ends and a common metric -/
def Uniform (s : State) (gs : List (List ℕ)) : Prop :=
  ∀ g ∈ gs, ∀ l ∈ g, ∀ l' ∈ g, s.effMetric l = s.effMetric l' ∧
    s.lspSrc l = s.lspSrc l' ∧ s.lspDst l = s.lspDst l'

theorem RidingOf.metric {s : State} {key : String} {ls : List ℕ} (h : RidingOf s key ls)
    {l l' : ℕ} (hl : l ∈ ls) (hl' : l' ∈ ls) : s.effMetric l = s.effMetric l' := by
  rcases h with ⟨-, rfl⟩ | ⟨-, ms, m, -, -, rfl⟩
  · cases hl
  · unfold State.withMetric at hl hl'
    rw [List.mem_filter] at hl hl'
    have key : ∀ x, (match s.effMetric x with
        | .ok y => decide (y = m)
        | .error _ => false) = true → s.effMetric x = .ok m := by
      intro x hx
      split at hx
      · next h => rw [h, of_decide_eq_true hx]
      · cases hx
    rw [key l hl.2, key l' hl'.2]

theorem findIgpShortcuts_exact {env : Env} {s t : State} (hs : GroupsFresh env s)
    {paths : List (List ℕ)} {np : List (List String)} {ps : List (List Item)}
    {ok : ℕ → Prop} {ρ : String → ℕ} {a b : String} (hne : paths ≠ []) (hnodup : paths.Nodup)
    (hmem : ∀ p, p ∈ paths ↔ Route s.tail s.head ok a p b ∧
      ∀ i ∈ p, ρ (s.tail i) + s.costOf i = ρ (s.head i) ∧ 1 ≤ s.costOf i)
    (hnp : ∀ q ∈ np, ∃ p ∈ paths, q = visited s.head a p)
    (hk : ∀ q ∈ np, (∀ u ∈ q, ∃ n, s.getNode u = .ok n) → KeyedBy s q)
    (hsub : ∀ key, ∀ l ∈ s.routedGroup key, l ∈ s.lsps)
    (hcut : ∀ l ∈ s.lsps, ∀ p ∈ paths, ∀ q ∈ paths,
      (s.lspSrc l ∈ visited s.head a p → s.lspSrc l ∈ visited s.head a q) ∧
      (s.lspDst l ∈ visited s.head a p → s.lspDst l ∈ visited s.head a q))
    (hknit : ∀ l ∈ s.lsps, ∀ p ∈ paths, ∀ i ∈ p,
      (s.tail i = s.lspSrc l → s.nodeEq (s.ifc i).node (s.lsp l).src = true) ∧
      (s.head i = s.lspDst l → s.nodeEq (s.ifc i).remote (s.lsp l).dst = true))
    (h : findIgpShortcuts env paths np s = .ok ps t) :
    ps ≠ [] ∧ ps.Nodup ∧ ∃ gs, Uniform s gs ∧ ∀ r, r ∈ ps ↔ Sub s ok ρ gs a r b := by
  have hinc : ∀ p ∈ paths, ∀ i ∈ p, ρ (s.tail i) < ρ (s.head i) := fun p hp i hi => by
    have := ((hmem p).1 hp).2 i hi; omega
  have hpw : ∀ q ∈ np, q.Pairwise fun x y => ρ x < ρ y := by
    intro q hq
    obtain ⟨p, hp, rfl⟩ := hnp q hq
    exact ranked_pairwise ((hmem p).1 hp).1 (hinc p hp)
  have hnil : paths.map (fun p => p.map Item.ifc) ≠ [] ∧
      (paths.map (fun p => p.map Item.ifc)).Nodup ∧ ∃ gs, Uniform s gs ∧
        ∀ r, r ∈ paths.map (fun p => p.map Item.ifc) ↔ Sub s ok ρ gs a r b := by
    refine ⟨by simpa using hne, hnodup.map ifc_map_injective, [], by simp [Uniform], fun r => ?_⟩
    rw [Sub.nil_iff, List.mem_map]
    constructor
    · rintro ⟨p, hp, rfl⟩; exact ⟨p, rfl, (hmem p).1 hp⟩
    · rintro ⟨p, rfl, hp⟩; exact ⟨p, (hmem p).2 hp, rfl⟩
  unfold findIgpShortcuts at h
  obtain ⟨s0, s0', hg, h⟩ := py_bind_inv h
  cases hg
  obtain ⟨ns, s1, hns, h⟩ := py_bind_inv h
  have hns' : s1 = s ∧ ∀ u ∈ np.flatten.dedup, ∃ n, s.getNode u = .ok n := by
    unfold liftE at hns
    split at hns
    · next a ha => cases hns; exact ⟨rfl, getNodes_ok _ ha⟩
    · cases hns
  obtain ⟨rfl, hget⟩ := hns'
  have hkeyed : ∀ q ∈ np, KeyedBy s1 q := fun q hq => hk q hq fun u hu =>
    hget u (List.mem_dedup.2 (List.mem_flatten.2 ⟨q, hq, hu⟩))
  have hnd : ∀ q ∈ np, q.Nodup := fun q hq => (hpw q hq).imp fun {x y} hxy e => by
    subst e; omega
  split at h
  · cases h; exact hnil
  · obtain ⟨qs, s2, hqs, h'⟩ := py_bind_inv h
    have hall : s2 = s1 ∧ qs ≠ [] ∧ qs.Nodup ∧ ∃ gs, Uniform s1 gs ∧
        ∀ r, r ∈ qs ↔ Sub s1 ok ρ gs a r b := by
      unfold insertShortcuts at hqs
      obtain ⟨found, s3, hf, hqs⟩ := py_bind_inv hqs
      obtain ⟨rfl, hfound⟩ := foundLoop_ordered hs np hnd hkeyed none (by intro gs e; cases e)
        np (fun _ h => h) hf
      cases found with
      | none => cases hqs
      | some groups =>
        simp only [] at hqs
        obtain ⟨s4, s4', hg4, hqs⟩ := py_bind_inv hqs
        cases hg4
        split at hqs
        · cases hqs; exact ⟨rfl, hnil⟩
        · cases hqs
          obtain ⟨x, hx, ho, hfo⟩ := hfound groups rfl
          have hpwx := hpw x hx
          have ho' : Stepwise _ (· ∈ x) ρ 0 groups :=
            ho.mono (fun y z hy hz => idxOf_lt_ranked hpwx hy hz)
              (fun y z hy hz hle => by
                rcases Nat.lt_or_eq_of_le hle with hlt | e
                · exact Nat.le_of_lt (idxOf_lt_ranked hpwx hy hz hlt)
                · rw [(List.idxOf_inj hy).1 e]) (fun _ _ _ => Nat.zero_le _)
          obtain ⟨p0, hp0, hx0⟩ := hnp x hx
          -- what is known of a member of a group
          have hgrp : ∀ g ∈ groups, ∀ l ∈ g, l ∈ s2.lsps ∧ s2.lspSrc l ∈ x ∧ s2.lspDst l ∈ x ∧
              ρ (s2.lspSrc l) < ρ (s2.lspDst l) := by
            intro g hg l hl
            obtain ⟨-, u, hu, v, hv, n, -, -, hrid⟩ := hfo g hg
            have hv' := List.mem_of_mem_drop hv
            obtain ⟨e1, e2⟩ := hkeyed x hx u hu v hv' l (hrid.sub hl)
            rw [e1, e2]
            exact ⟨hsub _ l (hrid.sub hl), hu, hv',
              idxOf_lt_ranked hpwx hu hv' (idxOf_drop (hnd x hx) hv)⟩
          have huni : Uniform s2 groups := by
            intro g hg l hl l' hl'
            obtain ⟨-, u, hu, v, hv, n, -, -, hrid⟩ := hfo g hg
            have hv' := List.mem_of_mem_drop hv
            obtain ⟨e1, e2⟩ := hkeyed x hx u hu v hv' l (hrid.sub hl)
            obtain ⟨e3, e4⟩ := hkeyed x hx u hu v hv' l' (hrid.sub hl')
            exact ⟨hrid.metric hl hl', e1.trans e3.symm, e2.trans e4.symm⟩
          have hlegs : ∀ p ∈ paths, ∃ legs rest, p = wholePath legs rest ∧
              legs.map Leg.lsps = groups ∧ ∀ g ∈ legs, g.Fits s2 := by
            intro p hp
            obtain ⟨hr, -⟩ := (hmem p).1 hp
            refine legs_of_ordered groups hr (hinc p hp) ho' ?_
            intro g hg l hl
            obtain ⟨hl1, hl2, hl3, hl4⟩ := hgrp g hg l (List.mem_of_head? hl)
            rw [hx0] at hl2 hl3
            have c1 := (hcut l hl1 p0 hp0 p hp).1 hl2
            have c2 := (hcut l hl1 p0 hp0 p hp).2 hl3
            have hb := route_bounds hr (hinc p hp)
            have hbnd : ∀ y ∈ visited s2.head a p, ρ a ≤ ρ y ∧ ρ y ≤ ρ b := by
              intro y hy
              rcases List.mem_cons.1 hy with rfl | hy
              · exact ⟨le_refl _, hb.1⟩
              · obtain ⟨i, hi, rfl⟩ := List.mem_map.1 hy
                have := hb.2 i hi
                have := hinc p hp i hi
                omega
            have b1 := hbnd _ c1
            have b2 := hbnd _ c2
            constructor
            · have : s2.lspSrc l ∈ p.map s2.tail ++ [b] := by
                rw [← route_nodes hr]; exact c1
              rcases List.mem_append.1 this with hm | hm
              · obtain ⟨i, hi, e⟩ := List.mem_map.1 hm; exact ⟨i, hi, e⟩
              · rw [List.mem_singleton] at hm; rw [hm] at hl4; omega
            · rcases List.mem_cons.1 c2 with hm | hm
              · rw [hm] at hl4; omega
              · obtain ⟨j, hj, e⟩ := List.mem_map.1 hm; exact ⟨j, hj, e⟩
          have hins : ∀ p ∈ paths, ∃ rs, s2.insertLsps groups p = some rs := by
            intro p hp
            obtain ⟨legs, rest, g1, g2, g3⟩ := hlegs p hp
            rw [← g2]
            refine insertLsps_some g1 g3 fun g hg l hl i hi j hj => ?_
            have hgm : g.lsps ∈ groups := by rw [← g2]; exact List.mem_map.2 ⟨g, hg, rfl⟩
            obtain ⟨hl1, -⟩ := hgrp _ hgm l hl
            obtain ⟨-, i', j', hi', hj', hls⟩ := g3 g hg
            rw [Option.mem_def, hi'] at hi
            rw [Option.mem_def, hj'] at hj
            cases hi
            cases hj
            obtain ⟨e1, e2⟩ := hls l hl
            have hst : ∀ k ∈ g.stretch, k ∈ p := by
              intro k hk
              rw [g1]
              have : ∀ (legs : List Leg), g ∈ legs → k ∈ wholePath legs rest := by
                intro legs
                induction legs with
                | nil => intro h; cases h
                | cons g' legs ih =>
                  intro h
                  rw [wholePath]
                  rcases List.mem_cons.1 h with rfl | h
                  · simp [hk]
                  · exact List.mem_append_right _ (ih h)
              exact this legs hg
            exact ⟨(hknit l hl1 p hp _ (hst _ (List.mem_of_head? hi'))).1 e1.symm,
              (hknit l hl1 p hp _ (hst _ (List.mem_of_mem_getLast? hj'))).2 e2.symm⟩
          obtain ⟨n1, n2⟩ := substitute_all paths hins [] List.nodup_nil
          have hiff : ∀ r, (∃ p ∈ paths, ∃ rs, s2.insertLsps groups p = some rs ∧ r ∈ rs) ↔
              Sub s2 ok ρ groups a r b := by
            intro r
            constructor
            · rintro ⟨p, hp, rs, hrs, hr⟩
              obtain ⟨hroute, htight⟩ := (hmem p).1 hp
              obtain ⟨legs, rest, rfl, g2, g3, g4⟩ :=
                insertLsps_ordered hroute (hinc p hp) ho' hrs
              obtain ⟨choice, g5, g6⟩ := (g4 r).1 hr
              exact ⟨legs, choice, rest, g2, g3, g5, g6, hroute, htight⟩
            · rintro ⟨legs, choice, rest, g2, g3, g5, g6, hroute, htight⟩
              have hp := (hmem _).2 ⟨hroute, htight⟩
              obtain ⟨rs, hrs⟩ := hins _ hp
              refine ⟨_, hp, rs, hrs, ?_⟩
              obtain ⟨t1, t2⟩ := ranked_tails hroute (hinc _ hp)
              rw [← g2] at hrs
              exact ((insertLsps_legs rfl t1 t2 g3 hrs).2 r).2 ⟨choice, g5, g6⟩
          refine ⟨rfl, ?_, n1, groups, huni, fun r => ?_⟩
          · intro hnil'
            obtain ⟨p, hp⟩ := List.exists_mem_of_ne_nil _ hne
            obtain ⟨legs, rest, g1, g2, g3⟩ := hlegs p hp
            obtain ⟨choice, hc⟩ : ∃ choice, Choice choice legs := by
              clear g1 g2
              induction legs with
              | nil => exact ⟨[], .nil⟩
              | cons g legs ih =>
                obtain ⟨c, hc⟩ := ih fun g hg => g3 g (by simp [hg])
                obtain ⟨l, hl⟩ := List.exists_mem_of_ne_nil _ (g3 g (by simp)).1
                exact ⟨l :: c, .cons hl hc⟩
            obtain ⟨hroute, htight⟩ := (hmem p).1 hp
            have := (hiff (substituted legs choice rest)).2
              ⟨legs, choice, rest, g2, g3, hc, rfl, g1 ▸ hroute, g1 ▸ htight⟩
            have := (n2 _).2 (.inr this)
            exact List.ne_nil_of_mem this hnil'
          · refine (n2 r).trans ?_
            simp only [List.not_mem_nil, false_or]
            exact hiff r
    obtain ⟨rfl, h1, h2, gs, h3, h4⟩ := hall
    split at h'
    · cases h'; exact ⟨h1, h2, gs, h3, h4⟩
    · split at h'
      · cases h'
      · obtain ⟨s5, s5', hg5, h'⟩ := py_bind_inv h'
        cases hg5
        unfold liftE at h'
        split at h'
        · next hi =>
          cases h'
          obtain ⟨r0, hr0⟩ := List.exists_mem_of_ne_nil _ h1
          have hm := fun p hp => Sub.metric h3 ((h4 p).1 hp) ((h4 r0).1 hr0)
          obtain rfl := inspectMetrics_const hm hi
          exact ⟨h1, h2, gs, h3, h4⟩
        · cases h'

end NTM
