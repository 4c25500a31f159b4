import Verif.Proof.MixedLoad

/-!
# Traffic over paths with shortcuts, in a simulation
-/

namespace NTM

open Spec

section
variable {tail head : ℕ → String} {cost : ℕ → ℕ} {ok : ℕ → Prop}

theorem distTo_self (a : String) : distTo tail head cost ok a a = 0 := by
  have : distTo tail head cost ok a a ≤ totalCost cost [] := Nat.sInf_le ⟨[], .nil a, rfl⟩
  simpa [totalCost] using this

/-- the cheapest routes are those along which the distance grows by the cost of every step -/
theorem cheapest_iff_tight (hpos : ∀ i, ok i → 1 ≤ cost i) {a b : String} {p : List ℕ} :
    Cheapest tail head cost ok a p b ↔ Route tail head ok a p b ∧
      ∀ i ∈ p, distTo tail head cost ok a (tail i) + cost i = distTo tail head cost ok a (head i) ∧
        1 ≤ cost i := by
  constructor
  · intro h
    refine ⟨h.1, fun i hi => ?_⟩
    obtain ⟨p1, p2, rfl⟩ := List.append_of_mem hi
    obtain ⟨x, h1, h2⟩ := route_split h.1
    cases h2 with
    | cons hok h2 =>
      have e1 := prefix_dist h h1 (.cons hok h2)
      have h' : Cheapest tail head cost ok a ((p1 ++ [i]) ++ p2) b := by simpa using h
      have e2 := prefix_dist h' (route_append h1 (.cons hok (.nil _))) h2
      rw [e1, e2, totalCost_append]
      exact ⟨by simp [totalCost], hpos i hok⟩
  · rintro ⟨h1, h2⟩
    refine ⟨h1, fun q hq => ?_⟩
    have e : ∀ (u : String) (p : List ℕ), Route tail head ok u p b →
        (∀ i ∈ p, distTo tail head cost ok a (tail i) + cost i = distTo tail head cost ok a (head i)) →
        distTo tail head cost ok a u + totalCost cost p = distTo tail head cost ok a b := by
      intro u p hr ht
      clear h1 h2 hq
      induction hr with
      | nil => simp [totalCost]
      | @cons i p v hi hr ih =>
        have h1 := ih fun j hj => ht j (by simp [hj])
        have h2 := ht i (by simp)
        simp only [totalCost, List.map_cons, List.sum_cons] at h1 ⊢
        omega
    have e1 := e a p h1 fun i hi => (h2 i hi).1
    rw [distTo_self] at e1
    have e2 : distTo tail head cost ok a b ≤ totalCost cost q := Nat.sInf_le ⟨q, hq, rfl⟩
    omega

end

theorem igpPaths_fan {env : Env} {s : State} (h : Sane s) (hs : GroupsFresh env s)
    (hk : s.kind = .flex) {es : List ℕ} (hes : es ⊆ s.ifs) (hnd : es.Nodup)
    (hkey : ∀ q, (∀ u ∈ q, ∃ n, s.getNode u = .ok n) → KeyedBy s q)
    (hsub : ∀ key, ∀ l ∈ s.routedGroup key, l ∈ s.lsps) {a b : String}
    (hcut : ∀ l ∈ s.lsps, ∀ p q, CheapestOver s (· ∈ es) a p b → CheapestOver s (· ∈ es) a q b →
      (s.lspSrc l ∈ visited s.head a p → s.lspSrc l ∈ visited s.head a q) ∧
      (s.lspDst l ∈ visited s.head a p → s.lspDst l ∈ visited s.head a q))
    (hknit : NodesKnit s) {ps : List (List Item)} {t : State}
    (hp : igpPaths env (s.graphOf es) es a b s = .ok (some ps) t) : ItemFan s a b ps := by
  unfold igpPaths at hp
  obtain ⟨s0, s0', hg, hp⟩ := py_bind_inv hp
  cases hg
  cases hsp : (s.graphOf es).allShortestPaths a b with
  | error e => rw [hsp] at hp; cases e <;> cases hp
  | ok nxSp =>
    rw [hsp] at hp
    simp only [] at hp
    rw [hk] at hp
    simp only [] at hp
    obtain ⟨qs, u, hf, hp⟩ := py_bind_inv hp
    cases hp
    obtain ⟨h2, h3⟩ := flex_paths h hk hes hnd hsp
    obtain ⟨-, hne, h4⟩ := allShortestPaths_ok (graphOf_closed h hes) (graphOf_pos h hes) hsp
    have hpos : ∀ i, i ∈ es → 1 ≤ s.costOf i := fun i hi => h.costs i (hes hi)
    have hnp : ∀ q ∈ nxSp, ∃ p ∈ State.normalize (nxSp.map (s.convertMdg es)),
        q = visited s.head a p := by
      intro q hq
      obtain ⟨r, rfl, hr⟩ := (h4 q).1 hq
      obtain ⟨p, g1, rfl, g3⟩ := hr.1.exists_route (graphOf_min h hes)
      exact ⟨p, (h3 p).2 ((cheapest_iff (graphOf_min h hes)).2 ⟨g1, hr, g3⟩), rfl⟩
    obtain ⟨g1, g2, gs, g3, g4⟩ := findIgpShortcuts_exact (ok := (· ∈ es))
      (ρ := distTo s.tail s.head s.costOf (· ∈ es) a) (a := a) (b := b) hs
      (by
        obtain ⟨q, hq⟩ := List.exists_mem_of_ne_nil _ hne
        obtain ⟨p, hp, -⟩ := hnp q hq
        exact List.ne_nil_of_mem hp) h2
      (fun p => (h3 p).trans (cheapest_iff_tight hpos)) hnp (fun q _ hq => hkey q hq) hsub
      (fun l hl p hp q hq => hcut l hl p q ((h3 p).1 hp) ((h3 q).1 hq))
      (fun l hl p hp i hi => hknit i (hes (Route.mem_ok ((h3 p).1 hp).1 i hi)) l hl) hf
    exact itemFan_of_sub g3 g1 g2 g4

section
variable {env : Env} {s s1 s' : State} {Δ : ℕ → ℕ → ℚ}

/-- the paths of a demand in a FlexModel when the cheapest paths share the ends of LSPs -/
theorem SimResult.shortcut_fan (ht : Tidy s) (hn : NamesDistinct s) (hk : s.kind = .flex)
    (h : SimResult env s s1 s' Δ) {d : ℕ} (hd : d ∈ s.dmds)
    (hcut : SharedEnds s' (s'.dmdSrc d) (s'.dmdDst d)) (hknit : NodesKnit s')
    {paths : List (List Item)} (hp : (s'.dmd d).path = some paths)
    (hr : RidingOf s' (pairKey (s.dmdSrc d) (s.dmdDst d)) []) :
    ItemFan s' (s'.dmdSrc d) (s'.dmdDst d) paths := by
  have hpl := h.place d hd
  have hs1 := h.sane1 ht
  have hc1 := h.cfg1
  obtain ⟨D, T, C, B, I, hov⟩ := h.over
  rcases hpl with ⟨ls, h1, h2, h3⟩ | ⟨h1, D', h2⟩
  · have : RidingOf s' (pairKey (s.dmdSrc d) (s.dmdDst d)) ls := by
      rw [hov, RidingOf.over]; exact h2
    exact absurd (this.unique hr) h1
  · rw [hp] at h2
    have hsaneD : Sane { s1 with dmd := D' } := ⟨hs1.nodup, hs1.costs, hs1.single⟩
    have hget : ∀ u n, ({ s1 with dmd := D' } : State).getNode u = .ok n → s'.getNode u = .ok n := by
      intro u n hu; rw [hov]; exact hu
    have hname : ∀ u, (∃ n, ({ s1 with dmd := D' } : State).getNode u = .ok n) → u ∈ modelNames s :=
      fun u ⟨n, hu⟩ => (h.getNode_name (hget u n hu)).2.2
    have hgrp : ∀ key, ({ s1 with dmd := D' } : State).routedGroup key = s'.routedGroup key := by
      intro key; rw [hov]; rfl
    have hends : ({ s1 with dmd := D' } : State).lspSrc = s'.lspSrc ∧
        ({ s1 with dmd := D' } : State).lspDst = s'.lspDst := by
      rw [hov]; exact ⟨rfl, rfl⟩
    have hlsps : ({ s1 with dmd := D' } : State).lsps = s'.lsps := by rw [hov]; rfl
    rw [h.cfg.dmdSrc, h.cfg.dmdDst] at hcut ⊢
    have hfan := igpPaths_fan (s := { s1 with dmd := D' }) hsaneD h.fresh
      (hc1.kind.trans hk) (es := s1.igpEdges) (considered_sub s1 _ _ _)
      (nodup_igpEdges hs1.nodup) (by
        intro q hq u hu v hv l hl
        rw [hgrp] at hl
        have := (h.mem_named ht hn (hname u (hq u hu)) (hname v (hq v hv))).1 hl
        rw [hends.1, hends.2]
        exact ⟨this.1.2.1, this.1.2.2⟩)
      (by
        intro key l hl
        exact (mem_routedGroup (s := { s1 with dmd := D' }) h.fresh hl).1)
      (by
        intro l hl p q hp hq
        rw [hlsps] at hl
        have hp' : CheapestOver s' (Usable s' 0) (s.dmdSrc d) p (s.dmdDst d) := by
          rw [hov]; exact cheapestOver_igp.1 hp
        have hq' : CheapestOver s' (Usable s' 0) (s.dmdSrc d) q (s.dmdDst d) := by
          rw [hov]; exact cheapestOver_igp.1 hq
        have c1 := hcut l hl _ (.inl rfl) p q hp' hq'
        have c2 := hcut l hl _ (.inr rfl) p q hp' hq'
        rw [hov] at c1 c2
        exact ⟨c1, c2⟩)
      (by rw [hov] at hknit; exact hknit) h2
    rw [hov]
    exact ⟨hfan.ne, hfan.nodup, hfan.fan⟩

theorem SimResult.shortcut_total (ht : Tidy s) (hn : NamesDistinct s) (hk : s.kind = .flex)
    (h : SimResult env s s1 s' Δ) {d : ℕ} (hd : d ∈ s.dmds)
    (hcut : SharedEnds s' (s'.dmdSrc d) (s'.dmdDst d)) (hknit : NodesKnit s')
    {det : List PathInfo} (hdet : (s'.dmd d).detail = some det)
    (hrt : (s'.dmd d).path ≠ none) :
    totalTraffic det = (s'.dmd d).traffic := by
  rcases h.load d hd with ⟨h0, -⟩ | ⟨paths, ls, det', h1, h2, h3, h4⟩
  · exact absurd h0 hrt
  · rw [hdet] at h4
    cases h4
    rcases h3 with ⟨h5, -, rfl, -⟩ | ⟨rfl, h6, -⟩
    · unfold totalTraffic lspDetail
      rw [h.cfg.kind, hk, List.map_map]
      simp only [Function.comp_def, List.map_const', List.sum_replicate, nsmul_eq_mul]
      have : (ls.length : ℚ) ≠ 0 := by
        rw [Nat.cast_ne_zero]
        exact fun e => h5 (List.eq_nil_of_length_eq_zero e)
      field_simp
    · have hfan := h.shortcut_fan ht hn hk hd hcut hknit h1 h2
      rw [h.cfg.kind, hk] at h6
      exact hfan.total h6

end

end NTM
