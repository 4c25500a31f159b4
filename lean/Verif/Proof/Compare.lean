import Verif.Proof.Contribution
import Verif.Spec.Same

/-!
# Two simulations of comparable models
-/

namespace NTM

open Spec

theorem _root_.NTM.Spec.SameNetwork.tail {s t : State} (h : SameNetwork s t) : t.tail = s.tail := by
  funext i; unfold State.tail; rw [h.ifc i, h.node]

theorem _root_.NTM.Spec.SameNetwork.head {s t : State} (h : SameNetwork s t) : t.head = s.head := by
  funext i; unfold State.head; rw [h.ifc i, h.node]

theorem _root_.NTM.Spec.SameNetwork.failed {s t : State} (h : SameNetwork s t) (i : ℕ) :
    (t.ifc i).failed = (s.ifc i).failed := by rw [h.ifc i]

theorem _root_.NTM.Spec.SameNetwork.cost {s t : State} (h : SameNetwork s t) :
    (fun i => (t.ifc i).cost) = fun i => (s.ifc i).cost := by funext i; rw [h.ifc i]

theorem Cfg.sameNetwork {s t : State} (h : Cfg s t) : SameNetwork s t where
  node := h.node
  nodes := by rw [h.nodes]
  ifs := by rw [h.ifs]
  ifc i := h.ifc i

theorem _root_.NTM.Spec.SameNetwork.symm {s t : State} (h : SameNetwork s t) : SameNetwork t s where
  node := h.node.symm
  nodes := h.nodes.symm
  ifs := h.ifs.symm
  ifc i := by rw [h.ifc i]

theorem _root_.NTM.Spec.SameNetwork.trans {s t u : State} (h : SameNetwork s t)
    (g : SameNetwork t u) : SameNetwork s u where
  node := g.node.trans h.node
  nodes := g.nodes.trans h.nodes
  ifs := g.ifs.trans h.ifs
  ifc i := by rw [g.ifc i, h.ifc i]

/-- simulations preserve the network -/
theorem _root_.NTM.Spec.SameNetwork.run {s t s' t' : State} (h : SameNetwork s t) (hs : Cfg s s')
    (ht : Cfg t t') : SameNetwork s' t' :=
  (hs.sameNetwork.symm.trans h).trans ht.sameNetwork

theorem usable_same {s t : State} (h : SameNetwork s t)
    (hr : ∀ i ∈ s.ifs, t.reservedBw i = s.reservedBw i) (i : ℕ) :
    Usable t 0 i ↔ Usable s 0 i := by
  unfold Usable
  rw [h.ifs.mem_iff, h.failed]
  refine and_congr_right fun hi => and_congr_right fun _ => ?_
  have : t.reservable i = s.reservable i := by
    unfold State.reservable
    rw [hr i hi, h.ifc i]
  rw [this]

theorem cheapest_same {s t : State} (h : SameNetwork s t)
    (hu : ∀ i, Usable t 0 i ↔ Usable s 0 i) {a b : String} {q : List ℕ} :
    CheapestOver t (Usable t 0) a q b ↔ CheapestOver s (Usable s 0) a q b := by
  rw [CheapestOver.congr hu]
  unfold CheapestOver
  rw [h.tail, h.head, h.cost]

theorem reachable_same {s t : State} (h : SameNetwork s t)
    (hu : ∀ i, Usable t 0 i ↔ Usable s 0 i) {a b : String} :
    Reachable t.tail t.head (Usable t 0) a b ↔ Reachable s.tail s.head (Usable s 0) a b := by
  rw [h.tail, h.head]
  exact exists_congr fun _ => Route.congr hu

section
variable {env env' : Env} {s s1 s' t t1 t' : State} {Δ Δ' : ℕ → ℕ → ℚ}

theorem _root_.NTM.Spec.SameDemands.src {k : ℚ} (hn : SameNetwork s t) (h : SameDemands k s t)
    (d : ℕ) : t.dmdSrc d = s.dmdSrc d := by
  unfold State.dmdSrc; rw [h.dmd d, hn.node]

theorem _root_.NTM.Spec.SameDemands.dst {k : ℚ} (hn : SameNetwork s t) (h : SameDemands k s t)
    (d : ℕ) : t.dmdDst d = s.dmdDst d := by
  unfold State.dmdDst; rw [h.dmd d, hn.node]

/-- demands that ride no LSP take the same paths and put comparable loads on the interfaces -/
theorem compare_igp (hs : SimResult env s s1 s' Δ) (ht : SimResult env' t t1 t' Δ')
    (hts : Tidy s) (htt : Tidy t) (hks : s.kind = .flex → NoShortcuts s)
    (hkt : t.kind = .flex → NoShortcuts t) {k : ℚ}
    (hn : SameNetwork s t) (hd : SameDemands k s t)
    (hu : ∀ i, Usable t' 0 i ↔ Usable s' 0 i) {d : ℕ} (hdm : d ∈ s.dmds)
    (rs : RidingOf s' (pairKey (s.dmdSrc d) (s.dmdDst d)) [])
    (rt : RidingOf t' (pairKey (t.dmdSrc d) (t.dmdDst d)) []) :
    SamePaths (s'.dmd d).path (t'.dmd d).path ∧
      (((s'.dmd d).path = none ∧ (t'.dmd d).path = none ∧ ∀ i, Δ d i = 0 ∧ Δ' d i = 0) ∨
      ∃ l l' det det', IgpLoad s' d l det (Δ d) ∧ IgpLoad t' d l' det' (Δ' d) ∧
        l'.toFinset = l.toFinset) := by
  have hn' : SameNetwork s' t' := hn.run hs.cfg ht.cfg
  have hdt : d ∈ t.dmds := hd.dmds.mem_iff.2 hdm
  have e1 := hd.src hn d
  have e2 := hd.dst hn d
  rcases hs.placed hts hks hdm with ⟨ls, h1, h2, -⟩ | ⟨-, h3⟩
  · exact absurd (rs.unique h2).symm h1
  rcases ht.placed htt hkt hdt with ⟨ls, h1, h2, -⟩ | ⟨-, h4⟩
  · exact absurd (rt.unique h2).symm h1
  rcases h3 with ⟨p1, r1⟩ | ⟨l, p1, ne1, nd1, m1⟩ <;> rcases h4 with ⟨p2, r2⟩ | ⟨l', p2, ne2, nd2, m2⟩
  · rw [p1, p2]
    refine ⟨trivial, .inl ⟨rfl, rfl, fun i => ⟨?_, ?_⟩⟩⟩
    · rcases hs.load d hdm with ⟨-, -, h⟩ | ⟨paths, ls, det, h, -⟩
      · rw [h]
      · rw [p1] at h; cases h
    · rcases ht.load d hdt with ⟨-, -, h⟩ | ⟨paths, ls, det, h, -⟩
      · rw [h]
      · rw [p2] at h; cases h
  · exfalso
    obtain ⟨q, hq⟩ := List.exists_mem_of_ne_nil _ ne2
    rw [m2, e1, e2, cheapest_same hn' hu] at hq
    exact r1 ⟨q, hq.1⟩
  · exfalso
    obtain ⟨q, hq⟩ := List.exists_mem_of_ne_nil _ ne1
    rw [m1] at hq
    rw [reachable_same hn' hu, e1, e2] at r2
    exact r2 ⟨q, hq.1⟩
  · have hmem : ∀ q, q ∈ l' ↔ q ∈ l := fun q => by
      rw [m1, m2, e1, e2, cheapest_same hn' hu]
    have hperm : l.Perm l' := ((List.perm_ext_iff_of_nodup nd2 nd1).2 hmem).symm
    have hno : ∀ l : List (List ℕ), ∀ p ∈ l.map (fun q => q.map Item.ifc), ∀ m, Item.lsp m ∉ p := by
      intro l p hp m hm
      obtain ⟨q, -, rfl⟩ := List.mem_map.1 hp
      simp at hm
    obtain ⟨k1, det, a1, -, g1⟩ := hs.igpLoad hts hks hdm p1 (hno _)
    obtain ⟨k2, det', a2, -, g2⟩ := ht.igpLoad htt hkt hdt p2 (hno _)
    have b1 := List.map_injective_iff.2 ifc_map_injective a1
    have b2 := List.map_injective_iff.2 ifc_map_injective a2
    subst b1 b2
    rw [p1, p2]
    refine ⟨hperm.map _, .inr ⟨l, l', det, det', g1, g2, ?_⟩⟩
    ext q
    rw [List.mem_toFinset, List.mem_toFinset]
    exact hmem q

theorem buildGroups_nil (env : Env) (src dst : ℕ → String) : buildGroups env [] src dst = [] := by
  unfold buildGroups
  have : env.ordS [] = [] := List.perm_nil.1 (env.ordS_perm [])
  simp [this]

theorem clearReserved_reservedBw (s : State) {i : ℕ} (hi : i ∈ s.ifs) :
    s.clearReserved.reservedBw i = 0 := by
  unfold State.clearReserved State.reservedBw
  simp only [if_pos hi]
  decide +kernel

theorem routeLsps_noLsps (hl : s.lsps = []) (hg : s.groups = []) :
    routeLsps env s = .ok () s.clearReserved := by
  have hg' : s.clearReserved.lsps = [] := hl
  have e : lspGroups env s.clearReserved = .ok [] s.clearReserved := by
    unfold lspGroups
    have h0 : s.clearReserved.groups = [] := hg
    have h1 : buildGroups env s.clearReserved.lsps s.clearReserved.lspSrc s.clearReserved.lspDst =
        s.clearReserved.groups := by rw [hg', buildGroups_nil, h0]
    rw [if_neg (fun h => h h0), h1]
    simp only [h0]
    rw [← h0]
  unfold routeLsps
  rw [py_bind_ok (x := modify State.clearReserved) (s := s) (t := s.clearReserved) (a := ()) rfl,
    py_bind_ok e]
  rfl

/-- without LSPs nothing is reserved and no demand rides an LSP -/
theorem SimResult.noLsps (h : SimResult env s s1 s' Δ) (hl : s.lsps = []) :
    (∀ i ∈ s'.ifs, s'.reservedBw i = 0) ∧ ∀ key, RidingOf s' key [] := by
  have hrun := h.lspRun
  rw [routeLsps_noLsps (show s.resetSim.lsps = [] from hl) rfl] at hrun
  cases hrun
  constructor
  · intro i hi
    rw [h.net.2.1]
    exact clearReserved_reservedBw s.resetSim (by rw [h.cfg.ifs] at hi; exact hi)
  · intro key
    rw [ridingOf_nil]
    unfold State.routedGroup
    rw [h.net.2.2.2.1, h.frame.groups]
    simp only []
    rw [hl, buildGroups_nil]
    rfl

end

end NTM
