import Verif.Spec.Iso
import Verif.Props.Invariance

/-!
# C109: names do not matter
-/

namespace NTM

open Spec

section
variable {r : Renaming} {s t : State}

theorem Spec.Renamed.mem (h : Renamed r s t) {j : ℕ} : j ∈ t.ifs ↔ ∃ i ∈ s.ifs, r.ifc i = j := by
  rw [h.ifs.mem_iff, List.mem_map]

theorem Spec.Renamed.run {s' t' : State} (h : Renamed r s t) (hs : Cfg s s') (ht : Cfg t t')
    (ds : ∀ d, s'.dmd d = { s.dmd d with path := (s'.dmd d).path, detail := (s'.dmd d).detail })
    (dt : ∀ d, t'.dmd d = { t.dmd d with path := (t'.dmd d).path, detail := (t'.dmd d).detail }) :
    Renamed r s' t' := by
  have tl := hs.sameNetwork.tail
  have hl := hs.sameNetwork.head
  have tl' := ht.sameNetwork.tail
  have hl' := ht.sameNetwork.head
  have s1 : ∀ d, s'.dmdSrc d = s.dmdSrc d := fun d => by
    unfold State.dmdSrc; rw [ds d, hs.node]
  have s2 : ∀ d, s'.dmdDst d = s.dmdDst d := fun d => by
    unfold State.dmdDst; rw [ds d, hs.node]
  have t1 : ∀ d, t'.dmdSrc d = t.dmdSrc d := fun d => by
    unfold State.dmdSrc; rw [dt d, ht.node]
  have t2 : ∀ d, t'.dmdDst d = t.dmdDst d := fun d => by
    unfold State.dmdDst; rw [dt d, ht.node]
  have e1 := hs.ifs
  have e2 := ht.ifs
  have e3 := hs.dmds
  have e4 := ht.dmds
  refine ⟨by rw [hs.kind, ht.kind, h.kind], by rw [e1, e2]; exact h.ifs, ?_, ?_, ?_, ?_, ?_, ?_, ?_,
    by rw [e3, e4]; exact h.dmds, ?_, ?_, ?_⟩
  · intro i hi; rw [tl, tl']; exact h.tail i (e1 ▸ hi)
  · intro i hi; rw [hl, hl']; exact h.head i (e1 ▸ hi)
  · intro i hi; rw [hs.ifc i, ht.ifc]; exact h.cost i (e1 ▸ hi)
  · intro i hi; rw [hs.ifc i, ht.ifc]; exact h.failed i (e1 ▸ hi)
  · intro i hi; rw [hs.ifc i, ht.ifc]; exact h.capacity i (e1 ▸ hi)
  · intro i hi; rw [hs.ifc i, ht.ifc]; exact h.pct i (e1 ▸ hi)
  · intro i hi; rw [hs.ifc i, ht.ifc]; exact h.rsvpEnabled i (e1 ▸ hi)
  · intro d hd; rw [s1, t1]; exact h.src d (e3 ▸ hd)
  · intro d hd; rw [s2, t2]; exact h.dst d (e3 ▸ hd)
  · intro d hd; rw [ds d, dt]; exact h.traffic d (e3 ▸ hd)

theorem Spec.Renamed.usable (h : Renamed r s t) (rs : ∀ i ∈ s.ifs, s.reservedBw i = 0)
    (rt : ∀ i ∈ t.ifs, t.reservedBw i = 0) (j : ℕ) :
    Usable t 0 j ↔ ∃ i, r.ifc i = j ∧ Usable s 0 i := by
  unfold Usable
  constructor
  · rintro ⟨hj, hf, hr⟩
    obtain ⟨i, hi, rfl⟩ := h.mem.1 hj
    refine ⟨i, rfl, hi, by rw [← h.failed i hi]; exact hf, ?_⟩
    unfold State.reservable at *
    rw [rt _ hj, h.capacity i hi, h.pct i hi, h.rsvpEnabled i hi] at hr
    rw [rs i hi]; exact hr
  · rintro ⟨i, rfl, hi, hf, hr⟩
    have hj := h.mem.2 ⟨i, hi, rfl⟩
    refine ⟨hj, by rw [h.failed i hi]; exact hf, ?_⟩
    unfold State.reservable at *
    rw [rt _ hj, h.capacity i hi, h.pct i hi, h.rsvpEnabled i hi]
    rw [rs i hi] at hr; exact hr

theorem Spec.Renamed.route (h : Renamed r s t)
    (hu : ∀ j, Usable t 0 j ↔ ∃ i, r.ifc i = j ∧ Usable s 0 i) {a b : String} {p : List ℕ}
    (hp : Route s.tail s.head (Usable s 0) a p b) :
    Route t.tail t.head (Usable t 0) (r.node a) (p.map r.ifc) (r.node b) := by
  induction hp with
  | nil u => exact .nil _
  | @cons i p v hi hp ih =>
    rw [← h.tail i hi.1]
    refine .cons ((hu _).2 ⟨i, rfl, hi⟩) ?_
    rw [h.head i hi.1]
    exact ih

theorem Spec.Renamed.route_inv (h : Renamed r s t)
    (hu : ∀ j, Usable t 0 j ↔ ∃ i, r.ifc i = j ∧ Usable s 0 i) {a' b' : String} {q : List ℕ}
    (hq : Route t.tail t.head (Usable t 0) a' q b') : ∀ a b, a' = r.node a → b' = r.node b →
    ∃ p, q = p.map r.ifc ∧ Route s.tail s.head (Usable s 0) a p b := by
  induction hq with
  | nil u =>
    intro a b ha hb
    have := r.node_inj (ha.symm.trans hb)
    subst this
    exact ⟨[], rfl, .nil _⟩
  | @cons j q v hj hq ih =>
    intro a b ha hb
    obtain ⟨i, rfl, hi⟩ := (hu j).1 hj
    obtain ⟨p, rfl, hp⟩ := ih _ b (h.head i hi.1) hb
    rw [h.tail i hi.1] at ha
    rw [← r.node_inj ha]
    exact ⟨i :: p, rfl, .cons hi hp⟩

theorem Spec.Renamed.totalCost (h : Renamed r s t) {p : List ℕ} (hp : ∀ i ∈ p, i ∈ s.ifs) :
    totalCost (fun j => (t.ifc j).cost) (p.map r.ifc) = totalCost (fun i => (s.ifc i).cost) p := by
  unfold Spec.totalCost
  rw [List.map_map]
  congr 1
  exact List.map_congr_left fun i hi => h.cost i (hp i hi)

theorem Spec.Renamed.cheapest (h : Renamed r s t)
    (hu : ∀ j, Usable t 0 j ↔ ∃ i, r.ifc i = j ∧ Usable s 0 i) {a b : String} {q : List ℕ} :
    CheapestOver t (Usable t 0) (r.node a) q (r.node b) ↔
      ∃ p, q = p.map r.ifc ∧ CheapestOver s (Usable s 0) a p b := by
  have ok : ∀ {p a b}, Route s.tail s.head (Usable s 0) a p b → ∀ i ∈ p, i ∈ s.ifs :=
    fun hp i hi => (Route.mem_ok hp i hi).1
  constructor
  · rintro ⟨h1, h2⟩
    obtain ⟨p, rfl, hp⟩ := h.route_inv hu h1 a b rfl rfl
    refine ⟨p, rfl, hp, fun p' hp' => ?_⟩
    have := h2 _ (h.route hu hp')
    rwa [h.totalCost (ok hp), h.totalCost (ok hp')] at this
  · rintro ⟨p, rfl, h1, h2⟩
    refine ⟨h.route hu h1, fun q' hq' => ?_⟩
    obtain ⟨p', rfl, hp'⟩ := h.route_inv hu hq' a b rfl rfl
    rw [h.totalCost (ok h1), h.totalCost (ok hp')]
    exact h2 p' hp'

theorem Spec.Renamed.share (h : Renamed r s t) {S : Finset (List ℕ)} (hS : ∀ p ∈ S, ∀ i ∈ p, i ∈ s.ifs)
    {p : List ℕ} (hp : p ∈ S) :
    NTM.share t.tail (S.image (List.map r.ifc)) (p.map r.ifc) = NTM.share s.tail S p := by
  unfold NTM.share
  rw [List.map_map]
  congr 1
  refine List.map_congr_left fun i hi => ?_
  have hi' := hS p hp i hi
  have : fanHops t.tail (S.image (List.map r.ifc)) (t.tail (r.ifc i)) =
      (fanHops s.tail S (s.tail i)).image r.ifc := by
    ext j
    simp only [mem_fanHops, Finset.mem_image]
    constructor
    · rintro ⟨⟨_, ⟨q, hq, rfl⟩, hj⟩, ht⟩
      obtain ⟨k, hk, rfl⟩ := List.mem_map.1 hj
      rw [h.tail i hi', h.tail k (hS q hq k hk)] at ht
      exact ⟨k, ⟨⟨q, hq, hk⟩, r.node_inj ht⟩, rfl⟩
    · rintro ⟨k, ⟨⟨q, hq, hk⟩, ht⟩, rfl⟩
      refine ⟨⟨_, ⟨q, hq, rfl⟩, List.mem_map.2 ⟨k, hk, rfl⟩⟩, ?_⟩
      rw [h.tail i hi', h.tail k (hS q hq k hk), ht]
  simp only [Function.comp]
  rw [this, Finset.card_image_of_injective _ r.ifc_inj]

end

/-- the paths of a demand and its load, in the two models -/
theorem compare_renamed {env env' : Env} {s s1 s' t t1 t' : State} {Δ Δ' : ℕ → ℕ → ℚ} {r : Renaming}
    (hs : SimResult env s s1 s' Δ) (ht : SimResult env' t t1 t' Δ')
    (hts : Tidy s) (htt : Tidy t) (hks : s.kind = .flex → NoShortcuts s)
    (hkt : t.kind = .flex → NoShortcuts t) (hr : Renamed r s t) (hr' : Renamed r s' t')
    (hu : ∀ j, Usable t' 0 j ↔ ∃ i, r.ifc i = j ∧ Usable s' 0 i) {d : ℕ} (hdm : d ∈ s.dmds)
    (rs : ∀ key, RidingOf s' key []) (rt : ∀ key, RidingOf t' key []) :
    SamePaths ((s'.dmd d).path.map (·.map r.path)) (t'.dmd (r.dmd d)).path ∧
      ∀ i, Δ' (r.dmd d) (r.ifc i) = Δ d i := by
  have hdt : r.dmd d ∈ t.dmds := hr.dmds.mem_iff.2 (List.mem_map.2 ⟨d, hdm, rfl⟩)
  have hdm' : d ∈ s'.dmds := by rw [hs.cfg.dmds]; exact hdm
  have e1 := hr.src d hdm
  have e2 := hr.dst d hdm
  rcases hs.placed hts hks hdm with ⟨ls, h1, h2, -⟩ | ⟨-, h3⟩
  · exact absurd ((rs _).unique h2).symm h1
  rcases ht.placed htt hkt hdt with ⟨ls, h1, h2, -⟩ | ⟨-, h4⟩
  · exact absurd ((rt _).unique h2).symm h1
  rw [e1, e2] at h4
  rcases h3 with ⟨p1, r1⟩ | ⟨l, p1, ne1, nd1, m1⟩ <;>
    rcases h4 with ⟨p2, r2⟩ | ⟨l', p2, ne2, nd2, m2⟩
  · rw [p1, p2]
    refine ⟨trivial, fun i => ?_⟩
    rcases hs.load d hdm with ⟨-, -, h⟩ | ⟨paths, ls, det, h, -⟩
    · rcases ht.load _ hdt with ⟨-, -, h'⟩ | ⟨paths, ls, det, h', -⟩
      · rw [h, h']
      · rw [p2] at h'; cases h'
    · rw [p1] at h; cases h
  · exfalso
    obtain ⟨q, hq⟩ := List.exists_mem_of_ne_nil _ ne2
    rw [m2, hr'.cheapest hu] at hq
    obtain ⟨p, -, hp⟩ := hq
    exact r1 ⟨p, hp.1⟩
  · exfalso
    obtain ⟨q, hq⟩ := List.exists_mem_of_ne_nil _ ne1
    rw [m1] at hq
    exact r2 ⟨_, hr'.route hu hq.1⟩
  · have hinj : Function.Injective (List.map r.ifc) := List.map_injective_iff.2 r.ifc_inj
    have hmem : ∀ q, q ∈ l' ↔ q ∈ l.map (List.map r.ifc) := fun q => by
      rw [m2, hr'.cheapest hu, List.mem_map]
      exact ⟨fun ⟨p, e, hp⟩ => ⟨p, (m1 p).2 hp, e.symm⟩, fun ⟨p, hp, e⟩ => ⟨p, e.symm, (m1 p).1 hp⟩⟩
    have hperm : (l.map (List.map r.ifc)).Perm l' :=
      ((List.perm_ext_iff_of_nodup nd2 (nd1.map hinj)).2 hmem).symm
    have hno : ∀ l : List (List ℕ), ∀ p ∈ l.map (fun q => q.map Item.ifc), ∀ m, Item.lsp m ∉ p := by
      intro l p hp m hm
      obtain ⟨q, -, rfl⟩ := List.mem_map.1 hp
      simp at hm
    obtain ⟨k1, det, a1, -, g1⟩ := hs.igpLoad hts hks hdm p1 (hno _)
    obtain ⟨k2, det', a2, -, g2⟩ := ht.igpLoad htt hkt hdt p2 (hno _)
    have b1 := List.map_injective_iff.2 ifc_map_injective a1
    have b2 := List.map_injective_iff.2 ifc_map_injective a2
    subst b1 b2
    rw [p1, p2]
    refine ⟨?_, fun i => ?_⟩
    · show (((l.map fun q => q.map Item.ifc).map r.path)).Perm _
      have : (l.map fun q => q.map Item.ifc).map r.path =
          (l.map (List.map r.ifc)).map fun q => q.map Item.ifc := by
        rw [List.map_map, List.map_map]
        refine List.map_congr_left fun q _ => ?_
        simp only [Function.comp, Renaming.path, List.map_map]
        rfl
      rw [this]
      exact hperm.map _
    · have hS : l'.toFinset = l.toFinset.image (List.map r.ifc) := by
        ext q
        rw [List.mem_toFinset, hmem, Finset.mem_image, List.mem_map]
        simp only [List.mem_toFinset]
      have hin : ∀ p ∈ l.toFinset, ∀ i ∈ p, i ∈ s'.ifs := fun p hp i hi =>
        (Route.mem_ok ((m1 p).1 (List.mem_toFinset.1 hp)).1 i hi).1
      have : carried det' (r.ifc i) = carried det i := by
        rw [g1.carried, g2.carried, hS, Finset.sum_image fun _ _ _ _ e => hinj e]
        refine Finset.sum_congr rfl fun p hp => ?_
        have hm : r.ifc i ∈ p.map r.ifc ↔ i ∈ p := List.mem_map_of_injective r.ifc_inj
        simp only [hm]
        unfold pathShare
        rw [hr'.share hin hp, hr'.kind, hr'.traffic d hdm']
      rw [g1.load, g2.load, hr'.kind, this]

/-- **C109** Names do not matter: without LSPs (and in a FlexModel without IGP shortcuts), a model
whose nodes, interfaces and demands are called differently and listed in another order routes every
demand over the corresponding paths and puts the same traffic on the corresponding interfaces. -/
theorem C109_names_do_not_matter {env env' : Env} {s s' t t' : State} {r : Renaming} (hts : Tidy s)
    (htt : Tidy t) (hks : s.kind = .flex → NoShortcuts s) (hkt : t.kind = .flex → NoShortcuts t)
    (hr : Renamed r s t) (hls : s.lsps = []) (hlt : t.lsps = [])
    (hrs : updateSimulation env s = .ok () s') (hrt : updateSimulation env' t = .ok () t') :
    (∀ d ∈ s.dmds, SamePaths ((s'.dmd d).path.map (·.map r.path)) (t'.dmd (r.dmd d)).path) ∧
    ∀ i ∈ s.ifs, (t'.ifc (r.ifc i)).traffic = (s'.ifc i).traffic := by
  obtain ⟨s1, Δ, hs⟩ := sim_spec hts.dmds hts.ends hts.ckts hrs
  obtain ⟨t1, Δ', ht⟩ := sim_spec htt.dmds htt.ends htt.ckts hrt
  obtain ⟨r1, g1⟩ := hs.noLsps hls
  obtain ⟨r2, g2⟩ := ht.noLsps hlt
  have hr' : Renamed r s' t' := hr.run hs.cfg ht.cfg hs.dcfg ht.dcfg
  have hc := fun d (hdm : d ∈ s.dmds) => compare_renamed hs ht hts htt hks hkt hr hr'
    (hr'.usable r1 r2) hdm g1 g2
  refine ⟨fun d hdm => (hc d hdm).1, fun i hi => ?_⟩
  have hi' : i ∈ s'.ifs := by rw [hs.cfg.ifs]; exact hi
  rw [hs.traffic i hi, ht.traffic _ (hr.mem.2 ⟨i, hi, rfl⟩), hr'.failed i hi']
  split
  · rfl
  · congr 1
    rw [(hr.dmds.map _).sum_eq, List.map_map]
    congr 1
    exact List.map_congr_left fun d hd => (hc d hd).2 i

/-- the square with other names, its first two circuits and the order of its lists exchanged -/
def Ex.square2 (k : Kind) : State := Ex.mk k
  [{ name := "nD" }, { name := "nC" }, { name := "nB" }, { name := "nA" }]
  (Ex.link "p" 2 0 10 100 7 ++ Ex.link "q" 3 2 10 100 8 ++ Ex.link "r" 3 1 10 100 9 ++
    Ex.link "s" 1 0 10 100 10)
  [{ src := 0, dst := 2, traffic := 3, name := "u" }, { src := 3, dst := 0, traffic := 10, name := "v" }] [] []

def Ex.square1 (k : Kind) : State := Ex.mk k
  [{ name := "A" }, { name := "B" }, { name := "C" }, { name := "D" }]
  (Ex.link "ab" 0 1 10 100 1 ++ Ex.link "bd" 1 3 10 100 2 ++ Ex.link "ac" 0 2 10 100 3 ++
    Ex.link "cd" 2 3 10 100 4)
  [{ src := 0, dst := 3, traffic := 10, name := "x" }, { src := 3, dst := 1, traffic := 3, name := "y" }] [] []

def Ex.other : Renaming where
  node x := "n" ++ x
  ifc i := Equiv.swap 0 2 (Equiv.swap 1 3 i)
  dmd i := 1 - i
  node_inj a b h := String.ext (by simpa using congrArg String.toList h)
  ifc_inj := (Equiv.swap 0 2).injective.comp (Equiv.swap 1 3).injective

/-- the hypotheses are met and the demand splits over both sides of the square -/
example (k : Kind) : Tidy (Ex.square1 k) ∧ Tidy (Ex.square2 k) ∧ NoShortcuts (Ex.square1 k) ∧
    NoShortcuts (Ex.square2 k) ∧ Renamed Ex.other (Ex.square1 k) (Ex.square2 k) ∧
    raised (updateSimulation Env.default) (Ex.square1 k) = none ∧
    raised (updateSimulation Env.default) (Ex.square2 k) = none ∧
    ((finalState (updateSimulation Env.default) (Ex.square1 k)).ifc 0).traffic = .val 5 ∧
    ((finalState (updateSimulation Env.default) (Ex.square2 k)).ifc 2).traffic = .val 5 ∧
    ((finalState (updateSimulation Env.default) (Ex.square1 k)).ifc 3).traffic = .val 3 ∧
    ((finalState (updateSimulation Env.default) (Ex.square2 k)).ifc 1).traffic = .val 3 := by
  refine ⟨?_, ?_, ?_, ?_, ⟨?_, ?_, ?_, ?_, ?_, ?_, ?_, ?_, ?_, ?_, ?_, ?_, ?_⟩, ?_, ?_, ?_, ?_, ?_, ?_⟩
  all_goals cases k <;> decide +kernel

end NTM
