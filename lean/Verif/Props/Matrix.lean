import Verif.Props.Invariance

/-!
# C111: only the traffic matrix matters
-/

namespace NTM

open Spec

namespace Spec

/-- the traffic all demands of the model together ask for from one node to another: an entry of
the traffic matrix -/
def offered (s : State) (a b : String) : ℚ :=
  ((s.dmds.filter fun d => s.dmdSrc d = a ∧ s.dmdDst d = b).map fun d => (s.dmd d).traffic).sum

end Spec

/-- a sum over demands, grouped by their ends -/
theorem sum_by_key {κ : Type} [DecidableEq κ] (l : List ℕ) (k : ℕ → κ) (f : ℕ → ℚ) (U : κ → ℚ)
    (K : Finset κ) (hK : ∀ d ∈ l, k d ∈ K) :
    (l.map fun d => f d * U (k d)).sum =
      ∑ x ∈ K, ((l.filter fun d => k d = x).map f).sum * U x := by
  induction l with
  | nil => simp
  | cons d l ih =>
    rw [List.map_cons, List.sum_cons, ih fun e he => hK e (List.mem_cons_of_mem _ he)]
    have : ∀ x ∈ K, (((d :: l).filter fun e => k e = x).map f).sum * U x =
        (if k d = x then f d * U x else 0) + ((l.filter fun e => k e = x).map f).sum * U x := by
      intro x _
      by_cases h : k d = x
      · rw [List.filter_cons_of_pos (by simpa using h), if_pos h, List.map_cons, List.sum_cons,
          add_mul]
      · rw [List.filter_cons_of_neg (by simpa using h), if_neg h, zero_add]
    rw [Finset.sum_congr rfl this, Finset.sum_add_distrib]
    congr 1
    rw [Finset.sum_ite_eq, if_pos (hK d (by simp))]

/-- `S` is the set of cheapest paths -/
def IsFan (s : State) (a b : String) (S : Finset (List ℕ)) : Prop :=
  ∀ q, q ∈ S ↔ CheapestOver s (Usable s 0) a q b

/-- what one unit of traffic from `a` to `b` puts on an interface -/
def fanLoad (s : State) (S : Finset (List ℕ)) (i : ℕ) : ℚ :=
  ∑ q ∈ S, if i ∈ q then share s.tail S q else 0

open Classical in
noncomputable def unitLoad (s : State) (a b : String) (i : ℕ) : ℚ :=
  if h : ∃ S, IsFan s a b S then fanLoad s h.choose i else 0

theorem unitLoad_eq {s : State} {a b : String} {S : Finset (List ℕ)} (h : IsFan s a b S) (i : ℕ) :
    unitLoad s a b i = fanLoad s S i := by
  have hx : ∃ S, IsFan s a b S := ⟨S, h⟩
  unfold unitLoad
  rw [dif_pos hx]
  congr 1
  ext q
  rw [hx.choose_spec q, h q]

theorem unitLoad_same {s t : State} (hn : SameNetwork s t)
    (hu : ∀ i, Usable t 0 i ↔ Usable s 0 i) (a b : String) (i : ℕ) :
    unitLoad t a b i = unitLoad s a b i := by
  have key : ∀ S, IsFan t a b S ↔ IsFan s a b S := fun S =>
    forall_congr' fun q => by rw [cheapest_same hn hu]
  by_cases h : ∃ S, IsFan s a b S
  · obtain ⟨S, hS⟩ := h
    rw [unitLoad_eq hS, unitLoad_eq ((key S).2 hS)]
    unfold fanLoad
    rw [hn.tail]
  · have h' : ¬ ∃ S, IsFan t a b S := fun ⟨S, hS⟩ => h ⟨S, (key S).1 hS⟩
    unfold unitLoad
    rw [dif_neg h, dif_neg h']

theorem SimResult.perUnit {env : Env} {s s1 s' : State} {Δ : ℕ → ℕ → ℚ}
    (hs : SimResult env s s1 s' Δ) (ht : Tidy s) (hk : s.kind = .flex) (hsc : NoShortcuts s)
    (rs : ∀ key, RidingOf s' key []) {d : ℕ} (hd : d ∈ s.dmds) (i : ℕ) :
    Δ d i = (s.dmd d).traffic * unitLoad s' (s.dmdSrc d) (s.dmdDst d) i := by
  rcases hs.placed ht (fun _ => hsc) hd with ⟨ls, h1, h2, -⟩ | ⟨-, ⟨hp, hr⟩ | ⟨l, hp, hne, hnd, hm⟩⟩
  · exact absurd ((rs _).unique h2).symm h1
  · have hS : IsFan s' (s.dmdSrc d) (s.dmdDst d) ∅ := fun q =>
      ⟨fun h => absurd h (Finset.notMem_empty _), fun h => absurd ⟨q, h.1⟩ hr⟩
    rw [unitLoad_eq hS]
    rcases hs.load d hd with ⟨-, -, h⟩ | ⟨paths, ls, det, h, -⟩
    · rw [h]; simp [fanLoad]
    · rw [hp] at h; cases h
  · have hno : ∀ p ∈ l.map (fun q => q.map Item.ifc), ∀ m, Item.lsp m ∉ p := by
      intro p hp m hm
      obtain ⟨q, -, rfl⟩ := List.mem_map.1 hp
      simp at hm
    obtain ⟨k1, det, a1, -, g⟩ := hs.igpLoad ht (fun _ => hsc) hd hp hno
    have b1 := List.map_injective_iff.2 ifc_map_injective a1
    subst b1
    have hS : IsFan s' (s.dmdSrc d) (s.dmdDst d) l.toFinset := fun q => by
      rw [List.mem_toFinset]; exact hm q
    have hk' : s'.kind = .flex := hs.cfg.kind.trans hk
    have htr : (s'.dmd d).traffic = (s.dmd d).traffic := by rw [hs.cfg.dmd d]
    rw [unitLoad_eq hS, g.load, hk']
    dsimp only
    rw [g.carried]
    unfold fanLoad pathShare
    rw [hk', htr, Finset.mul_sum]
    refine Finset.sum_congr rfl fun q _ => ?_
    split
    · rfl
    · rw [mul_zero]

/-- **C111** Only the traffic matrix matters: two FlexModels without LSPs and IGP shortcuts on the
same network, whose demands add up to the same traffic from every node to every other, put the same
traffic on every interface, however the traffic is cut into demands. -/
theorem C111_traffic_matrix {env env' : Env} {s s' t t' : State} (hks : s.kind = .flex)
    (hkt : t.kind = .flex) (hts : Tidy s) (htt : Tidy t) (hsc : NoShortcuts s)
    (hn : SameNetwork s t) (hm : ∀ a b, offered t a b = offered s a b) (hls : s.lsps = [])
    (hlt : t.lsps = []) (hrs : updateSimulation env s = .ok () s')
    (hrt : updateSimulation env' t = .ok () t') :
    ∀ i ∈ s.ifs, (t'.ifc i).traffic = (s'.ifc i).traffic := by
  obtain ⟨s1, Δ, hs⟩ := sim_spec hts.dmds hts.ends hts.ckts hrs
  obtain ⟨t1, Δ', ht⟩ := sim_spec htt.dmds htt.ends htt.ckts hrt
  obtain ⟨r1, g1⟩ := hs.noLsps hls
  obtain ⟨r2, g2⟩ := ht.noLsps hlt
  have hn' : SameNetwork s' t' := hn.run hs.cfg ht.cfg
  have hu := usable_same hn' fun i hi => by rw [r1 i hi, r2 i (hn'.ifs.mem_iff.2 hi)]
  have hsc' : NoShortcuts t := fun n hm => by rw [hn.node]; exact hsc n (hn.nodes.mem_iff.1 hm)
  intro i hi
  rw [hs.traffic i hi, ht.traffic i (hn.ifs.mem_iff.2 hi), hn'.failed i]
  split
  · rfl
  · congr 1
    have e1 := List.map_congr_left fun d (hd : d ∈ s.dmds) => hs.perUnit hts hks hsc g1 hd i
    have e2 := List.map_congr_left fun d (hd : d ∈ t.dmds) => ht.perUnit htt hkt hsc' g2 hd i
    rw [e1, e2]
    let K : Finset (String × String) :=
      (s.dmds.map fun d => (s.dmdSrc d, s.dmdDst d)).toFinset ∪
        (t.dmds.map fun d => (t.dmdSrc d, t.dmdDst d)).toFinset
    have k1 : ∀ d ∈ s.dmds, (s.dmdSrc d, s.dmdDst d) ∈ K := fun d hd =>
      Finset.mem_union_left _ (List.mem_toFinset.2 (List.mem_map.2 ⟨d, hd, rfl⟩))
    have k2 : ∀ d ∈ t.dmds, (t.dmdSrc d, t.dmdDst d) ∈ K := fun d hd =>
      Finset.mem_union_right _ (List.mem_toFinset.2 (List.mem_map.2 ⟨d, hd, rfl⟩))
    rw [sum_by_key s.dmds _ (fun d => (s.dmd d).traffic) (fun x => unitLoad s' x.1 x.2 i) K k1,
      sum_by_key t.dmds _ (fun d => (t.dmd d).traffic) (fun x => unitLoad t' x.1 x.2 i) K k2]
    refine Finset.sum_congr rfl fun x _ => ?_
    rw [unitLoad_same hn' hu]
    congr 1
    have := hm x.1 x.2
    unfold offered at this
    simp only [Prod.ext_iff]
    exact this

/-- the square with the given demands from A to D and from D to B -/
def Ex.offers (k : Kind) (ds : List Dmd) : State := Ex.mk k
  [{ name := "A" }, { name := "B" }, { name := "C" }, { name := "D" }]
  (Ex.link "ab" 0 1 10 100 1 ++ Ex.link "bd" 1 3 10 100 2 ++ Ex.link "ac" 0 2 10 100 3 ++
    Ex.link "cd" 2 3 10 100 4) ds [] []

/-- 10 from A to D and 3 from D to B, in two demands and in three -/
def Ex.inTwo : State := Ex.offers .flex
  [{ src := 0, dst := 3, traffic := 10, name := "x" }, { src := 3, dst := 1, traffic := 3, name := "y" }]

def Ex.inThree : State := Ex.offers .flex
  [{ src := 0, dst := 3, traffic := 4, name := "p" }, { src := 3, dst := 1, traffic := 3, name := "q" },
    { src := 0, dst := 3, traffic := 6, name := "r" }]

/-- the hypotheses are met; half of what goes from A to D takes the first circuit -/
example : Tidy Ex.inTwo ∧ Tidy Ex.inThree ∧ NoShortcuts Ex.inTwo ∧ SameNetwork Ex.inTwo Ex.inThree ∧
    (∀ a b, offered Ex.inThree a b = offered Ex.inTwo a b) ∧ offered Ex.inTwo "A" "D" = 10 ∧
    Ex.inTwo.lsps = [] ∧ Ex.inThree.lsps = [] ∧
    raised (updateSimulation Env.default) Ex.inTwo = none ∧
    raised (updateSimulation Env.default) Ex.inThree = none ∧
    ((finalState (updateSimulation Env.default) Ex.inTwo).ifc 0).traffic = .val 5 := by
  refine ⟨by decide +kernel, by decide +kernel, by decide +kernel,
    ⟨rfl, List.Perm.refl _, List.Perm.refl _, fun _ => rfl⟩, fun a b => ?_, by decide +kernel, rfl,
    rfl, by decide +kernel, by decide +kernel, by decide +kernel⟩
  show (([0, 1, 2].filter fun d => Ex.inThree.dmdSrc d = a ∧ Ex.inThree.dmdDst d = b).map
      fun d => (Ex.inThree.dmd d).traffic).sum =
    (([0, 1].filter fun d => Ex.inTwo.dmdSrc d = a ∧ Ex.inTwo.dmdDst d = b).map
      fun d => (Ex.inTwo.dmd d).traffic).sum
  have e0 : Ex.inThree.dmdSrc 0 = "A" ∧ Ex.inThree.dmdDst 0 = "D" ∧
      Ex.inThree.dmdSrc 1 = "D" ∧ Ex.inThree.dmdDst 1 = "B" ∧
      Ex.inThree.dmdSrc 2 = "A" ∧ Ex.inThree.dmdDst 2 = "D" := ⟨rfl, rfl, rfl, rfl, rfl, rfl⟩
  have e1 : Ex.inTwo.dmdSrc 0 = "A" ∧ Ex.inTwo.dmdDst 0 = "D" ∧
      Ex.inTwo.dmdSrc 1 = "D" ∧ Ex.inTwo.dmdDst 1 = "B" := ⟨rfl, rfl, rfl, rfl⟩
  by_cases h1 : "A" = a ∧ "D" = b
  · obtain ⟨rfl, rfl⟩ := h1; decide +kernel
  by_cases h2 : "D" = a ∧ "B" = b
  · obtain ⟨rfl, rfl⟩ := h2; decide +kernel
  simp [e0, e1, h1, h2]

/-- **C111** is false of the PerformanceModel: it rounds what every demand puts on an interface, so
two demands of 0.04 vanish where one of 0.08 counts as 0.1. -/
theorem C111_performance_false :
    let s := Ex.offers .perf [{ src := 0, dst := 1, traffic := 2 / 25, name := "x" }]
    let t := Ex.offers .perf [{ src := 0, dst := 1, traffic := 1 / 25, name := "x" },
      { src := 0, dst := 1, traffic := 1 / 25, name := "y" }]
    Tidy s ∧ Tidy t ∧ offered t "A" "B" = offered s "A" "B" ∧ offered s "A" "B" = 2 / 25 ∧
    raised (updateSimulation Env.default) s = none ∧
    raised (updateSimulation Env.default) t = none ∧
    ((finalState (updateSimulation Env.default) s).ifc 0).traffic = .val (1 / 10) ∧
    ((finalState (updateSimulation Env.default) t).ifc 0).traffic = .val 0 := by
  decide +kernel

end NTM
