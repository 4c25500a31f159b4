import Verif.Spec.Local
import Verif.Props.Bridge
import Verif.Props.Bystander

/-!
# Routes that stay within a part of the network
-/

namespace NTM

open Spec

section
variable {tail head tail' head' : ℕ → String} {cost cost' : ℕ → ℕ} {ok ok' : ℕ → Prop}
  {a b x y : String} {q : List ℕ} {W : String → Bool}

/-- a loop-free route between nodes on the same side of a bridge stays there -/
theorem bridge_inside (h : Route tail head ok a q b)
    (hw : ∀ i, ok i → W (tail i) = true → W (head i) = false → tail i = x ∧ head i = y)
    (hw' : ∀ i, ok i → W (tail i) = false → W (head i) = true → tail i = y ∧ head i = x)
    (hs : (visited head a q).Nodup) (ha : W a = true) (hb : W b = true) :
    ∀ i ∈ q, W (tail i) = true ∧ W (head i) = true := by
  have hstay : ∀ i ∈ q, W (tail i) = true → W (head i) = true := by
    intro i hi h1
    by_contra h2
    have := bridge_end h hw hw' hs hi h1 (by simpa using h2)
    rw [hb] at this
    cases this
  clear hw hw' hs hb
  induction h with
  | nil => intro i hi; cases hi
  | @cons j p b hj hr ih =>
    have h1 := hstay j (by simp) ha
    intro i hi
    rcases List.mem_cons.1 hi with rfl | hi
    · exact ⟨ha, h1⟩
    · exact ih h1 (fun k hk => hstay k (List.mem_cons_of_mem _ hk)) i hi

theorem route_move (h : Route tail head ok a q b)
    (he : ∀ i ∈ q, ok' i ∧ tail' i = tail i ∧ head' i = head i) : Route tail' head' ok' a q b := by
  induction h with
  | nil => exact .nil _
  | @cons j p b hj hr ih =>
    obtain ⟨h1, h2, h3⟩ := he j (by simp)
    have := ih fun i hi => he i (List.mem_cons_of_mem _ hi)
    rw [← h3] at this
    rw [← h2]
    exact .cons h1 this

/-- a cheapest route within one side of a bridge is cheapest whatever the other side is -/
theorem cheapest_inside {x' y' : String}
    (hw : ∀ i, ok i → W (tail i) = true → W (head i) = false → tail i = x ∧ head i = y)
    (hw' : ∀ i, ok i → W (tail i) = false → W (head i) = true → tail i = y ∧ head i = x)
    (hv : ∀ i, ok' i → W (tail' i) = true → W (head' i) = false → tail' i = x' ∧ head' i = y')
    (hv' : ∀ i, ok' i → W (tail' i) = false → W (head' i) = true → tail' i = y' ∧ head' i = x')
    (hpos : ∀ i, ok i → 1 ≤ cost i) (hpos' : ∀ i, ok' i → 1 ≤ cost' i)
    (hst : ∀ i, ok i → W (tail i) = true → W (head i) = true →
      ok' i ∧ tail' i = tail i ∧ head' i = head i ∧ cost' i = cost i)
    (hts : ∀ i, ok' i → W (tail' i) = true → W (head' i) = true →
      ok i ∧ tail i = tail' i ∧ head i = head' i ∧ cost i = cost' i)
    (ha : W a = true) (hb : W b = true) (h : Cheapest tail head cost ok a q b) :
    Cheapest tail' head' cost' ok' a q b := by
  have hin := bridge_inside h.1 hw hw'
    (cheapest_simple (fun i hi => hpos i (Route.mem_ok h.1 i hi)) h) ha hb
  have hm : ∀ i ∈ q, ok' i ∧ tail' i = tail i ∧ head' i = head i ∧ cost' i = cost i :=
    fun i hi => hst i (Route.mem_ok h.1 i hi) (hin i hi).1 (hin i hi).2
  refine ⟨route_move h.1 fun i hi => ⟨(hm i hi).1, (hm i hi).2.1, (hm i hi).2.2.1⟩, fun r hr => ?_⟩
  obtain ⟨p, hp⟩ := exists_cheapest (cost := cost') ⟨r, hr⟩
  have hpin := bridge_inside hp.1 hv hv'
    (cheapest_simple (fun i hi => hpos' i (Route.mem_ok hp.1 i hi)) hp) ha hb
  have hpm : ∀ i ∈ p, ok i ∧ tail i = tail' i ∧ head i = head' i ∧ cost i = cost' i :=
    fun i hi => hts i (Route.mem_ok hp.1 i hi) (hpin i hi).1 (hpin i hi).2
  have h1 := h.2 p (route_move hp.1 fun i hi =>
    ⟨(hpm i hi).1, (hpm i hi).2.1, (hpm i hi).2.2.1⟩)
  have e1 : totalCost cost' q = totalCost cost q := by
    unfold totalCost
    exact congrArg _ (List.map_congr_left fun i hi => (hm i hi).2.2.2)
  have e2 : totalCost cost p = totalCost cost' p := by
    unfold totalCost
    exact congrArg _ (List.map_congr_left fun i hi => (hpm i hi).2.2.2)
  rw [e1]
  exact h1.trans (e2 ▸ hp.2 r hr)

/-- the shares of the paths depend only on where their hops start -/
theorem share_congr {S : Finset (List ℕ)} (h : ∀ p ∈ S, ∀ i ∈ p, tail' i = tail i) (hq : q ∈ S) :
    share tail' S q = share tail S q := by
  have hf : ∀ u, fanHops tail' S u = fanHops tail S u := by
    intro u
    ext i
    rw [mem_fanHops, mem_fanHops]
    constructor
    · rintro ⟨⟨p, hp, hi⟩, e⟩
      exact ⟨⟨p, hp, hi⟩, by rw [← h p hp i hi]; exact e⟩
    · rintro ⟨⟨p, hp, hi⟩, e⟩
      exact ⟨⟨p, hp, hi⟩, by rw [h p hp i hi]; exact e⟩
  unfold share
  refine congrArg _ (List.map_congr_left fun i hi => ?_)
  rw [hf, h q hq i hi]

end

/-- the same cheapest paths between the same nodes carry the same load -/
theorem IgpLoad.local {s' t' : State} {d e : ℕ} {l l' : List (List ℕ)} {det det' : List PathInfo}
    {f f' : ℕ → ℚ} (h : IgpLoad s' d l det f) (h' : IgpLoad t' e l' det' f')
    (hk : t'.kind = s'.kind) (htl : ∀ p ∈ l, ∀ i ∈ p, t'.tail i = s'.tail i)
    (htr : (t'.dmd e).traffic = (s'.dmd d).traffic) (hl : ∀ q, q ∈ l' ↔ q ∈ l) (i : ℕ) :
    f' i = f i := by
  have e1 : l'.toFinset = l.toFinset := by
    ext q; rw [List.mem_toFinset, List.mem_toFinset]; exact hl q
  have : Spec.carried det' i = Spec.carried det i := by
    rw [h.carried, h'.carried, e1]
    refine Finset.sum_congr rfl fun q hq => ?_
    have : pathShare t' e l.toFinset q = pathShare s' d l.toFinset q := by
      unfold pathShare
      rw [hk, htr, share_congr (fun p hp => htl p (List.mem_toFinset.1 hp)) (by simpa using hq)]
    rw [this]
  rw [h.load, h'.load, hk, this]

end NTM
