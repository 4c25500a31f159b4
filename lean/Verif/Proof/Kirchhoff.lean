import Verif.Proof.Impact
import Verif.Props.Lsp
import Verif.Props.Riding

/-!
# Traffic balance at a node
-/

namespace NTM

open Spec

/-- net outflow at node `u` of the loads `f` -/
def netFlow (s : State) (f : ℕ → ℚ) (u : String) : ℚ :=
  ((s.ifs.filter fun i => s.tail i = u).map f).sum -
    ((s.ifs.filter fun i => s.head i = u).map f).sum

theorem netFlow_zero (s : State) (u : String) : netFlow s (fun _ => 0) u = 0 := by
  unfold netFlow; simp

theorem netFlow_add (s : State) (f g : ℕ → ℚ) (u : String) :
    netFlow s (fun i => f i + g i) u = netFlow s f u + netFlow s g u := by
  unfold netFlow
  rw [List.sum_map_add, List.sum_map_add]
  ring

theorem netFlow_sum (s : State) (ds : List ℕ) (f : ℕ → ℕ → ℚ) (u : String) :
    netFlow s (fun i => (ds.map fun d => f d i).sum) u = (ds.map fun d => netFlow s (f d) u).sum := by
  induction ds with
  | nil => simpa using netFlow_zero s u
  | cons d ds ih =>
    simp only [List.map_cons, List.sum_cons]
    rw [netFlow_add, ih]

theorem netFlow_congr {s : State} {f g : ℕ → ℚ} (h : ∀ i ∈ s.ifs, f i = g i) (u : String) :
    netFlow s f u = netFlow s g u := by
  unfold netFlow
  rw [List.map_congr_left fun i hi => h i (List.mem_filter.1 hi).1,
    List.map_congr_left fun i hi => h i (List.mem_filter.1 hi).1]

/-- the signed indicator of the end points -/
def atEnds (a b u : String) (q : ℚ) : ℚ := (if a = u then q else 0) - (if b = u then q else 0)

theorem sum_onPath {I p : List ℕ} (hI : I.Nodup) (hp : p.Nodup) (hsub : ∀ i ∈ p, i ∈ I)
    (P : ℕ → Prop) [DecidablePred P] (c : ℚ) :
    ((I.filter fun i => P i).map fun i => if i ∈ p then c else 0).sum =
      c * (p.filter fun i => P i).length := by
  rw [← List.sum_toFinset _ (hI.filter _), ← Finset.sum_filter, Finset.sum_const, nsmul_eq_mul,
    mul_comm]
  congr 2
  rw [← List.toFinset_card_of_nodup (hp.filter _)]
  congr 1
  ext i
  simp only [Finset.mem_filter, List.mem_toFinset, List.mem_filter, decide_eq_true_eq]
  exact ⟨fun h => ⟨h.2, h.1.2⟩, fun h => ⟨⟨hsub i h.1, h.2⟩, h.1⟩⟩

theorem route_count {tail head : ℕ → String} {ok : ℕ → Prop} {a b : String} {p : List ℕ}
    (h : Route tail head ok a p b) (u : String) :
    ((p.filter fun i => tail i = u).length : ℚ) - (p.filter fun i => head i = u).length =
      atEnds a b u 1 := by
  induction h with
  | nil a => unfold atEnds; simp
  | @cons i p v _ _ ih =>
    unfold atEnds at ih ⊢
    rw [List.filter_cons, List.filter_cons]
    have e1 : ((if decide (tail i = u) = true then i :: p.filter (fun i => decide (tail i = u))
        else p.filter (fun i => decide (tail i = u))).length : ℚ) =
        (if tail i = u then 1 else 0) + (p.filter fun i => tail i = u).length := by
      by_cases h : tail i = u <;> simp [h]; ring
    have e2 : ((if decide (head i = u) = true then i :: p.filter (fun i => decide (head i = u))
        else p.filter (fun i => decide (head i = u))).length : ℚ) =
        (if head i = u then 1 else 0) + (p.filter fun i => head i = u).length := by
      by_cases h : head i = u <;> simp [h]; ring
    rw [e1, e2]
    linarith

/-- a route carries traffic from its start to its end -/
theorem netFlow_route {s : State} (hnd : s.ifs.Nodup) {ok : ℕ → Prop} {a b : String} {p : List ℕ}
    (hr : Route s.tail s.head ok a p b) (hp : p.Nodup) (hsub : ∀ i ∈ p, i ∈ s.ifs) (q : ℚ)
    (u : String) : netFlow s (fun i => if i ∈ p then q else 0) u = atEnds a b u q := by
  unfold netFlow
  rw [sum_onPath hnd hp hsub (fun i => s.tail i = u), sum_onPath hnd hp hsub (fun i => s.head i = u),
    ← mul_sub, route_count hr]
  unfold atEnds
  rw [mul_sub]
  simp

section
variable {env : Env} {s s1 s' : State} {Δ : ℕ → ℕ → ℚ}

/-- an IGP-routed demand carries its traffic from its source to its destination -/
theorem IgpLoad.netFlow {d : ℕ} {l : List (List ℕ)} {det : List PathInfo} {f : ℕ → ℚ}
    (h : IgpLoad s' d l det f) (hk : s'.kind = .flex) (hnd : s'.ifs.Nodup) (u : String) :
    netFlow s' f u = atEnds (s'.dmdSrc d) (s'.dmdDst d) u (s'.dmd d).traffic := by
  have hf : f = Spec.carried det := by
    funext i; rw [h.load i, hk]
  have hne := h.ends_ne
  obtain ⟨a1, a2, a3, a4⟩ := h.at_ends hnd
  have e : NTM.netFlow s' f u = Spec.leaving s' det u - Spec.entering s' det u := by
    rw [hf]; rfl
  rw [h.flex_total hk] at a1 a2
  rw [e]
  unfold atEnds
  by_cases h1 : s'.dmdSrc d = u
  · have h2 : s'.dmdDst d ≠ u := fun h2 => hne (h1.trans h2.symm)
    rw [if_pos h1, if_neg h2, ← h1, a1, a3]
  · by_cases h2 : s'.dmdDst d = u
    · rw [if_neg h1, if_pos h2, ← h2, a2, a4]
    · rw [if_neg h1, if_neg h2, h.balance hnd (Ne.symm h1) (Ne.symm h2)]
      ring

theorem SimResult.lsp_nodup (h : SimResult env s s1 s' Δ) (ht : Tidy s) {l : ℕ} (hl : l ∈ s.lsps)
    {p : List ℕ} {c : ℕ} {m : ℚ} (hp : (s'.lsp l).path = .routed p c m) : p.Nodup := by
  have hs0 : Sane s.resetSim := (cfg_resetSim s).sane (h.sane0 ht)
  obtain ⟨done, hg, hdone⟩ := h.lspInv ht (basic_rule env hs0)
  rw [h.net.2.2.1] at hp
  by_cases hld : l ∈ done
  · rcases hg.inv.placed l hld with ⟨h1, -⟩ | ⟨p', c', h', b', h1, -, -, h2, -⟩
    · rw [h1] at hp; cases hp
    · rw [h1] at hp; cases hp; exact h2
  · rw [hg.rest l hld] at hp
    unfold State.resetSim at hp
    simp only [] at hp
    rw [if_pos hl] at hp
    cases hp

/-- a demand on LSPs carries its traffic from its source to its destination -/
theorem SimResult.lsp_netFlow (h : SimResult env s s1 s' Δ) (ht : Tidy s) (hk : KeysDistinct s)
    (hrun : updateSimulation env s = .ok () s')
    (hx : s.kind = .perf ∨ SingleLinks s ∨ AllOrNone s') {d : ℕ} (hd : d ∈ s.dmds) {ls : List ℕ}
    (hne : ls ≠ []) (hr : RidingOf s' (pairKey (s.dmdSrc d) (s.dmdDst d)) ls)
    (hp : (s'.dmd d).path = some (ls.map fun l => [Item.lsp l])) (u : String) :
    netFlow s' (Δ d) u = atEnds (s'.dmdSrc d) (s'.dmdDst d) u (s'.dmd d).traffic := by
  obtain ⟨-, hΔ⟩ := h.lspLoad ht hd hne hr hp
  have hnd : s'.ifs.Nodup := by rw [h.cfg.ifs]; exact ht.ifs
  have h1 : netFlow s' (Δ d) u = (ls.map fun l => netFlow s' (fun i =>
      if crosses s' l i then (s'.dmd d).traffic / ls.length else 0) u).sum := by
    rw [← netFlow_sum]
    congr 1
    funext i
    exact hΔ i
  have h2 : ∀ l ∈ ls, netFlow s' (fun i =>
      if crosses s' l i then (s'.dmd d).traffic / ls.length else 0) u =
      atEnds (s'.dmdSrc d) (s'.dmdDst d) u ((s'.dmd d).traffic / ls.length) := by
    intro l hl
    obtain ⟨⟨hl1, hl2, hl3⟩, p, c, m, hlp⟩ := (h.mem_group ht hk hd).1 ((hr.mem_iff l).1 hl).1
    have hroute := C15_final_paths_eligible_partial ht hrun hx hl1 hlp
    have hcr : ∀ i, crosses s' l i = decide (i ∈ p) := fun i => by
      unfold crosses; rw [hlp]
    rw [hl2, hl3] at hroute
    have := netFlow_route hnd hroute (h.lsp_nodup ht (h.cfg.lsps ▸ hl1) hlp)
      (fun i hi => (Route.mem_ok hroute i hi).1) ((s'.dmd d).traffic / ls.length) u
    rw [← this]
    congr 1
    funext i
    rw [hcr]
    simp only [decide_eq_true_eq]
  rw [h1, List.map_congr_left h2, List.map_const', List.sum_replicate, nsmul_eq_mul]
  have hlen : (ls.length : ℚ) ≠ 0 := by
    have := List.length_pos_iff.2 hne
    exact_mod_cast Nat.ne_of_gt this
  unfold atEnds
  split <;> split <;> field_simp <;> ring

end

end NTM
