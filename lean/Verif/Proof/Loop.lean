import Verif.Spec.Loop
import Verif.Proof.Outcome
import Verif.Proof.Reopt
import Verif.Proof.LspInv

/-!
# Paths without loops
-/

namespace NTM

open Spec

section
variable {tail head : ℕ → String} {ok : ℕ → Prop} {a b v w : String} {q : List ℕ}

/-- a loop-free route leaves a stub only at its start -/
theorem stub_tail (h : Route tail head ok a q b) (hv : ∀ i, ok i → tail i = v → head i = w)
    (hv' : ∀ i, ok i → head i = v → tail i = w) (hs : (visited head a q).Nodup) {i : ℕ}
    (hi : i ∈ q) (ht : tail i = v) : a = v := by
  induction h with
  | nil => cases hi
  | @cons j p b hj hr ih =>
    rcases List.mem_cons.1 hi with rfl | hi
    · exact ht
    · have hs' : (visited head (head j) p).Nodup := (List.nodup_cons.1 hs).2
      have e1 := hv' j hj (ih hs' hi)
      have e2 := hv i (Route.mem_ok hr i hi) ht
      refine absurd ?_ (List.nodup_cons.1 hs).1
      rw [e1, ← e2]
      exact List.mem_map_of_mem (List.mem_cons_of_mem _ hi)

/-- a loop-free route enters a stub only at its end -/
theorem stub_head (h : Route tail head ok a q b) (hv : ∀ i, ok i → tail i = v → head i = w)
    (hv' : ∀ i, ok i → head i = v → tail i = w) (hs : (visited head a q).Nodup) {i : ℕ}
    (hi : i ∈ q) (ht : head i = v) : b = v := by
  induction h with
  | nil => cases hi
  | @cons j p b hj hr ih =>
    have hs' : (visited head (head j) p).Nodup := (List.nodup_cons.1 hs).2
    rcases List.mem_cons.1 hi with rfl | hi
    · generalize hx : head i = x at hr
      cases hr with
      | nil => rw [← hx]; exact ht
      | @cons k p b hk hr =>
        have e1 := hv' i hj ht
        have e2 := hv k hk (hx.symm.trans ht)
        refine absurd ?_ (List.nodup_cons.1 hs).1
        rw [e1, ← e2]
        simp
    · exact ih hs' hi

/-- a loop-free route from a node to itself is empty -/
theorem loop_nil (h : Route tail head ok a q b) (hs : (visited head a q).Nodup) (e : a = b) :
    q = [] := by
  cases h with
  | nil => rfl
  | @cons j p _ hj hr =>
    refine absurd ?_ (List.nodup_cons.1 hs).1
    have : ∀ u, Route tail head ok u p b → b ∈ visited head u p := by
      intro u hu
      clear hr hs e hj
      induction hu with
      | nil => simp [visited]
      | cons _ _ ih => exact List.mem_cons_of_mem _ ih
    rw [e]
    exact this _ hr

end

theorem LoopFree.of_cheapest {t : State} (ht : PosCosts t) {ok : ℕ → Prop} {a b : String}
    {p q : List ℕ} (hok : ∀ i, ok i → i ∈ t.ifs ∧ (t.ifc i).failed = false)
    (h : CheapestOver t ok a q b) (h1 : ∀ i ∈ q, i ∈ p)
    (h2 : ∀ i ∈ p, ∃ j ∈ q, t.tail i = t.tail j ∧ t.head i = t.head j) : LoopFree t a p b :=
  ⟨q, ⟨h.1.mono fun i _ hi => hok i hi,
    cheapest_simple (fun i hi => ht i (hok i (Route.mem_ok h.1 i hi)).1) h⟩, h1, h2⟩

theorem LoopFree.frame {t t' : State} (hf : LspFrame t t') {a b : String} {p : List ℕ}
    (h : LoopFree t a p b) : LoopFree t' a p b := by
  obtain ⟨q, ⟨h1, h4⟩, h2, h3⟩ := h
  have e1 : t'.tail = t.tail := funext hf.tail
  have e2 : t'.head = t.head := funext hf.head
  refine ⟨q, ⟨?_, by rw [e2]; exact h4⟩, h2, by rw [e1, e2]; exact h3⟩
  rw [e1, e2]
  refine h1.mono fun i _ hi => ⟨by rw [hf.ifs]; exact hi.1, by rw [hf.ifc i]; exact hi.2⟩

theorem loop_rule (env : Env) {s : State} (hs : Sane s) :
    LspRule env s fun done t => Basic s done t ∧
      ∀ l ∈ done, ∀ p c h, (t.lsp l).path = .routed p c h →
        LoopFree t (s.lspSrc l) p (s.lspDst l) := by
  have hends : ∀ t, LspFrame (startLsps env s) t → ∀ l, t.lspSrc l = s.lspSrc l ∧
      t.lspDst l = s.lspDst l := by
    intro t hf l
    unfold State.lspSrc State.lspDst
    rw [hf.lsp l, hf.node]
    exact ⟨rfl, rfl⟩
  refine LspRule.on_basic hs (by simp) ?_ ?_
  · intro done l t t' hf ht hb hx hl hld hun hsig
    intro m hm p c h hp
    rcases List.mem_append.1 hm with hm' | hm
    · have : m ≠ l := fun e => hld (e ▸ hm')
      rw [hsig.other this] at hp
      exact LoopFree.frame hsig.frame (hx m hm' p c h hp)
    · rw [List.mem_singleton.1 hm] at hp ⊢
      have hfr := hsig.frame
      rcases hsig with ⟨-, rfl⟩ | ⟨q, k, hc, rfl⟩
      · rw [unrouted_lsp] at hp; cases hp
      · rw [signalled_lsp] at hp
        cases hp
        refine LoopFree.frame hfr ?_
        have := hc.cheapest
        rw [(hends t hf l).1, (hends t hf l).2] at this
        exact LoopFree.of_cheapest ht.costs (fun i hi => ⟨hi.1.1, hi.1.2.1⟩) this (fun _ hi => hi)
          fun i hi => ⟨i, hi, rfl, rfl⟩
  · intro done l l' r t t' hf ht hb hx hld hld' h1 h2 h3 h4 h5 h6 hre
    intro m hm p c h hp
    by_cases hml : m = l
    · subst hml
      have hfr := hre.frame
      obtain ⟨path, c', hd, res, e1, e2, rfl | ⟨q, k, x, hq, hne, hxx, rfl⟩⟩ := hre
      · exact hx m hm p c h hp
      · rw [resignalled_lsp, hxx] at hp
        cases hp
        refine LoopFree.frame hfr ?_
        obtain ⟨q', g1, g2, g3⟩ := hq.covers
        rw [(hends t hf m).1, (hends t hf m).2] at g1
        refine LoopFree.of_cheapest ht.costs (fun i hi => ?_) g1 g2 g3
        obtain ⟨a1, a2, -⟩ := mem_routedEdges.1 hi
        exact ⟨a1, a2⟩
    · rw [hre.other hml] at hp
      exact LoopFree.frame hre.frame (hx m hm p c h hp)

end NTM
