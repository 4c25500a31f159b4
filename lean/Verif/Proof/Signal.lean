import Verif.Proof.LspPhase

/-!
# Signalling one LSP, in terms of routes
-/

namespace NTM

open Spec

theorem LspFrame.sane {s t : State} (h : LspFrame s t) (hs : Sane s) : Sane t where
  nodup := by rw [h.ifs]; exact hs.nodup
  costs := by
    intro i hi
    rw [h.ifc i]
    exact hs.costs i (h.ifs ▸ hi)
  single := by
    intro hk i hi j hj h1 h2
    rw [h.tail, h.tail] at h1
    rw [h.head, h.head] at h2
    exact hs.single (h.kind ▸ hk) i (h.ifs ▸ hi) j (h.ifs ▸ hj) h1 h2

theorem lspGraph_eq (s : State) (bw : ℚ) :
    s.lspGraph bw = s.graphOf (s.considered false bw true) := by
  unfold State.lspGraph State.graphOf
  cases s.kind <;> rfl

theorem lspCandidates_spec {s : State} (h : Sane s) {bw : ℚ} {a b : String}
    {nxSp : List (List String)} {all : List (List ℕ)}
    (hp : (s.lspGraph bw).allShortestPaths a b = .ok nxSp)
    (hc : s.lspCandidates bw nxSp = .ok all) :
    all.Nodup ∧ ∀ p, p ∈ all ↔ CheapestOver s (RsvpUsable s bw) a p b := by
  rw [lspGraph_eq] at hp
  have hsub := considered_sub s false bw true
  have hcongr : ∀ p, CheapestOver s (· ∈ s.considered false bw true) a p b ↔
      CheapestOver s (RsvpUsable s bw) a p b :=
    fun p => CheapestOver.congr fun i => mem_considered_rsvp
  unfold State.lspCandidates at hc
  cases hk : s.kind with
  | perf =>
    rw [hk] at hc
    obtain ⟨l, h1, h2, h3⟩ := perf_paths h hk hsub hp
    simp only [h1] at hc
    cases hc
    exact ⟨h2, fun p => (h3 p).trans (hcongr p)⟩
  | flex =>
    rw [hk] at hc
    simp only [] at hc
    cases hc
    have hnd : (s.considered false bw true).Nodup := h.nodup.filter _
    obtain ⟨h2, h3⟩ := flex_paths h hk hsub hnd hp
    exact ⟨h2, fun p => (h3 p).trans (hcongr p)⟩

theorem pathHeadroom_ge {s : State} {p : List ℕ} {bw : ℚ} (hp : ∀ i ∈ p, bw ≤ s.reservable i)
    {m : ℚ} (h : s.pathHeadroom p = some m) : bw ≤ m := by
  unfold State.pathHeadroom minQ at h
  have := (List.min?_eq_some_iff.1 h).1
  obtain ⟨i, hi, rfl⟩ := List.mem_map.1 this
  exact hp i hi

/-- nothing is lost by the bandwidth test -/
theorem withHeadroom_eq {s : State} {bw : ℚ} {all cands : List (List ℕ)}
    (hall : ∀ p ∈ all, ∀ i ∈ p, bw ≤ s.reservable i) (h : s.withHeadroom bw all = .ok cands) :
    cands = all ∧ [] ∉ all := by
  induction all generalizing cands with
  | nil => unfold State.withHeadroom at h; cases h; simp
  | cons p ps ih =>
    unfold State.withHeadroom at h
    cases hm : s.pathHeadroom p with
    | none => rw [hm] at h; cases h
    | some m =>
      rw [hm] at h
      simp only [] at h
      cases hr : s.withHeadroom bw ps with
      | error e => rw [hr] at h; cases h
      | ok l =>
        rw [hr] at h
        simp only [] at h
        rw [if_pos (pathHeadroom_ge (hall p (by simp)) hm)] at h
        cases h
        obtain ⟨h1, h2⟩ := ih (fun q hq => hall q (by simp [hq])) hr
        refine ⟨by rw [h1], ?_⟩
        intro hmem
        rcases List.mem_cons.1 hmem with rfl | hmem
        · unfold State.pathHeadroom minQ at hm; cases hm
        · exact h2 hmem

theorem Route.mem_ok {tail head : ℕ → String} {ok : ℕ → Prop} {a b : String} {p : List ℕ}
    (h : Route tail head ok a p b) : ∀ i ∈ p, ok i := by
  induction h with
  | nil => simp
  | cons h1 _ ih => intro j hj; rcases List.mem_cons.1 hj with rfl | hj; exacts [h1, ih j hj]

/-- `p` is what an LSP from `a` to `b` asking for `bw` may be placed on -/
structure Chosen (s : State) (bw : ℚ) (a b : String) (p : List ℕ) : Prop where
  cheapest : CheapestOver s (RsvpUsable s bw) a p b
  fewest : ∀ q, CheapestOver s (RsvpUsable s bw) a q b → p.length ≤ q.length
  ne : p ≠ []

/-- the outcome of signalling an LSP -/
def Signalled (s : State) (bw : ℚ) (l : ℕ) (t : State) : Prop :=
  (¬ Reachable s.tail s.head (RsvpUsable s bw) (s.lspSrc l) (s.lspDst l) ∧
    t = s.afterUnrouted l bw) ∨
  ∃ p k, Chosen s bw (s.lspSrc l) (s.lspDst l) p ∧ t = { s.afterRouted l bw p with rngPos := k }

theorem signalLsp_spec {env : Env} {traff : ℚ} {l : ℕ} {s : State} (h : Sane s) :
    wp (signalLsp env traff l) (fun _ t => Signalled s (askedBw s traff l) l t)
      (fun _ t => LspFrame s t) s := by
  refine wp_mono (signalLsp_raw env traff l s) ?_ (fun _ _ h => h)
  generalize askedBw s traff l = bw
  have hreach : ∀ a b, Reachable s.tail s.head (RsvpUsable s bw) a b ↔
      Reachable s.tail s.head (· ∈ s.considered false bw true) a b := by
    intro a b
    unfold Reachable
    refine exists_congr fun p => ?_
    exact Route.congr fun i => mem_considered_rsvp.symm
  rintro _ t (⟨hno, rfl⟩ | ⟨nxSp, all, cands, h1, h2, h3, h4⟩)
  · refine .inl ⟨?_, rfl⟩
    rw [hreach]
    rw [lspGraph_eq] at hno
    exact noPath_iff h (considered_sub ..) hno
  · obtain ⟨-, hall⟩ := lspCandidates_spec h h1 h2
    have hres : ∀ p ∈ all, ∀ i ∈ p, bw ≤ s.reservable i := by
      intro p hp i hi
      exact (Route.mem_ok ((hall p).1 hp).1 i hi).1.2.2
    obtain ⟨rfl, hne⟩ := withHeadroom_eq hres h3
    rcases h4 with ⟨h4, -⟩ | ⟨p, k, hp, rfl⟩
    · exfalso
      rw [lspGraph_eq] at h1
      have hr := ok_reachable h (considered_sub ..) h1
      rw [← hreach] at hr
      obtain ⟨q, hq⟩ := exists_cheapest (cost := fun i => (s.ifc i).cost) hr
      have := (hall q).2 hq
      rw [h4] at this; cases this
    · rw [mem_fewestHops] at hp
      refine .inr ⟨p, k, ⟨(hall p).1 hp.1, fun q hq => hp.2 q ((hall q).2 hq), ?_⟩, rfl⟩
      rintro rfl
      exact hne hp.1

end NTM
