import Verif.Proof.Simulation
import Verif.Proof.ShortcutLsps
import Verif.Proof.Contribution

/-!
# A simulation leaves objects outside the model alone
-/

namespace NTM

open Spec

theorem reserveOn_outside {s : State} {p : List ℕ} (v : ℚ) {i : ℕ} (hi : i ∉ p) :
    (s.reserveOn p v).ifc i = s.ifc i := by
  unfold State.reserveOn
  induction p generalizing s with
  | nil => rfl
  | cons j p ih =>
    rw [List.mem_cons, not_or] at hi
    rw [List.foldl_cons, ih hi.2]
    unfold State.addReserved State.setReserved State.updIfc
    simp [hi.1]

/-- reservations on interfaces outside the model stay as they are -/
theorem outside_rule (env : Env) {s : State} (hs : Sane s) : LspRule env s fun done t =>
    Basic s done t ∧ ∀ i, i ∉ s.ifs → (t.ifc i).reservedRaw = (s.ifc i).reservedRaw := by
  refine LspRule.on_basic hs ?_ ?_ ?_
  · intro i hi
    show (if i ∈ s.ifs then { s.ifc i with reservedRaw := 0 } else s.ifc i).reservedRaw = _
    rw [if_neg hi]
  · intro done l t t' hf hst _ hX _ _ _ hsig i hi
    rw [← hX i hi]
    rcases hsig with ⟨-, rfl⟩ | ⟨p, k, hc, rfl⟩
    · rfl
    · have hp : i ∉ p := fun h => hi (by
        have := (Route.mem_ok hc.cheapest.1 i h).1.1
        rwa [hf.ifs] at this)
      show ((State.reserveOn _ p _).ifc i).reservedRaw = _
      rw [reserveOn_outside _ hp]
      rfl
  · intro done l l' r t t' hf hst hb hX hl _ _ _ _ _ _ _ hre i hi
    rw [← hX i hi]
    have hpl := hb.placed l hl
    obtain ⟨path, c, hd, res, h1, h2, rfl | ⟨p, k, x, hp, hne, hx, rfl⟩⟩ := hre
    · rfl
    · have e1 : i ∉ path := by
        rcases hpl with ⟨h, -⟩ | ⟨q, _, _, _, h, -, -, -, hq⟩
        · rw [h1] at h; cases h
        · rw [h1] at h; cases h
          exact fun h => hi (hf.ifs ▸ hq i h)
      have e2 : i ∉ p := fun h => hi (hf.ifs ▸ (hp.hop i h).1)
      show ((if res = _ then _ else _ : State).ifc i).reservedRaw = _
      split
      · rfl
      · rw [reserveOn_outside _ e2, reserveOn_outside _ e1]; rfl

variable {env : Env} {s s1 s' : State} {Δ : ℕ → ℕ → ℚ}

theorem SimResult.lspIfs_mem (ht : Tidy s) (h : SimResult env s s1 s' Δ) {l : ℕ} (hl : l ∈ s.lsps)
    {i : ℕ} (hi : i ∈ s'.lspIfs l) : i ∈ s.ifs := by
  unfold State.lspIfs at hi
  rcases h.basic ht hl with h1 | ⟨p, c, hd, b, h1, -, -, -, hp⟩
  · rw [h1] at hi; cases hi
  · rw [h1] at hi
    rw [← h.cfg.ifs]
    exact hp i hi

/-- demands put nothing on interfaces outside the model -/
theorem SimResult.delta_outside (ht : Tidy s) (h : SimResult env s s1 s' Δ) {d : ℕ}
    (hd : d ∈ s.dmds) {i : ℕ} (hi : i ∉ s.ifs) : Δ d i = 0 := by
  rcases h.load d hd with ⟨-, -, h3⟩ | ⟨paths, ls, det, hp, hrid, hL, -⟩
  · rw [h3]
  · rcases hL with ⟨-, -, -, h3⟩ | ⟨-, hdet, h3⟩
    · rw [h3]
      refine List.sum_eq_zero fun x hx => ?_
      obtain ⟨l, hl, rfl⟩ := List.mem_map.1 hx
      obtain ⟨D, T, C, B, I, hov⟩ := h.over
      rw [hov, RidingOf.over] at hrid
      have hm : l ∈ s.lsps := by
        rw [← h.cfg1.lsps]; exact (mem_routedGroup h.fresh (hrid.sub hl)).1
      have : (s'.lspIfs l).count i = 0 :=
        List.count_eq_zero.2 fun hc => hi (h.lspIfs_mem ht hm hc)
      rw [this]; simp
    · rw [h3]
      refine List.sum_eq_zero fun x hx => ?_
      obtain ⟨y, hy, rfl⟩ := List.mem_map.1 hx
      unfold itemSet at hy
      obtain ⟨p, hpm, hyp⟩ := List.mem_flatten.1 (List.mem_dedup.1 hy)
      unfold itemLoad
      cases y with
      | ifc j =>
        have hj : j ∈ s.ifs := by
          rcases h.place d hd with ⟨ls', _, _, e⟩ | ⟨_, D', h2⟩
          · rw [hp] at e
            cases e
            obtain ⟨l, -, rfl⟩ := List.mem_map.1 hpm
            simp at hyp
          · have hs1 := h.sane1 ht
            have hsaneD : Sane { s1 with dmd := D' } := ⟨hs1.nodup, hs1.costs, hs1.single⟩
            rw [hp] at h2
            have := igpPaths_mem hsaneD (considered_sub s1 _ _ _) (nodup_igpEdges hs1.nodup) h2 p
              hpm j hyp
            rw [← h.cfg1.ifs]
            exact considered_sub s1 _ _ _ this
        have hne : i ≠ j := by rintro rfl; exact hi hj
        cases s'.kind <;> simp [hne]
      | lsp l =>
        have hm := (h.lsp_mem hd hp hpm hyp).1
        have : (s'.lspIfs l).count i = 0 :=
          List.count_eq_zero.2 fun hc => hi (h.lspIfs_mem ht hm hc)
        cases s'.kind <;> simp [this]

theorem SimResult.traffic_outside (ht : Tidy s) (h : SimResult env s s1 s' Δ) {i : ℕ}
    (hi : i ∉ s.ifs) : (s'.ifc i).traffic = (s.ifc i).traffic := by
  rw [h.outTraffic i hi, List.sum_eq_zero]
  · cases (s.ifc i).traffic <;> simp [Traffic.plus]
  · intro x hx
    obtain ⟨d, hd, rfl⟩ := List.mem_map.1 hx
    exact h.delta_outside ht hd hi

theorem SimResult.reserved_outside (ht : Tidy s) (h : SimResult env s s1 s' Δ) {i : ℕ}
    (hi : i ∉ s.ifs) : (s'.ifc i).reservedRaw = (s.ifc i).reservedRaw := by
  have hs0 : Sane s.resetSim := (cfg_resetSim s).sane (h.sane0 ht)
  obtain ⟨done, hg, -⟩ := h.lspInv ht (outside_rule env hs0)
  have := hg.inv.2 i hi
  obtain ⟨D, T, C, B, I, rfl⟩ := h.over
  show (s1.ifc i).reservedRaw = _
  rw [this]
  show (if i ∈ s.ifs then { s.ifc i with reservedRaw := 0, traffic := .val 0 }
    else s.ifc i).reservedRaw = _
  rw [if_neg hi]

theorem SimResult.lsp_outside (ht : Tidy s) (h : SimResult env s s1 s' Δ) {l : ℕ}
    (hl : l ∉ s.lsps) : s'.lsp l = s.lsp l := by
  have hs0 : Sane s.resetSim := (cfg_resetSim s).sane (h.sane0 ht)
  obtain ⟨done, hg, -⟩ := h.lspInv ht (basic_rule env hs0)
  rw [h.net.2.2.1, hg.rest l fun hd => hl (hg.inv.sub l hd)]
  show (if l ∈ s.lsps then { s.lsp l with path := .unrouted } else s.lsp l) = _
  rw [if_neg hl]

end NTM
