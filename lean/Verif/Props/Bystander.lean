import Verif.Props.Total
import Verif.Props.Invariance
import Verif.Proof.Impact

/-!
# C98: LSPs leave the demands between other nodes alone
-/

namespace NTM

open Spec

/-- what a demand without LSPs may cross: interfaces that are up and RSVP-enabled -/
def Spec.Open (s : State) (i : ℕ) : Prop :=
  i ∈ s.ifs ∧ (s.ifc i).failed = false ∧ (s.ifc i).rsvpEnabled = true

/-- reservations never close an interface to demands that ride no LSP -/
theorem SimResult.open_iff {env : Env} {s s1 s' : State} {Δ : ℕ → ℕ → ℚ}
    (h : SimResult env s s1 s' Δ) (hw : WellConfigured s)
    (htie : ∀ l ∈ s.lsps, ¬ RoundingTie (setupBandwidth s l)) (i : ℕ) :
    Usable s' 0 i ↔ Open s i := by
  have hc := h.cfg
  have hc1 := h.cfg1
  unfold Usable Open
  rw [h.net.1, hc.ifs, hc.ifc i]
  refine and_congr_right fun hi => and_congr (by simp) ?_
  have e1 : (s1.ifc i).rsvpEnabled = (s.ifc i).rsvpEnabled := by rw [hc1.ifc i]
  constructor
  · intro h0
    by_contra hr
    unfold State.reservable at h0
    rw [e1, if_neg (by simpa using hr)] at h0
    norm_num at h0
  · intro hr
    have hlim : reservationLimit s1 i = reservationLimit s i := by
      unfold reservationLimit; rw [hc1.ifc i]
    refine (C20_within_limit hw.tidy hw.single hw.keys hw.traffic hw.ifcNames htie
      (fun l hl => hw.setup_nonneg hl) h.lspRun (by rw [hc1.ifs]; exact hi) (by rw [e1]; exact hr)
      (by rw [hlim]; exact (hw.limit_nonneg hi).1)).1

/-- a demand with no routed LSP between its end points rides none -/
theorem SimResult.rides_none {env : Env} {s s1 s' : State} {Δ : ℕ → ℕ → ℚ}
    (h : SimResult env s s1 s' Δ) (hw : WellConfigured s) {d : ℕ} (hd : d ∈ s.dmds)
    (hno : ∀ l, LspBetween s' (s'.dmdSrc d) (s'.dmdDst d) l → ¬ IsRouted s' l) :
    RidingOf s' (pairKey (s.dmdSrc d) (s.dmdDst d)) [] := by
  rw [ridingOf_nil]
  refine List.eq_nil_iff_forall_not_mem.2 fun l hl => ?_
  obtain ⟨h1, h2⟩ := (h.mem_group hw.tidy hw.keys hd).1 hl
  exact hno l h1 h2

/-- **C98** In a well-formed model without IGP shortcuts, a demand with no routed LSP between its
end points takes exactly the cheapest paths over the interfaces that are up and RSVP-enabled,
whatever the LSPs between other nodes have reserved; it is unrouted exactly if there is none. -/
theorem C98_igp_paths {env : Env} {s s' : State} (hw : WellConfigured s)
    (htie : ∀ l ∈ s.lsps, ¬ RoundingTie (setupBandwidth s l)) (hsc : NoShortcuts s)
    (hrun : updateSimulation env s = .ok () s') {d : ℕ} (hd : d ∈ s.dmds)
    (hno : ∀ l, LspBetween s' (s'.dmdSrc d) (s'.dmdDst d) l → ¬ IsRouted s' l) :
    ((s'.dmd d).path = none ∧ ¬ Reachable s.tail s.head (Open s) (s.dmdSrc d) (s.dmdDst d)) ∨
    ∃ l, (s'.dmd d).path = some (l.map fun q => q.map Item.ifc) ∧ l ≠ [] ∧ l.Nodup ∧
      ∀ q, q ∈ l ↔ CheapestOver s (Open s) (s.dmdSrc d) q (s.dmdDst d) := by
  obtain ⟨s1, Δ, hs⟩ := sim_spec hw.tidy.dmds hw.tidy.ends hw.tidy.ckts hrun
  have hc := hs.cfg
  have ho := hs.open_iff hw htie
  have rs := hs.rides_none hw hd hno
  rcases hs.placed hw.tidy (fun _ => hsc) hd with ⟨ls, h1, h2, -⟩ | ⟨-, h3⟩
  · exact absurd (rs.unique h2).symm h1
  rcases h3 with ⟨p1, r1⟩ | ⟨l, p1, ne1, nd1, m1⟩
  · refine .inl ⟨p1, ?_⟩
    rintro ⟨p, hp⟩
    refine r1 ⟨p, ?_⟩
    rw [funext hc.tail, funext hc.head]
    exact (Route.congr ho).2 hp
  · refine .inr ⟨l, p1, ne1, nd1, fun q => ?_⟩
    rw [m1, CheapestOver.congr ho]
    unfold CheapestOver
    rw [funext hc.tail, funext hc.head]
    have : (fun i => (s'.ifc i).cost) = fun i => (s.ifc i).cost := by funext i; rw [hc.ifc i]
    rw [this]

/-- **C98** Take two well-formed models without IGP shortcuts that have the same network and
demands, but any LSPs.  A demand with no routed LSP between its end points in either takes the
same paths and puts the same traffic on every interface. -/
theorem C98_bystanders {env env' : Env} {s s' t t' : State} (hws : WellConfigured s)
    (hwt : WellConfigured t) (hkind : t.kind = s.kind)
    (hties : ∀ l ∈ s.lsps, ¬ RoundingTie (setupBandwidth s l))
    (htiet : ∀ l ∈ t.lsps, ¬ RoundingTie (setupBandwidth t l)) (hsc : NoShortcuts s)
    (hn : SameNetwork s t) (hd : SameDemands 1 s t)
    (hrs : updateSimulation env s = .ok () s') (hrt : updateSimulation env' t = .ok () t')
    {d : ℕ} (hdm : d ∈ s.dmds)
    (hnos : ∀ l, LspBetween s' (s'.dmdSrc d) (s'.dmdDst d) l → ¬ IsRouted s' l)
    (hnot : ∀ l, LspBetween t' (t'.dmdSrc d) (t'.dmdDst d) l → ¬ IsRouted t' l) :
    SamePaths (s'.dmd d).path (t'.dmd d).path ∧
    ∀ i, contribution t' d i = contribution s' d i := by
  have hts := hws.tidy
  have htt := hwt.tidy
  obtain ⟨s1, Δ, hs⟩ := sim_spec hts.dmds hts.ends hts.ckts hrs
  obtain ⟨t1, Δ', ht⟩ := sim_spec htt.dmds htt.ends htt.ckts hrt
  have hdt : d ∈ t.dmds := hd.dmds.mem_iff.2 hdm
  have hsct : NoShortcuts t := fun n hm => by rw [hn.node]; exact hsc n (hn.nodes.mem_iff.1 hm)
  have hn' : SameNetwork s' t' := hn.run hs.cfg ht.cfg
  have hu : ∀ i, Usable t' 0 i ↔ Usable s' 0 i := fun i => by
    rw [hs.open_iff hws hties, ht.open_iff hwt htiet]
    unfold Open
    rw [hn.ifs.mem_iff, hn.ifc i]
  obtain ⟨h1, h2⟩ := compare_igp hs ht hts htt (fun _ => hsc) (fun _ => hsct) hn hd hu hdm
    (hs.rides_none hws hdm hnos) (ht.rides_none hwt hdt hnot)
  refine ⟨h1, fun i => ?_⟩
  rw [← hs.delta_eq hts (fun _ => hsc) hdm, ← ht.delta_eq htt (fun _ => hsct) hdt]
  rcases h2 with ⟨-, -, h⟩ | ⟨l, l', det, det', g1, g2, e⟩
  · rw [(h i).1, (h i).2]
  · refine g1.same g2 (by rw [ht.cfg.kind, hs.cfg.kind, hkind]) hn'.tail
      (by rw [ht.cfg.dmd d, hs.cfg.dmd d, hd.dmd d]; simp) (fun q => ?_) i
    rw [← List.mem_toFinset, e, List.mem_toFinset]

/-- an LSP from A to C that reserves all of the circuits A–B and B–C, and a demand from A to B;
`on = false` leaves the LSP out -/
def Ex.booked (k : Kind) (on : Bool) : State := Ex.mk k
  [{ name := "A" }, { name := "B" }, { name := "C" }]
  (Ex.link "ab" 0 1 10 100 1 ++ Ex.link "bc" 1 2 10 100 2)
  [{ src := 0, dst := 1, traffic := 7, name := "x" }, { src := 0, dst := 2, traffic := 5, name := "y" }]
  (if on then [{ src := 0, dst := 2, name := "l", configured := some 100 }] else []) []

/-- the LSP leaves nothing to reserve on A–B, and the demand still takes it -/
example (k : Kind) : WellConfigured (Ex.booked k true) ∧ WellConfigured (Ex.booked k false) ∧
    NoTies (Ex.booked k true) ∧ NoShortcuts (Ex.booked k true) ∧
    SameNetwork (Ex.booked k true) (Ex.booked k false) ∧
    SameDemands 1 (Ex.booked k true) (Ex.booked k false) ∧
    raised (updateSimulation Env.default) (Ex.booked k false) = none ∧
    raised (updateSimulation Env.default) (Ex.booked k true) = none ∧
    let s' := finalState (updateSimulation Env.default) (Ex.booked k true)
    s'.reservable 0 = 0 ∧ (s'.lsp 0).path = .routed [0, 2] 20 100 ∧
    (¬ ∃ l ∈ s'.lsps, LspBetween s' (s'.dmdSrc 0) (s'.dmdDst 0) l) ∧
    (s'.dmd 0).path = some [[.ifc 0]] ∧ (s'.dmd 1).path = some [[.lsp 0]] := by
  cases k <;> exact ⟨wellConfigured_of (by decide +kernel), wellConfigured_of (by decide +kernel),
    noTies_of (by decide +kernel), by decide +kernel, ⟨rfl, .refl _, .refl _, fun _ => rfl⟩,
    ⟨.refl _, fun _ => by simp [Ex.booked, Ex.mk]⟩, by decide +kernel, by decide +kernel,
    by decide +kernel, by decide +kernel, by decide +kernel, by decide +kernel, by decide +kernel⟩

end NTM
