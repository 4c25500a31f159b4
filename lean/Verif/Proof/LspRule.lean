import Verif.Proof.Reopt
import Verif.Proof.Groups

/-!
# An induction rule for the LSP phase
-/

namespace NTM

open Spec

/-- total traffic of the demand group stored under `key` -/
def groupTotal (env : Env) (s : State) (key : String) : ℚ :=
  match dictGet (s.demandGroups env) key with
  | some ds => (ds.map fun d => (s.dmd d).traffic).sum
  | none => 0

/-- the LSPs with the same end points as `l` -/
def State.peers (s : State) (l : ℕ) : List ℕ :=
  between s.lsps s.lspSrc s.lspDst (s.lspSrc l) (s.lspDst l)

/-- the traffic of the demands between the end points of `l` -/
def totalFor (env : Env) (s : State) (l : ℕ) : ℚ :=
  groupTotal env s (pairKey (s.lspSrc l) (s.lspDst l))

/-- the share each LSP of a group asks for -/
def shareOf (env : Env) (s : State) (l : ℕ) : ℚ :=
  if 0 < totalFor env s l then totalFor env s l / (s.peers l).length else 0

/-- the state in which LSP routing starts -/
def startLsps (env : Env) (s : State) : State :=
  { s.clearReserved with groups := buildGroups env s.lsps s.lspSrc s.lspDst }

theorem startLsps_frame (env : Env) (s : State) : LspFrame
    { s with groups := buildGroups env s.lsps s.lspSrc s.lspDst } (startLsps env s) :=
  LspFrame.clearReserved { s with groups := buildGroups env s.lsps s.lspSrc s.lspDst }

theorem startLsps_sane {env : Env} {s : State} (hs : Sane s) : Sane (startLsps env s) :=
  (startLsps_frame env s).sane ⟨hs.nodup, hs.costs, hs.single⟩

/-- an invariant of the LSP phase started in `s` -/
structure LspRule (env : Env) (s : State) (Inv : List ℕ → State → Prop) : Prop where
  init : Inv [] (startLsps env s)
  signal : ∀ done l t t', LspFrame (startLsps env s) t → Inv done t → l ∈ s.lsps → l ∉ done →
    t.lsp l = s.lsp l → Signalled t (askedBw s (shareOf env s l) l) l t' → Inv (done ++ [l]) t'
  reopt : ∀ done l l' r t t', LspFrame (startLsps env s) t → Inv done t → l ∈ s.lsps → l ∈ done →
    l' ∈ done → l' ∈ s.lsps → s.lspSrc l' = s.lspSrc l → s.lspDst l' = s.lspDst l →
    (t.lsp l').path = .unrouted →
    (t.lsp l).reserved = .val (askedBw s (shareOf env s l) l) → 1 ≤ r → r < (s.peers l).length →
    ((∀ m ∈ s.peers l, m ∈ done) ∧
      r = ((s.peers l).filter fun m => (t.lsp m).path ≠ .unrouted).length) →
    Resignalled t (totalFor env s l / r) l t' → Inv done t'

theorem Signalled.other {t t' : State} {bw : ℚ} {l : ℕ} (h : Signalled t bw l t') {m : ℕ}
    (hm : m ≠ l) : t'.lsp m = t.lsp m := by
  rcases h with ⟨-, rfl⟩ | ⟨p, k, -, rfl⟩
  · unfold State.afterUnrouted State.updLsp; simp [hm]
  · show (State.reserveOn _ _ _).lsp m = _
    rw [reserveOn_lsp]
    unfold State.updLsp; simp [hm]

theorem Signalled.self {t t' : State} {bw : ℚ} {l : ℕ} (h : Signalled t bw l t') :
    (t'.lsp l).path = .unrouted ∨
      (∃ p c m, (t'.lsp l).path = .routed p c m) ∧ (t'.lsp l).reserved = .val bw := by
  rcases h with ⟨-, rfl⟩ | ⟨p, k, -, rfl⟩
  · left; unfold State.afterUnrouted State.updLsp; simp
  · right
    have : (({ t.afterRouted l bw p with rngPos := k } : State).lsp l) =
        { t.lsp l with path := .routed p (t.pathCost p) ((t.pathHeadroom p).getD 0)
                       reserved := .val bw, setup := some bw } := by
      show (State.reserveOn _ _ _).lsp l = _
      rw [reserveOn_lsp]
      unfold State.updLsp; simp
    rw [this]
    exact ⟨⟨_, _, _, rfl⟩, rfl⟩

theorem Signalled.frame {t t' : State} {bw : ℚ} {l : ℕ} (h : Signalled t bw l t') :
    LspFrame t t' := by
  rcases h with ⟨-, rfl⟩ | ⟨p, k, -, rfl⟩
  · exact .afterUnrouted ..
  · exact (LspFrame.afterRouted ..).trans (.rng _ _)

theorem Resignalled.other {t t' : State} {needed : ℚ} {l : ℕ} (h : Resignalled t needed l t')
    {m : ℕ} (hm : m ≠ l) : t'.lsp m = t.lsp m := by
  obtain ⟨path, c, hd, res, -, -, rfl | ⟨p, k, x, -, -, -, rfl⟩⟩ := h
  · rfl
  · show (if res = needed then _ else _ : State).lsp m = _
    split
    · unfold State.updLsp; simp [hm]
    · rw [reserveOn_lsp, reserveOn_lsp]; unfold State.updLsp; simp [hm]

theorem Resignalled.routed_before {t t' : State} {needed : ℚ} {l : ℕ}
    (h : Resignalled t needed l t') : (t.lsp l).path ≠ .unrouted := by
  obtain ⟨path, c, hd, res, h1, -, -⟩ := h
  rw [h1]; simp

theorem Resignalled.routed_after {t t' : State} {needed : ℚ} {l : ℕ}
    (h : Resignalled t needed l t') : (t'.lsp l).path ≠ .unrouted := by
  obtain ⟨path, c, hd, res, h1, -, rfl | ⟨p, k, x, -, -, hx, rfl⟩⟩ := h
  · rw [h1]; simp
  · have : ({ (if res = needed then t.updLsp l fun _ => x
        else ((t.updLsp l fun _ => x).reserveOn path (-res)).reserveOn p needed) with
        rngPos := k } : State).lsp l = x := by
      show (if res = needed then _ else _ : State).lsp l = _
      split
      · unfold State.updLsp; simp
      · rw [reserveOn_lsp, reserveOn_lsp]; unfold State.updLsp; simp
    rw [this, hx]; simp

theorem Resignalled.frame {t t' : State} {needed : ℚ} {l : ℕ} (h : Resignalled t needed l t') :
    LspFrame t t' := by
  obtain ⟨path, c, hd, res, -, -, rfl | ⟨p, k, x, -, -, hx, rfl⟩⟩ := h
  · exact .refl _
  · have hu : LspFrame t (t.updLsp l fun _ => x) := by
      refine ⟨rfl, rfl, rfl, rfl, rfl, rfl, rfl, rfl, rfl, rfl, rfl, rfl, fun _ => rfl,
        fun m => ?_⟩
      by_cases h : m = l
      · subst h; simp only [State.updLsp, if_true]; rw [hx]
      · simp only [State.updLsp, h, if_false]
    refine LspFrame.trans ?_ (.rng _ k)
    split
    · exact hu
    · exact (hu.trans (.reserveOn ..)).trans (.reserveOn ..)

theorem mem_between {objs : List ℕ} {src dst : ℕ → String} {a b : String} {o : ℕ} :
    o ∈ between objs src dst a b ↔ o ∈ objs ∧ src o = a ∧ dst o = b := by
  unfold between; simp

/-- the invariant of the loops over groups -/
structure GroupInv (env : Env) (s : State) (Inv : List ℕ → State → Prop) (done : List ℕ)
    (t : State) : Prop where
  frame : LspFrame (startLsps env s) t
  inv : Inv done t
  rest : ∀ l, l ∉ done → t.lsp l = s.lsp l

theorem routeGroup_inv {env : Env} {s : State} (hs : Sane s) {Inv : List ℕ → State → Prop}
    (R : LspRule env s Inv) {a b : String} {grp : String × List ℕ} (hkey : grp.1 = pairKey a b)
    (hgrp : grp.2 = between s.lsps s.lspSrc s.lspDst a b) (hnd : s.lsps.Nodup) {done : List ℕ}
    (hdis : ∀ l ∈ grp.2, l ∉ done) {t : State} (ht : GroupInv env s Inv done t) :
    wp (routeGroup env (s.demandGroups env) grp)
      (fun _ u => GroupInv env s Inv (done ++ grp.2) u) (fun _ _ => True) t := by
  have hgnd : grp.2.Nodup := by rw [hgrp]; exact hnd.filter _
  have hmem : ∀ l ∈ grp.2, l ∈ s.lsps ∧ s.lspSrc l = a ∧ s.lspDst l = b := by
    intro l hl; rw [hgrp] at hl; exact mem_between.1 hl
  have hpeers : ∀ l ∈ grp.2, s.peers l = grp.2 := by
    intro l hl
    obtain ⟨-, h1, h2⟩ := hmem l hl
    unfold State.peers; rw [h1, h2, hgrp]
  have htot : ∀ l ∈ grp.2, totalFor env s l = groupTotal env s grp.1 := by
    intro l hl
    obtain ⟨-, h1, h2⟩ := hmem l hl
    unfold totalFor; rw [h1, h2, hkey]
  unfold routeGroup
  simp only [wp_bind, wp_get]
  have hdmd : t.dmd = s.dmd := ht.frame.dmd
  rw [hdmd]
  change wp (forEach grp.2 (signalLsp env (if 0 < groupTotal env s grp.1 then
      groupTotal env s grp.1 / grp.2.length else 0))) (fun _ u => wp
      (if (grp.2.filter fun l => (u.lsp l).path ≠ .unrouted).length ≠ grp.2.length ∧
          0 < (grp.2.filter fun l => (u.lsp l).path ≠ .unrouted).length then
        forEach (grp.2.filter fun l => (u.lsp l).path ≠ .unrouted) (reoptLsp env
          (groupTotal env s grp.1 /
            (grp.2.filter fun l => (u.lsp l).path ≠ .unrouted).length))
      else pure ()) _ _ u) _ t
  generalize hT : groupTotal env s grp.1 = T at *
  have hshare : ∀ l ∈ grp.2, shareOf env s l = if 0 < T then T / grp.2.length else 0 := by
    intro l hl; unfold shareOf; rw [htot l hl, hpeers l hl]
  have hloop := wp_forEach_idx (s := t) (E := fun _ _ => True)
    (I := fun pre u => GroupInv env s Inv (done ++ pre) u ∧ ∀ l ∈ pre,
      (u.lsp l).path = .unrouted ∨
      (∃ p c m, (u.lsp l).path = .routed p c m) ∧
        (u.lsp l).reserved = .val (askedBw s (shareOf env s l) l))
    (signalLsp env (if 0 < T then T / grp.2.length else 0)) grp.2 [] ?_ ?_
  · refine wp_mono hloop ?_ (fun _ _ h => h)
    rintro _ u ⟨hu, hst⟩
    simp only [List.nil_append] at hu hst
    generalize hR : grp.2.filter (fun l => (u.lsp l).path ≠ .unrouted) = routed
    by_cases hc : routed.length ≠ grp.2.length ∧ 0 < routed.length
    · rw [if_pos hc]
      have hlt : routed.length < grp.2.length := by
        have : routed.length ≤ grp.2.length := by rw [← hR]; exact List.length_filter_le _ _
        omega
      obtain ⟨l', hl', hun⟩ : ∃ l' ∈ grp.2, (u.lsp l').path = .unrouted := by
        by_contra hcon
        push Not at hcon
        have : routed = grp.2 := by
          rw [← hR, List.filter_eq_self]
          intro l hl; simpa using hcon l hl
        rw [this] at hlt; omega
      have hrsub : ∀ l ∈ routed, l ∈ grp.2 ∧ (u.lsp l).path ≠ .unrouted := by
        intro l hl; rw [← hR, List.mem_filter] at hl; simpa using hl
      have hrnd : routed.Nodup := by rw [← hR]; exact hgnd.filter _
      have hl'r : l' ∉ routed := fun h => (hrsub l' h).2 hun
      have hloop2 := wp_forEach_idx (s := u) (E := fun _ _ => True)
        (I := fun pre v => GroupInv env s Inv (done ++ grp.2) v ∧ (∀ l, l ∉ pre →
          v.lsp l = u.lsp l) ∧
          ∀ l, ((v.lsp l).path = .unrouted ↔ (u.lsp l).path = .unrouted))
        (reoptLsp env (T / routed.length)) routed [] ?_ ⟨hu, fun _ _ => rfl, fun _ => Iff.rfl⟩
      · exact wp_mono hloop2 (fun _ v hv => hv.1) (fun _ _ h => h)
      · rintro pre l post heq v ⟨hv, hvo, hvu⟩
        simp only [List.nil_append] at hvo ⊢
        have hlr : l ∈ routed := by rw [heq]; simp
        have hlpre : l ∉ pre := by
          rw [heq, List.nodup_append] at hrnd
          intro h; exact hrnd.2.2 l h l (by simp) rfl
        have hl'pre : l' ∉ pre := fun h => hl'r (by rw [heq]; simp [h])
        have hlg := (hrsub l hlr).1
        have hsane : Sane v := hv.frame.sane (startLsps_sane hs)
        refine wp_mono (reoptLsp_spec hsane) ?_ (fun _ _ _ => trivial)
        intro _ w hw
        have hlm := hmem l hlg
        have hlm' := hmem l' hl'
        refine ⟨⟨hv.frame.trans hw.frame, ?_, ?_⟩, ?_, ?_⟩
        · refine R.reopt (done ++ grp.2) l l' routed.length v w hv.frame hv.inv hlm.1
            (by simp [hlg]) (by simp [hl']) hlm'.1 (hlm'.2.1.trans hlm.2.1.symm)
            (hlm'.2.2.trans hlm.2.2.symm) ?_ ?_ hc.2 ?_ ?_ ?_
          · rw [hvo l' hl'pre]; exact hun
          · rw [hvo l hlpre]
            rcases hst l hlg with h | h
            · exact absurd h (hrsub l hlr).2
            · exact h.2
          · rw [hpeers l hlg]; exact hlt
          · rw [hpeers l hlg]
            refine ⟨fun m hm => List.mem_append_right _ hm, ?_⟩
            rw [← hR]
            congr 1
            refine List.filter_congr fun m _ => ?_
            simp only [ne_eq, decide_not, hvu m]
          · rw [htot l hlg]; exact hw
        · intro m hm
          have : m ≠ l := by rintro rfl; exact hm (by simp [hlg])
          rw [hw.other this]
          exact hv.rest m hm
        · intro m hm
          have hml : m ≠ l := by rintro rfl; exact hm (by simp)
          rw [hw.other hml]
          exact hvo m (fun h => hm (by simp [h]))
        · intro m
          by_cases hml : m = l
          · subst hml
            rw [← hvu m]
            have h1 := hw.routed_before
            have h2 := hw.routed_after
            exact ⟨fun h => absurd h h2, fun h => absurd h h1⟩
          · rw [hw.other hml]; exact hvu m
    · rw [if_neg hc]
      exact hu
  · rintro pre l post heq u ⟨hu, hst⟩
    simp only [List.nil_append] at hu hst ⊢
    have hlg : l ∈ grp.2 := by rw [heq]; simp
    have hlpre : l ∉ pre := by
      rw [heq, List.nodup_append] at hgnd
      intro h; exact hgnd.2.2 l h l (by simp) rfl
    have hld : l ∉ done ++ pre := by
      intro h
      rcases List.mem_append.1 h with h | h
      · exact hdis l hlg h
      · exact hlpre h
    have hsane : Sane u := hu.frame.sane (startLsps_sane hs)
    have hlu := hu.rest l hld
    refine wp_mono (signalLsp_spec hsane) ?_ (fun _ _ _ => trivial)
    intro _ w hw
    have hask : askedBw u (if 0 < T then T / grp.2.length else 0) l =
        askedBw s (shareOf env s l) l := by
      unfold askedBw; rw [hlu, hshare l hlg]
    rw [hask] at hw
    refine ⟨⟨hu.frame.trans hw.frame, ?_, ?_⟩, ?_⟩
    · rw [← List.append_assoc]
      exact R.signal (done ++ pre) l u w hu.frame hu.inv (hmem l hlg).1 hld hlu hw
    · intro m hm
      have hml : m ≠ l := by rintro rfl; exact hm (by simp)
      rw [hw.other hml]
      exact hu.rest m (fun h => hm (by rw [← List.append_assoc]; exact List.mem_append_left _ h))
    · intro m hm
      by_cases hml : m = l
      · subst hml; exact hw.self
      · rw [hw.other hml]
        refine hst m ?_
        rcases List.mem_append.1 hm with h | h
        · exact h
        · exact absurd (List.mem_singleton.1 h) hml
  · exact ⟨by simpa using ht, by simp⟩

/-- invariants of the LSP phase hold at its end -/
theorem routeLsps_inv {env : Env} {s : State} (hs : Sane s) (hnd : s.lsps.Nodup)
    (hg : s.groups = []) {Inv : List ℕ → State → Prop} (R : LspRule env s Inv) :
    wp (routeLsps env) (fun _ t => ∃ done, GroupInv env s Inv done t ∧
      ∀ l, l ∈ done ↔ ∃ g ∈ buildGroups env s.lsps s.lspSrc s.lspDst, l ∈ g.2)
      (fun _ _ => True) s := by
  unfold routeLsps
  simp only [wp_bind, wp_modify]
  have h1 : lspGroups env s.clearReserved =
      .ok (buildGroups env s.lsps s.lspSrc s.lspDst) (startLsps env s) := by
    unfold lspGroups
    have : s.clearReserved.groups = [] := hg
    rw [this]
    simp only [ne_eq, not_true_eq_false, if_false]
    rfl
  rw [wp_ok h1]
  simp only [wp_get]
  generalize hG : buildGroups env s.lsps s.lspSrc s.lspDst = G at *
  have hGnd : (G.map Prod.fst).Nodup := by rw [← hG]; exact nodup_buildGroups ..
  have hGspec : ∀ g ∈ G, ∃ a b, g.1 = pairKey a b ∧
      g.2 = between s.lsps s.lspSrc s.lspDst a b := by
    rintro ⟨k, l⟩ hg'
    have := dictGet_of_mem hGnd hg'
    rw [← hG] at this
    obtain ⟨a, b, h1, -, -, h2, -⟩ := dictGet_buildGroups_some this
    exact ⟨a, b, h1, h2⟩
  have hdg : State.demandGroups (startLsps env s) env = s.demandGroups env := rfl
  rw [hdg]
  have hloop := wp_forEach_idx (s := startLsps env s) (E := fun _ _ => True)
    (I := fun pre u => ∃ done, GroupInv env s Inv done u ∧
      ∀ l, l ∈ done ↔ ∃ g ∈ pre, l ∈ g.2)
    (routeGroup env (s.demandGroups env)) G [] ?_ ?_
  · simpa using hloop
  · rintro pre g post heq u ⟨done, hu, hdone⟩
    simp only [List.nil_append] at hdone ⊢
    obtain ⟨a, b, hk, hgl⟩ := hGspec g (by rw [heq]; simp)
    refine wp_mono (routeGroup_inv hs R hk hgl hnd ?_ hu) ?_ (fun _ _ h => h)
    · intro l hl hld
      obtain ⟨g', hg', hl'⟩ := (hdone l).1 hld
      obtain ⟨a', b', hk', hgl'⟩ := hGspec g' (by rw [heq]; simp [hg'])
      rw [hgl] at hl
      rw [hgl'] at hl'
      obtain ⟨-, e1, e2⟩ := mem_between.1 hl
      obtain ⟨-, e3, e4⟩ := mem_between.1 hl'
      have : g'.1 = g.1 := by rw [hk, hk', ← e1, ← e2, ← e3, ← e4]
      rw [heq, List.map_append, List.map_cons, List.nodup_append] at hGnd
      exact hGnd.2.2 g'.1 (List.mem_map.2 ⟨g', hg', rfl⟩) g.1 (by simp) this
    · intro _ v hv
      refine ⟨done ++ g.2, hv, fun l => ?_⟩
      rw [List.mem_append, hdone l]
      constructor
      · rintro (⟨g', h1, h2⟩ | h)
        · exact ⟨g', by simp [h1], h2⟩
        · exact ⟨g, by simp, h⟩
      · rintro ⟨g', h1, h2⟩
        rcases List.mem_append.1 h1 with h1 | h1
        · exact .inl ⟨g', h1, h2⟩
        · rw [List.mem_singleton.1 h1] at h2; exact .inr h2
  · refine ⟨[], ⟨LspFrame.refl _, R.init, fun _ _ => rfl⟩, by simp⟩

end NTM
