import Verif.Proof.ShortcutFan

/-!
# Interface traffic with shortcuts
-/

namespace NTM

open Spec

theorem itemTraffic_eq {det : List PathInfo} (hn : ∀ x ∈ det, x.items.Nodup) (y : Item) :
    itemTraffic det y = itemCarried det y := by
  unfold itemTraffic itemCarried
  congr 1
  refine List.map_congr_left fun x hx => ?_
  by_cases h : y ∈ x.items
  · rw [if_pos h, List.count_eq_one_of_mem (hn x hx) h]; simp
  · rw [if_neg h, List.count_eq_zero_of_not_mem h]; simp

theorem viaShortcuts_sub {s : State} (hpos : ∀ i, Usable s 0 i → 1 ≤ s.costOf i) {a b : String}
    {r : List Item} (h : ViaShortcuts s a r b) :
    ∃ gs, Sub s (Usable s 0) (distTo s.tail s.head s.costOf (Usable s 0) a) gs a r b := by
  obtain ⟨legs, choice, rest, h1, h2, h3, h4⟩ := h
  obtain ⟨h5, h6⟩ := (cheapest_iff_tight hpos).1 h1
  exact ⟨_, legs, choice, rest, rfl, fun g hg => (h2 g hg).1, h3, h4, h5, h6⟩

theorem Sub.nodup {s : State} {ok : ℕ → Prop} {ρ : String → ℕ} {x y : String}
    {gs : List (List ℕ)} {r : List Item} (h : Sub s ok ρ gs x r y) : r.Nodup := by
  have := (ranked_tails (ρ := ρ) ((itemRoute_iff s).1 h.route) (by
    intro n hn
    obtain ⟨z, hz, rfl⟩ := List.mem_map.1 hn
    rw [encTail_enc, encHead_enc]
    exact h.increasing z hz)).1
  exact (this.of_map _).of_map _

/-- sum over the items of one kind -/
theorem sum_items (I : List Item) (hI : I.Nodup) (f : ℕ → ℚ) (g : ℕ → ℚ) (i : ℕ) :
    (I.map fun x => match x with
      | .ifc j => if i = j then f i else 0
      | .lsp l => g l).sum =
    (if Item.ifc i ∈ I then f i else 0) + ((I.filterMap fun x => match x with
      | .lsp l => some l
      | .ifc _ => none).map g).sum := by
  induction I with
  | nil => simp
  | cons x I ih =>
    have hx := (List.nodup_cons.1 hI).1
    rw [List.map_cons, List.sum_cons, ih (List.nodup_cons.1 hI).2]
    cases x with
    | ifc j =>
      by_cases hij : i = j
      · subst hij; simp [hx]
      · have : Item.ifc i ≠ Item.ifc j := fun e => hij (by cases e; rfl)
        simp [hij, List.mem_cons]
    | lsp l =>
      simp only [List.mem_cons, reduceCtorEq, false_or, List.filterMap_cons, List.map_cons,
        List.sum_cons]
      ring

theorem ridden_perm (paths : List (List Item)) :
    ((itemSet paths).filterMap fun x => match x with
      | .lsp l => some l
      | .ifc _ => none).Perm (ridden paths).dedup := by
  rw [List.perm_ext_iff_of_nodup]
  · intro l
    rw [List.mem_dedup, mem_ridden, List.mem_filterMap]
    unfold itemSet
    constructor
    · rintro ⟨x, hx, e⟩
      rw [List.mem_dedup, List.mem_flatten] at hx
      obtain ⟨p, hp, hx⟩ := hx
      cases x with
      | ifc => cases e
      | lsp m => cases e; exact ⟨p, hp, hx⟩
    · rintro ⟨p, hp, hl⟩
      exact ⟨_, List.mem_dedup.2 (List.mem_flatten.2 ⟨p, hp, hl⟩), rfl⟩
  · refine (List.nodup_dedup _).filterMap ?_
    intro x y l hx hy
    cases x <;> cases y <;> simp_all
  · exact List.nodup_dedup _

section
variable {env : Env} {s s1 s' : State} {Δ : ℕ → ℕ → ℚ}

theorem SimResult.delta_mixed (ht : Tidy s) (hn : NamesDistinct s) (hk : s.kind = .flex)
    (h : SimResult env s s1 s' Δ) {d : ℕ} (hd : d ∈ s.dmds) (i : ℕ) :
    Δ d i = shortcutContribution s' d i := by
  unfold shortcutContribution
  rcases h.load d hd with ⟨h0, -, h1⟩ | ⟨paths, ls, det, h1, h2, h3, h4⟩
  · rw [h0, h1]
  · rw [h1, h4]
    simp only []
    rcases h.shortcut_placed ht hn hd h1 with ⟨ls', g1, g2, g3⟩ | ⟨g1, g2⟩
    · have hall : paths.all soleLsp = true := by
        rw [g3, List.all_map]
        simp [soleLsp]
      rw [if_pos hall]
      rw [g3] at h1 ⊢
      rw [(h.lspLoad ht hd g1 g2 h1).2 i, ridden_lsps]
    · have hls := h2.unique g1
      subst hls
      have hroutes : ∀ r ∈ paths, ∃ gs, Sub s' (Usable s' 0)
          (distTo s'.tail s'.head s'.costOf (Usable s' 0) (s.dmdSrc d)) gs (s.dmdSrc d) r
            (s.dmdDst d) := fun r hr =>
        viaShortcuts_sub (fun i hi => (h.sane ht).costs i hi.1) (g2 r hr)
      rcases h3 with ⟨h5, -⟩ | ⟨-, h6, h7⟩
      · exact absurd rfl h5
      have hfa := pathInfos_forall h6
      by_cases hpne : paths = []
      · subst hpne
        rw [h7]
        simp [itemSet, ridden]
      have hsole : paths.all soleLsp = false := by
        by_contra hall
        rw [Bool.not_eq_false, List.all_eq_true] at hall
        obtain ⟨r, hr⟩ := List.exists_mem_of_ne_nil _ hpne
        have h8 := hall r hr
        have : ∃ l, r = [Item.lsp l] := by
          unfold soleLsp at h8
          split at h8
          · exact ⟨_, rfl⟩
          · cases h8
        obtain ⟨l, rfl⟩ := this
        obtain ⟨hl1, hl2⟩ := h.lsp_mem hd h1 hr (List.mem_singleton.2 rfl)
        obtain ⟨gs, hs⟩ := hroutes _ hr
        have hroute := hs.route
        have hends : s'.lspSrc l = s.dmdSrc d ∧ s'.lspDst l = s.dmdDst d := by
          have := (itemRoute_iff s').1 hroute
          obtain ⟨e1, e2⟩ := route_cons_inv this
          rw [encTail_enc] at e1
          rw [encHead_enc] at e2
          have e3 := route_end_unique e2 (.nil _)
          exact ⟨e1.symm, e3.symm⟩
        obtain ⟨ha, hb⟩ := dmd_endNames hd
        have hmem : l ∈ s'.routedGroup (pairKey (s.dmdSrc d) (s.dmdDst d)) :=
          (h.mem_named ht hn (List.mem_append_right _ ha) (List.mem_append_right _ hb)).2
            ⟨⟨h.cfg.lsps ▸ hl1, hends.1, hends.2⟩, (h.isRouted_iff ht hl1).1 hl2⟩
        rw [g1.nil_iff.1 rfl] at hmem
        cases hmem
      rw [hsole]
      simp only [Bool.false_eq_true, if_false]
      have hnod : ∀ x ∈ det, x.items.Nodup := by
        intro x hx
        obtain ⟨r, hr, e⟩ := forall₂_mem_right hfa hx
        obtain ⟨e1, -⟩ := pathInfo_ok e
        obtain ⟨gs, hs⟩ := hroutes r hr
        rw [e1]
        exact hs.nodup
      rw [h7]
      simp only []
      have hterm : ∀ x ∈ itemSet paths, itemLoad s' det x i = match x with
          | .ifc j => if i = j then carried det i else 0
          | .lsp l => if crosses s' l i then pyRound 1 (itemCarried det (.lsp l)) else 0 := by
        intro x hx
        unfold itemLoad
        rw [h.cfg.kind, hk]
        cases x with
        | ifc j =>
          simp only []
          by_cases hij : i = j
          · subst hij; rfl
          · simp [hij]
        | lsp l =>
          simp only []
          unfold itemSet at hx
          rw [List.mem_dedup, List.mem_flatten] at hx
          obtain ⟨p, hp, hx⟩ := hx
          have hnd := h.lspIfs_nodup ht (h.lsp_mem hd h1 hp hx).1
          rw [crosses_eq, itemTraffic_eq hnod]
          by_cases hi : i ∈ s'.lspIfs l
          · rw [List.count_eq_one_of_mem hnd hi]; simp [hi]
          · rw [List.count_eq_zero_of_not_mem hi]; simp [hi]
      rw [List.map_congr_left hterm]
      refine (sum_items (itemSet paths) (List.nodup_dedup _) (carried det)
        (fun l => if crosses s' l i then pyRound 1 (itemCarried det (.lsp l)) else 0) i).trans ?_
      rw [((ridden_perm paths).map _).sum_eq]
      congr 1
      split
      · rfl
      · next hi =>
        symm
        refine carried_zero fun x hx hix => hi ?_
        obtain ⟨r, hr, e⟩ := forall₂_mem_right hfa hx
        obtain ⟨e1, -⟩ := pathInfo_ok e
        rw [e1] at hix
        unfold itemSet
        exact List.mem_dedup.2 (List.mem_flatten.2 ⟨r, hr, hix⟩)

/-- the entries of `path_detail` are the paths -/
theorem SimResult.detail_items (h : SimResult env s s1 s' Δ) {d : ℕ}
    (hd : d ∈ s.dmds) {paths : List (List Item)} (hp : (s'.dmd d).path = some paths)
    (hpl : (∃ ls, ls ≠ [] ∧ RidingOf s' (pairKey (s.dmdSrc d) (s.dmdDst d)) ls ∧
      paths = ls.map fun l => [Item.lsp l]) ∨
      RidingOf s' (pairKey (s.dmdSrc d) (s.dmdDst d)) [])
    {det : List PathInfo} (hdet : (s'.dmd d).detail = some det) :
    det.map PathInfo.items = paths := by
  rcases h.load d hd with ⟨h0, -⟩ | ⟨paths', ls, det', h1, h2, h3, h4⟩
  · rw [hp] at h0; cases h0
  · rw [hp] at h1; cases h1
    rw [hdet] at h4; cases h4
    rcases h3 with ⟨h5, -, rfl, -⟩ | ⟨rfl, h6, -⟩
    · rcases hpl with ⟨ls', g1, g2, rfl⟩ | g
      · cases h2.unique g2
        unfold lspDetail
        rw [List.map_map]
        refine List.map_congr_left fun l _ => ?_
        simp only [Function.comp]
        cases s'.kind <;> rfl
      · exact absurd (h2.unique g) h5
    · have := pathInfos_forall h6
      clear h6 hdet hp hpl
      revert this
      generalize outDeg s'.itemTail paths = o
      intro this
      induction this with
      | nil => rfl
      | cons hx _ ih => rw [List.map_cons, (pathInfo_ok hx).1, ih]

end

/-- exchanging the sums over items and over paths -/
theorem hops_sum (det : List PathInfo) (hn : ∀ e ∈ det, e.items.Nodup) (P : Item → Bool) :
    (((det.flatMap fun e => e.items).dedup.filter P).map (itemCarried det)).sum =
      (det.map fun e => (e.items.countP P : ℚ) * e.traffic).sum := by
  have key : ∀ (I : List Item), I.Nodup → ∀ (D : List PathInfo), (∀ e ∈ D, e.items.Nodup) →
      (∀ e ∈ D, ∀ x ∈ e.items, P x → x ∈ I) → (∀ x ∈ I, P x) →
      (I.map (itemCarried D)).sum = (D.map fun e => (e.items.countP P : ℚ) * e.traffic).sum := by
    intro I hI D
    induction D with
    | nil =>
      intro _ _ _
      have : itemCarried [] = fun _ => (0 : ℚ) := by funext x; simp [itemCarried]
      rw [this]; simp
    | cons e D ih =>
      intro h1 h2 h3
      have : itemCarried (e :: D) =
          fun x => (if x ∈ e.items then e.traffic else 0) + itemCarried D x := by
        funext x; simp [itemCarried]
      rw [this, List.sum_map_add, ih (fun e he => h1 e (by simp [he]))
        (fun e he => h2 e (by simp [he])) h3, List.map_cons, List.sum_cons]
      congr 1
      have hc : ((I.filter fun x => x ∈ e.items).length) = e.items.countP P := by
        rw [List.countP_eq_length_filter]
        refine List.Perm.length_eq ?_
        rw [List.perm_ext_iff_of_nodup (hI.filter _) ((h1 e (by simp)).filter _)]
        intro x
        simp only [List.mem_filter, decide_eq_true_eq]
        exact ⟨fun ⟨a, b⟩ => ⟨b, h3 x a⟩, fun ⟨a, b⟩ => ⟨h2 e (by simp) x a b, a⟩⟩
      rw [← hc]
      clear h1 h2 h3 ih this hc hI
      induction I with
      | nil => simp
      | cons x I ih =>
        rw [List.map_cons, List.sum_cons, ih, List.filter_cons]
        by_cases hx : x ∈ e.items
        · simp [hx]; ring
        · simp [hx]
  refine key _ ((List.nodup_dedup _).filter _) det hn ?_ ?_
  · intro e he x hx hP
    rw [List.mem_filter, List.mem_dedup, List.mem_flatMap]
    exact ⟨⟨e, he, hx⟩, hP⟩
  · intro x hx
    exact (List.mem_filter.1 hx).2

/-- a route enters a node between its ends as often as it leaves it -/
theorem itemRoute_balance {s : State} {a b u : String} {r : List Item} (h : ItemRoute s a r b)
    (ha : u ≠ a) (hb : u ≠ b) :
    r.countP (fun x => decide (s.itemHead x = u)) = r.countP fun x => decide (s.itemTail x = u) := by
  have h1 := route_nodes ((itemRoute_iff s).1 h)
  have h2 := congrArg (List.count u) h1
  rw [List.count_cons, List.count_append, List.map_map, List.map_map] at h2
  have e1 : (encHead s ∘ enc) = s.itemHead := funext fun x => encHead_enc s x
  have e2 : (encTail s ∘ enc) = s.itemTail := funext fun x => encTail_enc s x
  rw [e1, e2] at h2
  have h3 : (a == u) = false := by simpa using fun e => ha e.symm
  rw [h3, List.count_eq_zero_of_not_mem (l := [b]) (by simpa using hb)] at h2
  simp only [Bool.false_eq_true, if_false, Nat.add_zero] at h2
  unfold List.count at h2
  rw [List.countP_map, List.countP_map] at h2
  have k : ∀ f : Item → String, ((fun y => y == u) ∘ f) = fun x => decide (f x = u) := by
    intro f; funext x; simp [Function.comp, beq_eq_decide]
  rw [k, k] at h2
  exact h2

theorem ItemFan.split {s : State} {a b : String} {paths : List (List Item)} {q : ℚ}
    {det : List PathInfo} (h : ItemFan s a b paths)
    (hd : pathInfos id (outDeg s.itemTail paths) s.itemTail q paths = .ok det)
    {u : String} {x : Item} (hx : x ∈ itemHops s det u) :
    itemCarried det x = through s det u / (itemHops s det u).length := by
  have hfa := itemFan_detail hd
  have hitems : det.map PathInfo.items = paths := by
    clear hd hx h
    revert hfa
    generalize encSet paths = S
    intro hfa
    induction hfa with
    | nil => rfl
    | cons hx _ ih => rw [List.map_cons, hx.1, ih]
  have hlen : (itemHops s det u).length = (fanHops (encTail s) (encSet paths) u).card := by
    rw [← outDeg_enc]
    unfold itemHops outDeg itemSet
    rw [← hitems, List.flatMap]
  have hx' : enc x ∈ fanHops (encTail s) (encSet paths) u := by
    unfold itemHops at hx
    rw [List.mem_filter, List.mem_dedup, List.mem_flatMap, decide_eq_true_eq] at hx
    obtain ⟨⟨e, he, hxe⟩, ht⟩ := hx
    refine mem_fanHops.2 ⟨⟨e.items.map enc, map_mem_encSet.2 ?_, List.mem_map.2 ⟨x, hxe, rfl⟩⟩,
      by rw [encTail_enc, ht]⟩
    rw [← hitems]
    exact List.mem_map.2 ⟨e, he, rfl⟩
  have h1 := h.fan.equal_split hx'
  rw [hlen]
  have c1 : itemCarried det x = q * linkShare (encTail s) (encSet paths) (enc x) := by
    unfold itemCarried linkShare
    rw [forall₂_sum (f := fun r => if enc x ∈ r.map enc then
        q * share (encTail s) (encSet paths) (r.map enc) else 0) hfa ?_,
      h.sum fun p => if enc x ∈ p then q * share (encTail s) (encSet paths) p else 0,
      ← Finset.sum_filter, Finset.mul_sum]
    intro r e ⟨e1, e2⟩
    have : enc x ∈ r.map enc ↔ x ∈ r := List.mem_map_of_injective enc_injective
    simp only [this, e1, e2]
  have c2 : through s det u = q * nodeShare (encTail s) (encSet paths) u := by
    unfold through nodeShare
    rw [forall₂_sum (f := fun r => if u ∈ (r.map enc).map (encTail s) then
        q * share (encTail s) (encSet paths) (r.map enc) else 0) hfa ?_,
      h.sum fun p => if u ∈ p.map (encTail s) then q * share (encTail s) (encSet paths) p else 0,
      ← Finset.sum_filter, Finset.mul_sum]
    intro r e ⟨e1, e2⟩
    have : (r.map enc).map (encTail s) = r.map s.itemTail := by
      rw [List.map_map]
      exact List.map_congr_left fun y _ => encTail_enc s y
    simp only [this, e1, e2]
  rw [c1, c2, h1, mul_div_assoc]

end NTM
