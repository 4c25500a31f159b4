import Verif.Proof.ShortcutSim

/-!
# The set of paths obtained when every shortest path is substituted
-/

namespace NTM

open Spec

/-- `r` leads from `x` to `y` along a route on which `ρ` grows by the cost of each interface,
with the stretches of the groups `gs` replaced -/
def Sub (s : State) (ok : ℕ → Prop) (ρ : String → ℕ) (gs : List (List ℕ)) (x : String)
    (r : List Item) (y : String) : Prop :=
  ∃ legs choice rest, legs.map Leg.lsps = gs ∧ (∀ g ∈ legs, g.Fits s) ∧ Choice choice legs ∧
    r = substituted legs choice rest ∧ Route s.tail s.head ok x (wholePath legs rest) y ∧
    ∀ i ∈ wholePath legs rest, ρ (s.tail i) + s.costOf i = ρ (s.head i) ∧ 1 ≤ s.costOf i

section
variable {s : State} {ok : ℕ → Prop} {ρ : String → ℕ}

theorem Sub.nil {x y : String} {p : List ℕ} (hr : Route s.tail s.head ok x p y)
    (ht : ∀ i ∈ p, ρ (s.tail i) + s.costOf i = ρ (s.head i) ∧ 1 ≤ s.costOf i) :
    Sub s ok ρ [] x (p.map Item.ifc) y :=
  ⟨[], [], p, rfl, by simp, .nil, rfl, hr, ht⟩

theorem Sub.nil_iff {x y : String} {r : List Item} : Sub s ok ρ [] x r y ↔
    ∃ p, r = p.map Item.ifc ∧ Route s.tail s.head ok x p y ∧
      ∀ i ∈ p, ρ (s.tail i) + s.costOf i = ρ (s.head i) ∧ 1 ≤ s.costOf i := by
  constructor
  · rintro ⟨legs, choice, rest, h1, -, h3, rfl, h5, h6⟩
    cases legs with
    | nil => cases h3; exact ⟨rest, rfl, h5, h6⟩
    | cons => cases h1
  · rintro ⟨p, rfl, h1, h2⟩; exact .nil h1 h2

/-- a path that takes its first shortcut after the interfaces `keep` -/
theorem Sub.cons {x y : String} {keep stretch : List ℕ} {g : List ℕ} {gs : List (List ℕ)} {l : ℕ}
    {t : List Item} (hf : Leg.Fits s ⟨keep, stretch, g⟩) (hl : l ∈ g)
    (hk : Route s.tail s.head ok x keep (s.lspSrc l))
    (hst : Route s.tail s.head ok (s.lspSrc l) stretch (s.lspDst l))
    (hi : ∀ i ∈ keep ++ stretch, ρ (s.tail i) + s.costOf i = ρ (s.head i) ∧ 1 ≤ s.costOf i)
    (h : Sub s ok ρ gs (s.lspDst l) t y) :
    Sub s ok ρ (g :: gs) x (keep.map Item.ifc ++ Item.lsp l :: t) y := by
  obtain ⟨legs, choice, rest, h1, h2, h3, rfl, h5, h6⟩ := h
  refine ⟨⟨keep, stretch, g⟩ :: legs, l :: choice, rest, by simp [h1], ?_, .cons hl h3, rfl, ?_, ?_⟩
  · intro g' hg'
    rcases List.mem_cons.1 hg' with rfl | hg'
    · exact hf
    · exact h2 g' hg'
  · rw [wholePath]
    exact route_append (route_append hk hst) h5
  · intro i hi'
    rw [wholePath] at hi'
    rcases List.mem_append.1 hi' with hi' | hi'
    · exact hi i hi'
    · exact h6 i hi'

theorem Sub.cons_inv {x y : String} {g : List ℕ} {gs : List (List ℕ)} {r : List Item}
    (h : Sub s ok ρ (g :: gs) x r y) : ∃ keep stretch l t, Leg.Fits s ⟨keep, stretch, g⟩ ∧ l ∈ g ∧
      r = keep.map Item.ifc ++ Item.lsp l :: t ∧ Route s.tail s.head ok x keep (s.lspSrc l) ∧
      Route s.tail s.head ok (s.lspSrc l) stretch (s.lspDst l) ∧
      (∀ i ∈ keep ++ stretch, ρ (s.tail i) + s.costOf i = ρ (s.head i) ∧ 1 ≤ s.costOf i) ∧
      Sub s ok ρ gs (s.lspDst l) t y := by
  obtain ⟨legs, choice, rest, h1, h2, h3, rfl, h5, h6⟩ := h
  cases legs with
  | nil => cases h1
  | cons g' legs =>
    simp only [List.map_cons, List.cons.injEq] at h1
    obtain ⟨rfl, rfl⟩ := h1
    cases h3 with
    | @cons l _ c _ hl hc =>
      rw [wholePath] at h5 h6
      obtain ⟨z, k1, k2⟩ := route_split h5
      obtain ⟨w, k3, k4⟩ := route_split k1
      have hf := h2 g' (by simp)
      obtain ⟨-, i, j, hi, hj, hls⟩ := h2 g' (by simp)
      obtain ⟨rfl, rfl⟩ := route_ends k4 hi hj
      obtain ⟨e1, e2⟩ := hls l hl
      have e1' : s.lspSrc l = s.tail i := e1
      have e2' : s.lspDst l = s.head j := e2
      refine ⟨g'.keep, g'.stretch, l, _, hf, hl, rfl, e1' ▸ k3, e1' ▸ e2' ▸ k4,
        fun i hi => h6 i (List.mem_append_left _ hi), ?_⟩
      exact ⟨legs, c, rest, rfl, fun g hg => h2 g (by simp [hg]), hc, rfl, e2' ▸ k2,
        fun i hi => h6 i (List.mem_append_right _ hi)⟩

theorem Sub.prepend {x w y : String} {gs : List (List ℕ)} {q : List ℕ} {t : List Item}
    (hr : Route s.tail s.head ok x q w)
    (hi : ∀ i ∈ q, ρ (s.tail i) + s.costOf i = ρ (s.head i) ∧ 1 ≤ s.costOf i)
    (h : Sub s ok ρ gs w t y) : Sub s ok ρ gs x (q.map Item.ifc ++ t) y := by
  cases gs with
  | nil =>
    obtain ⟨p, rfl, h1, h2⟩ := Sub.nil_iff.1 h
    rw [← List.map_append]
    refine .nil (route_append hr h1) fun i hi' => ?_
    rcases List.mem_append.1 hi' with hi' | hi'
    · exact hi i hi'
    · exact h2 i hi'
  | cons g gs =>
    obtain ⟨keep, stretch, l, t', hf, hl, rfl, k1, k2, k3, k4⟩ := h.cons_inv
    rw [← List.append_assoc, ← List.map_append]
    refine Sub.cons (stretch := stretch) ⟨hf.1, hf.2⟩ hl (route_append hr k1) k2 ?_ k4
    intro i hi'
    rw [List.append_assoc] at hi'
    rcases List.mem_append.1 hi' with hi' | hi'
    · exact hi i hi'
    · exact k3 i hi'

theorem Sub.join {x w y : String} {gs gs' : List (List ℕ)} {r t : List Item}
    (h : Sub s ok ρ gs x r w) (h' : Sub s ok ρ gs' w t y) :
    Sub s ok ρ (gs ++ gs') x (r ++ t) y := by
  induction gs generalizing x r with
  | nil =>
    obtain ⟨p, rfl, h1, h2⟩ := Sub.nil_iff.1 h
    exact h'.prepend h1 h2
  | cons g gs ih =>
    obtain ⟨keep, stretch, l, t', hf, hl, rfl, k1, k2, k3, k4⟩ := h.cons_inv
    rw [List.cons_append, List.append_assoc, List.cons_append]
    exact Sub.cons hf hl k1 k2 k3 (ih k4)

theorem Sub.split {x y : String} {gs : List (List ℕ)} {r q : List Item}
    (h : Sub s ok ρ gs x (r ++ q) y) : ∃ gs1 gs2 z, gs = gs1 ++ gs2 ∧
      Sub s ok ρ gs1 x r z ∧ Sub s ok ρ gs2 z q y := by
  induction gs generalizing x r with
  | nil =>
    obtain ⟨p, e, h1, h2⟩ := Sub.nil_iff.1 h
    obtain ⟨p1, p2, rfl, rfl, rfl⟩ := List.map_eq_append_iff.1 e.symm
    obtain ⟨z, k1, k2⟩ := route_split h1
    exact ⟨[], [], z, rfl, .nil k1 fun i hi => h2 i (List.mem_append_left _ hi),
      .nil k2 fun i hi => h2 i (List.mem_append_right _ hi)⟩
  | cons g gs ih =>
    obtain ⟨keep, stretch, l, t, hf, hl, e, k1, k2, k3, k4⟩ := h.cons_inv
    rcases List.append_eq_append_iff.1 e with ⟨a, e1, e2⟩ | ⟨a, e1, e2⟩
    · obtain ⟨p1, p2, rfl, rfl, rfl⟩ := List.map_eq_append_iff.1 e1
      obtain ⟨z, m1, m2⟩ := route_split k1
      refine ⟨[], g :: gs, z, rfl, .nil m1 fun i hi => k3 i (by simp [hi]), ?_⟩
      rw [e2]
      exact Sub.cons (keep := p2) (stretch := stretch) ⟨hf.1, hf.2⟩ hl m2 k2
        (fun i hi => k3 i (by rw [List.append_assoc]; exact List.mem_append_right _ hi)) k4
    · cases a with
      | nil =>
        simp only [List.append_nil] at e1
        simp only [List.nil_append] at e2
        refine ⟨[], g :: gs, s.lspSrc l, rfl, ?_, ?_⟩
        · rw [e1]; exact .nil k1 fun i hi => k3 i (by simp [hi])
        · rw [← e2]
          exact Sub.cons (keep := []) (stretch := stretch) ⟨hf.1, hf.2⟩ hl (.nil _) k2
            (fun i hi => k3 i (List.mem_append_right _ hi)) k4
      | cons b a =>
        simp only [List.cons_append, List.cons.injEq] at e2
        obtain ⟨rfl, rfl⟩ := e2
        obtain ⟨gs1, gs2, z, rfl, m1, m2⟩ := ih k4
        refine ⟨g :: gs1, gs2, z, rfl, ?_, m2⟩
        rw [e1]
        exact Sub.cons hf hl k1 k2 k3 m1

theorem Sub.route {x y : String} {gs : List (List ℕ)} {r : List Item}
    (h : Sub s ok ρ gs x r y) : ItemRoute s x r y := by
  obtain ⟨legs, choice, rest, h1, h2, h3, rfl, h5, h6⟩ := h
  exact substituted_route legs h2 choice h3 h5

/-- ranks grow along the way -/
theorem Sub.bounds {x y : String} {gs : List (List ℕ)} {r : List Item}
    (h : Sub s ok ρ gs x r y) : ρ x ≤ ρ y ∧ ∀ g ∈ gs, ∃ l ∈ g, ρ x ≤ ρ (s.lspSrc l) ∧
      ρ (s.lspSrc l) < ρ (s.lspDst l) ∧ ρ (s.lspDst l) ≤ ρ y := by
  induction gs generalizing x r with
  | nil =>
    obtain ⟨p, rfl, h1, h2⟩ := Sub.nil_iff.1 h
    exact ⟨(route_bounds h1 fun i hi => by have := h2 i hi; omega).1, by simp⟩
  | cons g gs ih =>
    obtain ⟨keep, stretch, l, t, hf, hl, rfl, k1, k2, k3, k4⟩ := h.cons_inv
    obtain ⟨m1, m2⟩ := ih k4
    have b1 := (route_bounds (ρ := ρ) k1 fun i hi => by
      have := k3 i (List.mem_append_left _ hi); omega).1
    have b2 : ρ (s.lspSrc l) < ρ (s.lspDst l) := by
      obtain ⟨-, i, j, hi, hj, -⟩ := hf
      have := route_bounds (ρ := ρ) k2 fun i hi => by
        have := k3 i (List.mem_append_right _ hi); omega
      have h3 := this.2 i (List.mem_of_head? hi)
      have h4 := k3 i (List.mem_append_right _ (List.mem_of_head? hi))
      omega
    refine ⟨by omega, fun g' hg' => ?_⟩
    rcases List.mem_cons.1 hg' with rfl | hg'
    · exact ⟨l, hl, b1, b2, m1⟩
    · obtain ⟨l', h1, h2, h3, h4⟩ := m2 g' hg'
      exact ⟨l', h1, by omega, h3, h4⟩

theorem itemRoute_unique {u v w : String} {r : List Item} (h : ItemRoute s u r v)
    (h' : ItemRoute s u r w) : v = w := by
  induction h with
  | nil u =>
    cases h'
    rfl
  | @ifc i r v _ ih =>
    generalize hu : (s.node (s.ifc i).node).name = u at h'
    cases h' with
    | ifc h => exact ih h
  | @lsp l r v _ ih =>
    generalize hu : (s.node (s.lsp l).src).name = u at h'
    cases h' with
    | lsp h => exact ih h

/-- paths that meet may be combined -/
theorem Sub.exchange {x y u : String} {gs : List (List ℕ)} {r q r' q' : List Item}
    (hends : ∀ g ∈ gs, ∀ l ∈ g, ∀ l' ∈ g, s.lspSrc l = s.lspSrc l' ∧ s.lspDst l = s.lspDst l')
    (h : Sub s ok ρ gs x (r ++ q) y) (h' : Sub s ok ρ gs x (r' ++ q') y)
    (hr : ItemRoute s x r u) (hr' : ItemRoute s x r' u) : Sub s ok ρ gs x (r ++ q') y := by
  obtain ⟨gs1, gs2, z, e, m1, m2⟩ := h.split
  obtain ⟨gs1', gs2', z', e', m1', m2'⟩ := h'.split
  obtain rfl := itemRoute_unique m1.route hr
  obtain rfl := itemRoute_unique m1'.route hr'
  have hlen : gs1 = gs1' := by
    have hb1 := m1.bounds.2
    have hb2 := m2.bounds.2
    have hb1' := m1'.bounds.2
    have hb2' := m2'.bounds.2
    rw [e] at e'
    have clash : ∀ g ∈ gs, (∃ l ∈ g, ρ (s.lspSrc l) < ρ (s.lspDst l) ∧ ρ (s.lspDst l) ≤ ρ z') →
        (∃ l ∈ g, ρ z' ≤ ρ (s.lspSrc l)) → False := by
      rintro g hg ⟨l, hl, h1, h2⟩ ⟨l', hl', h3⟩
      obtain ⟨e1, e2⟩ := hends g hg l hl l' hl'
      rw [e1] at h1
      omega
    rcases List.append_eq_append_iff.1 e' with ⟨a, e1, e2⟩ | ⟨a, e1, e2⟩
    · cases a with
      | nil => simpa using e1.symm
      | cons g a =>
        exfalso
        obtain ⟨l, hl, -, h1, h2⟩ := hb1' g (by rw [e1]; simp)
        obtain ⟨l', hl', h3, -⟩ := hb2 g (by rw [e2]; simp)
        exact clash g (by rw [e, e2]; simp) ⟨l, hl, h1, h2⟩ ⟨l', hl', h3⟩
    · cases a with
      | nil => simpa using e1
      | cons g a =>
        exfalso
        obtain ⟨l, hl, -, h1, h2⟩ := hb1 g (by rw [e1]; simp)
        obtain ⟨l', hl', h3, -⟩ := hb2' g (by rw [e2]; simp)
        exact clash g (by rw [e, e1]; simp) ⟨l, hl, h1, h2⟩ ⟨l', hl', h3⟩
  subst hlen
  have : gs2 = gs2' := by rw [e] at e'; exact List.append_cancel_left e'
  subst this
  rw [e]
  exact m1.join m2'

theorem tight_cost {x y : String} {p : List ℕ} (hr : Route s.tail s.head ok x p y)
    (ht : ∀ i ∈ p, ρ (s.tail i) + s.costOf i = ρ (s.head i)) :
    ρ x + totalCost s.costOf p = ρ y := by
  induction hr with
  | nil => simp [totalCost]
  | @cons i p v hi hr ih =>
    have h1 := ih fun j hj => ht j (by simp [hj])
    have h2 := ht i (by simp)
    simp only [totalCost, List.map_cons, List.sum_cons] at h1 ⊢
    omega

theorem mixedMetric_ifcs (p : List ℕ) (t : List Item) :
    s.mixedMetric (p.map Item.ifc ++ t) =
      (s.mixedMetric t).map fun n => totalCost s.costOf p + n := by
  induction p with
  | nil => cases h : s.mixedMetric t <;> simp [totalCost, h, Except.map]
  | cons i p ih =>
    simp only [List.map_cons, List.cons_append, State.mixedMetric, ih]
    cases s.mixedMetric t <;> simp [totalCost, Except.map, Nat.add_assoc]

/-- all these paths have the same metric -/
theorem Sub.metric {x y : String} {gs : List (List ℕ)} {r r' : List Item}
    (hm : ∀ g ∈ gs, ∀ l ∈ g, ∀ l' ∈ g, s.effMetric l = s.effMetric l' ∧
      s.lspSrc l = s.lspSrc l' ∧ s.lspDst l = s.lspDst l')
    (h : Sub s ok ρ gs x r y) (h' : Sub s ok ρ gs x r' y) : s.mixedMetric r = s.mixedMetric r' := by
  induction gs generalizing x r r' with
  | nil =>
    obtain ⟨p, rfl, h1, h2⟩ := Sub.nil_iff.1 h
    obtain ⟨p', rfl, h1', h2'⟩ := Sub.nil_iff.1 h'
    have e1 := tight_cost (ρ := ρ) h1 fun i hi => (h2 i hi).1
    have e2 := tight_cost (ρ := ρ) h1' fun i hi => (h2' i hi).1
    have := mixedMetric_ifcs (s := s) p []
    have h3 := mixedMetric_ifcs (s := s) p' []
    rw [List.append_nil] at this h3
    rw [this, h3]
    have : totalCost s.costOf p = totalCost s.costOf p' := by omega
    rw [this]
  | cons g gs ih =>
    obtain ⟨keep, stretch, l, t, hf, hl, rfl, k1, k2, k3, k4⟩ := h.cons_inv
    obtain ⟨keep', stretch', l', t', hf', hl', rfl, k1', k2', k3', k4'⟩ := h'.cons_inv
    obtain ⟨e0, ea, eb⟩ := hm g (by simp) l hl l' hl'
    have e1 := tight_cost (ρ := ρ) k1 fun i hi => (k3 i (List.mem_append_left _ hi)).1
    have e2 := tight_cost (ρ := ρ) k1' fun i hi => (k3' i (List.mem_append_left _ hi)).1
    rw [ea] at e1
    rw [eb] at k4
    have := ih (fun g hg => hm g (by simp [hg])) k4 k4'
    rw [mixedMetric_ifcs, mixedMetric_ifcs]
    have hc : totalCost s.costOf keep = totalCost s.costOf keep' := by omega
    rw [hc]
    simp only [State.mixedMetric, e0, this]

end

end NTM
