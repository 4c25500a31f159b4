import Verif.Spec.Shortcut
import Verif.Spec.Routes
import Verif.Proof.ShortcutLsps
import Verif.Proof.Failure
import Verif.Proof.Ecmp

/-!
# Substituting LSPs into an interface path
-/

namespace NTM

open Spec

theorem findIdx?_unique {p X Y : List ℕ} {i : ℕ} {f : ℕ → Bool} {g : ℕ → String}
    (hp : p = X ++ i :: Y) (hnd : (p.map g).Nodup) (hf : ∀ x ∈ p, f x = true → g x = g i) :
    p.findIdx? f = if f i = true then some X.length else none := by
  subst hp
  rw [List.map_append, List.map_cons, List.nodup_append] at hnd
  obtain ⟨-, h2, h3⟩ := hnd
  have hX : ∀ x ∈ X, f x = false := by
    intro x hx
    by_contra hc
    have hc' : f x = true := by simpa using hc
    exact h3 (g x) (List.mem_map.2 ⟨x, hx, rfl⟩) (g i) (by simp) (hf x (by simp [hx]) hc')
  have hY : ∀ x ∈ Y, f x = false := by
    intro x hx
    by_contra hc
    have hc' : f x = true := by simpa using hc
    have := hf x (by simp [hx]) hc'
    rw [List.nodup_cons] at h2
    exact h2.1 (this ▸ List.mem_map.2 ⟨x, hx, rfl⟩)
  rw [List.findIdx?_append, List.findIdx?_eq_none_iff.2 (by simpa using hX), List.findIdx?_cons]
  by_cases h : f i = true
  · simp [h]
  · have : f i = false := by simpa using h
    rw [List.findIdx?_eq_none_iff.2 (by simpa using hY)]
    simp [this]

/-- the slices of the legs when `n` interfaces precede them -/
def slicesFrom : ℕ → List Leg → List (List (ℕ × ℕ × ℕ))
  | _, [] => []
  | n, g :: gs => g.lsps.map (fun l => (n + g.keep.length,
      n + g.keep.length + g.stretch.length, l)) ::
        slicesFrom (n + g.keep.length + g.stretch.length) gs

theorem lspSlice_leg {s : State} {p A B : List ℕ} {g : Leg} (hg : g.Fits s)
    (hp : p = A ++ (g.keep ++ g.stretch ++ B))
    (ht : (p.map s.tail).Nodup) (hh : (p.map s.head).Nodup) :
    s.lspSlice p g.lsps = none ∨ s.lspSlice p g.lsps =
      some (A.length + g.keep.length, A.length + g.keep.length + g.stretch.length) := by
  obtain ⟨hne, i, j, hi, hj, hl⟩ := hg
  obtain ⟨l, ls, e⟩ := List.exists_cons_of_ne_nil hne
  obtain ⟨h1, h2⟩ := hl l (by simp [e])
  obtain ⟨Y, hY⟩ : ∃ Y, g.stretch = i :: Y := List.head?_eq_some_iff.1 hi
  obtain ⟨X, hX⟩ : ∃ X, g.stretch = X ++ [j] := List.getLast?_eq_some_iff.1 hj
  have e1 : p = (A ++ g.keep) ++ i :: (Y ++ B) := by rw [hp, hY]; simp
  have e2 : p = (A ++ g.keep ++ X) ++ j :: B := by rw [hp, hX]; simp
  have hlen : g.stretch.length = X.length + 1 := by rw [hX]; simp
  unfold State.lspSlice
  rw [e]
  simp only []
  rw [findIdx?_unique (g := s.tail) e1 ht
      (f := fun i => s.nodeEq (s.ifc i).node (s.lsp l).src)
      (fun x _ hx => (nodeEq_name hx).trans h1),
    findIdx?_unique (g := s.head) e2 hh
      (f := fun i => s.nodeEq (s.ifc i).remote (s.lsp l).dst)
      (fun x _ hx => (nodeEq_name hx).trans h2)]
  split_ifs
  · right
    simp [hlen]
    omega
  · left; rfl
  · left; rfl
  · left; rfl

theorem lspSlice_same {s : State} {p A B : List ℕ} {g : Leg} (hg : g.Fits s) (hs : g.SameNodes s)
    (hp : p = A ++ (g.keep ++ g.stretch ++ B)) : s.lspSlice p g.lsps ≠ none := by
  obtain ⟨hne, i, j, hi, hj, hl⟩ := hg
  obtain ⟨l, ls, e⟩ := List.exists_cons_of_ne_nil hne
  obtain ⟨h1, h2⟩ := hs l (by simp [e]) i (by simp [hi]) j (by simp [hj])
  have mi : i ∈ p := by rw [hp]; simp [List.mem_of_head? hi]
  have mj : j ∈ p := by rw [hp]; simp [List.mem_of_getLast? hj]
  unfold State.lspSlice
  rw [e]
  simp only []
  cases ha : p.findIdx? fun i => s.nodeEq (s.ifc i).node (s.lsp l).src with
  | none => rw [List.findIdx?_eq_none_iff] at ha; have := ha i mi; rw [h1] at this; cases this
  | some a =>
    cases hb : p.findIdx? fun i => s.nodeEq (s.ifc i).remote (s.lsp l).dst with
    | none => rw [List.findIdx?_eq_none_iff] at hb; have := hb j mj; rw [h2] at this; cases this
    | some b => simp

theorem slices_legs {s : State} {p rest : List ℕ} (ht : (p.map s.tail).Nodup)
    (hh : (p.map s.head).Nodup) (gs : List Leg) (hg : ∀ g ∈ gs, g.Fits s) (A : List ℕ)
    (hp : p = A ++ wholePath gs rest) {slices : List (List (ℕ × ℕ × ℕ))}
    (h : allSome ((gs.map Leg.lsps).map fun g => (s.lspSlice p g).map fun ab =>
      g.map fun l => (ab.1, ab.2, l)) = some slices) : slices = slicesFrom A.length gs := by
  rw [allSome_eq_some] at h
  induction gs generalizing A slices with
  | nil => cases slices with
    | nil => rfl
    | cons => cases h
  | cons g gs ih =>
    cases slices with
    | nil => cases h
    | cons sl slices =>
      simp only [List.map_cons, List.cons.injEq] at h
      obtain ⟨h1, h2⟩ := h
      have := ih (fun g' h' => hg g' (by simp [h'])) (A ++ g.keep ++ g.stretch)
        (by rw [hp]; simp [wholePath]) h2
      rw [this]
      rcases lspSlice_leg (hg g (by simp)) (B := wholePath gs rest) hp ht hh with e | e
      · rw [e] at h1; cases h1
      · rw [e] at h1
        simp only [Option.map_some, Option.some.injEq] at h1
        rw [slicesFrom, ← h1]
        congr 2
        simp [Nat.add_assoc]

theorem sliceSet_mid {α : Type} (A B C : List α) (x : α) :
    sliceSet (A ++ B ++ C) A.length (A.length + B.length) x = A ++ x :: C := by
  unfold sliceSet
  rw [Nat.max_eq_right (by omega), List.append_assoc A B C, List.take_left,
    ← List.append_assoc, ← List.length_append, List.drop_left]
  simp

/-- substituting from the right -/
theorem foldr_substituted (rest : List ℕ) (gs : List Leg) (A : List ℕ)
    (combo : List (ℕ × ℕ × ℕ))
    (hc : List.Forall₂ (fun x l => x ∈ l) combo (slicesFrom A.length gs)) :
    Choice (combo.map fun x => x.2.2) gs ∧
    combo.foldr (fun (x : ℕ × ℕ × ℕ) q => sliceSet q x.1 x.2.1 (Item.lsp x.2.2))
        ((A ++ wholePath gs rest).map Item.ifc) =
      A.map Item.ifc ++ substituted gs (combo.map fun x => x.2.2) rest := by
  induction gs generalizing A combo with
  | nil =>
    cases hc
    exact ⟨.nil, by simp [wholePath, substituted]⟩
  | cons g gs ih =>
    rw [slicesFrom] at hc
    cases hc with
    | @cons x _ c _ hx hc =>
      obtain ⟨l, hl, rfl⟩ := List.mem_map.1 hx
      have := ih (A ++ g.keep ++ g.stretch) c (by
        rw [List.length_append, List.length_append]; exact hc)
      refine ⟨.cons hl this.1, ?_⟩
      rw [List.foldr_cons]
      have e : A ++ wholePath (g :: gs) rest =
        A ++ g.keep ++ g.stretch ++ wholePath gs rest := by simp [wholePath]
      rw [e, this.2]
      simp only [List.map_append, List.map_cons, substituted]
      have := sliceSet_mid (A.map Item.ifc ++ g.keep.map Item.ifc) (g.stretch.map Item.ifc)
        (substituted gs (c.map fun x => x.2.2) rest) (Item.lsp l)
      simp only [List.length_append, List.length_map] at this
      rw [this]
      simp

theorem choice_combo (gs : List Leg) (n : ℕ) (choice : List ℕ) (h : Choice choice gs) :
    ∃ combo : List (ℕ × ℕ × ℕ), List.Forall₂ (fun x l => x ∈ l) combo (slicesFrom n gs) ∧
      combo.map (fun x => x.2.2) = choice := by
  induction gs generalizing n choice with
  | nil => cases h; exact ⟨[], .nil, rfl⟩
  | cons g gs ih =>
    cases h with
    | @cons l _ c _ hl hc =>
      obtain ⟨combo, h1, h2⟩ := ih (n + g.keep.length + g.stretch.length) c hc
      exact ⟨(_, _, l) :: combo, .cons (List.mem_map.2 ⟨l, hl, rfl⟩) h1, by simp [h2]⟩

theorem length_pyProduct {α : Type} (L : List (List α)) :
    (pyProduct L).length = (L.map List.length).prod := by
  induction L with
  | nil => rfl
  | cons l L ih =>
    simp only [pyProduct, List.length_flatMap, List.length_map, ih, List.map_const',
      List.sum_replicate, List.map_cons, List.prod_cons]
    simp

theorem forall₂_reverse' {α β : Type} {R : α → β → Prop} {l : List α} {m : List β}
    (h : List.Forall₂ R l m) : List.Forall₂ R l.reverse m.reverse :=
  List.forall₂_reverse_iff.2 h

theorem slicesFrom_lengths (n : ℕ) (gs : List Leg) :
    (slicesFrom n gs).map List.length = gs.map fun g => g.lsps.length := by
  induction gs generalizing n with
  | nil => rfl
  | cons g gs ih => simp [slicesFrom, ih]

theorem insertLsps_legs {s : State} {p rest : List ℕ} {gs : List Leg} (hp : p = wholePath gs rest)
    (ht : (p.map s.tail).Nodup) (hh : (p.map s.head).Nodup) (hg : ∀ g ∈ gs, g.Fits s)
    {rs : List (List Item)} (h : s.insertLsps (gs.map Leg.lsps) p = some rs) :
    rs.length = (gs.map fun g => g.lsps.length).prod ∧
      ∀ r, r ∈ rs ↔ ∃ choice, Choice choice gs ∧ r = substituted gs choice rest := by
  unfold State.insertLsps at h
  split at h
  · cases h
  · next slices hs =>
    cases h
    obtain rfl := slices_legs (rest := rest) ht hh gs hg [] (by simpa using hp) hs
    refine ⟨?_, fun r => ?_⟩
    · rw [List.length_map, length_pyProduct, List.map_reverse, List.prod_reverse]
      simp [slicesFrom_lengths]
    · rw [List.mem_map]
      constructor
      · rintro ⟨combo, hc, rfl⟩
        rw [mem_pyProduct] at hc
        have hc' := forall₂_reverse' hc
        rw [List.reverse_reverse] at hc'
        have := foldr_substituted rest gs [] _ hc'
        refine ⟨_, this.1, ?_⟩
        rw [← List.foldr_reverse, hp]
        simpa using this.2
      · rintro ⟨choice, hc, rfl⟩
        obtain ⟨combo, h1, h2⟩ := choice_combo gs 0 choice hc
        refine ⟨combo.reverse, ?_, ?_⟩
        · rw [mem_pyProduct]; exact forall₂_reverse' h1
        · have := foldr_substituted rest gs [] combo h1
          rw [List.foldl_reverse, hp, ← h2]
          simpa using this.2

/-- different choices give different paths -/
theorem substituted_inj {rest : List ℕ} (gs : List Leg) {c c' : List ℕ} (hc : Choice c gs)
    (hc' : Choice c' gs) (e : substituted gs c rest = substituted gs c' rest) : c = c' := by
  induction gs generalizing c c' with
  | nil => cases hc; cases hc'; rfl
  | cons g gs ih =>
    cases hc with
    | cons _ hc =>
      cases hc' with
      | cons _ hc' =>
        simp only [substituted] at e
        have := List.append_cancel_left e
        simp only [List.cons.injEq, Item.lsp.injEq] at this
        rw [this.1, ih hc hc' this.2]

theorem slicesFrom_inj (gs : List Leg) (n : ℕ) {c c' : List (ℕ × ℕ × ℕ)}
    (hc : List.Forall₂ (fun x l => x ∈ l) c (slicesFrom n gs))
    (hc' : List.Forall₂ (fun x l => x ∈ l) c' (slicesFrom n gs))
    (e : (c.map fun x => x.2.2) = c'.map fun x => x.2.2) : c = c' := by
  induction gs generalizing n c c' with
  | nil => cases hc; cases hc'; rfl
  | cons g gs ih =>
    rw [slicesFrom] at hc hc'
    cases hc with
    | cons hx hc =>
      cases hc' with
      | cons hy hc' =>
        obtain ⟨l, hl, rfl⟩ := List.mem_map.1 hx
        obtain ⟨l', hl', rfl⟩ := List.mem_map.1 hy
        simp only [List.map_cons, List.cons.injEq] at e
        rw [ih _ hc hc' e.2, e.1]

theorem insertLsps_nodup {s : State} {p rest : List ℕ} {gs : List Leg} (hp : p = wholePath gs rest)
    (ht : (p.map s.tail).Nodup) (hh : (p.map s.head).Nodup) (hg : ∀ g ∈ gs, g.Fits s)
    (hn : ∀ g ∈ gs, g.lsps.Nodup)
    {rs : List (List Item)} (h : s.insertLsps (gs.map Leg.lsps) p = some rs) : rs.Nodup := by
  unfold State.insertLsps at h
  split at h
  · cases h
  · next slices hs =>
    cases h
    obtain rfl := slices_legs (rest := rest) ht hh gs hg [] (by simpa using hp) hs
    refine List.Nodup.map_on ?_ (nodup_pyProduct ?_)
    · intro c hc c' hc' e
      rw [mem_pyProduct] at hc hc'
      have h1 := forall₂_reverse' hc
      have h2 := forall₂_reverse' hc'
      rw [List.reverse_reverse] at h1 h2
      have g1 := foldr_substituted rest gs [] _ h1
      have g2 := foldr_substituted rest gs [] _ h2
      rw [← List.foldr_reverse, ← List.foldr_reverse, hp] at e
      simp only [List.nil_append, List.map_nil] at g1 g2
      rw [g1.2, g2.2] at e
      have := slicesFrom_inj gs _ h1 h2 (substituted_inj gs g1.1 g2.1 e)
      exact List.reverse_injective this
    · intro l hl
      rw [List.mem_reverse] at hl
      have : ∀ (gs : List Leg) (n : ℕ), (∀ g ∈ gs, g.lsps.Nodup) → ∀ l ∈ slicesFrom n gs,
          l.Nodup := by
        intro gs
        induction gs with
        | nil => intro n _ l hl; simp [slicesFrom] at hl
        | cons g gs ih =>
          intro n hn l hl
          rw [slicesFrom] at hl
          rcases List.mem_cons.1 hl with rfl | hl
          · exact (hn g (by simp)).map fun a b e => by simpa using e
          · exact ih _ (fun g hg => hn g (by simp [hg])) l hl
      exact this gs _ hn l hl

theorem insertLsps_some {s : State} {p rest : List ℕ} {gs : List Leg} (hp : p = wholePath gs rest)
    (hg : ∀ g ∈ gs, g.Fits s) (hs : ∀ g ∈ gs, g.SameNodes s) :
    ∃ rs, s.insertLsps (gs.map Leg.lsps) p = some rs := by
  unfold State.insertLsps
  have : ∀ (gs : List Leg) (A : List ℕ), p = A ++ wholePath gs rest → (∀ g ∈ gs, g.Fits s) →
      (∀ g ∈ gs, g.SameNodes s) → ∃ sl, allSome ((gs.map Leg.lsps).map fun g =>
        (s.lspSlice p g).map fun ab => g.map fun l => (ab.1, ab.2, l)) = some sl := by
    intro gs
    induction gs with
    | nil => intro _ _ _ _; exact ⟨[], rfl⟩
    | cons g gs ih =>
      intro A hp hg hs
      obtain ⟨sl, hsl⟩ := ih (A ++ g.keep ++ g.stretch) (by rw [hp]; simp [wholePath])
        (fun g' h' => hg g' (by simp [h'])) (fun g' h' => hs g' (by simp [h']))
      have := lspSlice_same (B := wholePath gs rest) (hg g (by simp)) (hs g (by simp)) hp
      obtain ⟨ab, hab⟩ := Option.ne_none_iff_exists'.1 this
      rw [allSome_eq_some] at hsl
      refine ⟨(g.lsps.map fun l => (ab.1, ab.2, l)) :: sl, ?_⟩
      rw [allSome_eq_some, List.map_cons, List.map_cons, hsl, hab]
      rfl
  obtain ⟨sl, hsl⟩ := this gs [] (by simpa using hp) hg hs
  rw [hsl]
  exact ⟨_, rfl⟩

/-! ### connectivity -/

theorem itemRoute_of_route {s : State} {ok : ℕ → Prop} {u v : String} {p : List ℕ}
    (h : Route s.tail s.head ok u p v) {r : List Item} {w : String} (hr : ItemRoute s v r w) :
    ItemRoute s u (p.map Item.ifc ++ r) w := by
  induction h with
  | nil => simpa using hr
  | cons _ _ ih => exact .ifc (ih hr)

theorem route_ends {tail head : ℕ → String} {ok : ℕ → Prop} {u v : String} {p : List ℕ}
    (h : Route tail head ok u p v) {i j : ℕ} (hi : p.head? = some i) (hj : p.getLast? = some j) :
    u = tail i ∧ v = head j := by
  induction h generalizing i with
  | nil => cases hi
  | @cons k p v hk hr ih =>
    cases hi
    refine ⟨rfl, ?_⟩
    cases p with
    | nil =>
      cases hj
      generalize hw : head k = w at hr
      cases hr
      exact hw.symm
    | cons k' p =>
      rw [List.getLast?_cons_cons] at hj
      exact (ih rfl hj).2

theorem substituted_route {s : State} {ok : ℕ → Prop} {rest : List ℕ} {v : String}
    (gs : List Leg) (hg : ∀ g ∈ gs, g.Fits s) (choice : List ℕ) (hc : Choice choice gs)
    {u : String} (h : Route s.tail s.head ok u (wholePath gs rest) v) :
    ItemRoute s u (substituted gs choice rest) v := by
  induction gs generalizing u choice with
  | nil =>
    cases hc
    simpa [substituted, wholePath] using itemRoute_of_route h (.nil v)
  | cons g gs ih =>
    cases hc with
    | @cons l _ c _ hl hc =>
      rw [wholePath] at h
      obtain ⟨x, h1, h2⟩ := route_split h
      obtain ⟨y, h3, h4⟩ := route_split h1
      obtain ⟨-, i, j, hi, hj, hls⟩ := hg g (by simp)
      obtain ⟨rfl, rfl⟩ := route_ends h4 hi hj
      obtain ⟨e1, e2⟩ := hls l hl
      refine itemRoute_of_route h3 ?_
      have := ih (fun g' h' => hg g' (by simp [h'])) c hc h2
      have e1' : s.tail i = (s.node (s.lsp l).src).name := e1.symm
      have e2' : s.head j = (s.node (s.lsp l).dst).name := e2.symm
      rw [e1']
      exact .lsp (e2' ▸ this)

end NTM
