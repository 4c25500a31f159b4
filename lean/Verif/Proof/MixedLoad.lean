import Verif.Proof.MixedSim
import Verif.Proof.EcmpLoad

/-!
# The traffic of a demand on paths with shortcuts
-/

namespace NTM

open Spec

/-- items as numbers -/
def enc : Item → ℕ
  | .ifc i => 2 * i
  | .lsp l => 2 * l + 1

def dec (n : ℕ) : Item := if n % 2 = 0 then .ifc (n / 2) else .lsp (n / 2)

theorem dec_enc (x : Item) : dec (enc x) = x := by
  cases x with
  | ifc i => simp [enc, dec]
  | lsp l =>
    unfold dec
    have h1 : enc (.lsp l) = 2 * l + 1 := rfl
    rw [h1, if_neg (by omega)]
    congr 1
    omega

theorem enc_injective : Function.Injective enc := fun x y e => by
  rw [← dec_enc x, e, dec_enc]

theorem encs_injective : Function.Injective (List.map enc) := List.map_injective_iff.2 enc_injective

section
variable (s : State)

/-- tail and head of encoded items -/
def encTail (n : ℕ) : String := s.itemTail (dec n)

def encHead (n : ℕ) : String := s.itemHead (dec n)

theorem encTail_enc (x : Item) : encTail s (enc x) = s.itemTail x := by rw [encTail, dec_enc]

theorem encHead_enc (x : Item) : encHead s (enc x) = s.itemHead x := by rw [encHead, dec_enc]

theorem itemRoute_iff {u v : String} {r : List Item} : ItemRoute s u r v ↔
    Route (encTail s) (encHead s) (fun _ => True) u (r.map enc) v := by
  constructor
  · intro h
    induction h with
    | nil u => exact .nil u
    | @ifc i r v _ ih =>
      have := Route.cons (tail := encTail s) (head := encHead s) (ok := fun _ => True)
        (i := enc (.ifc i)) (p := r.map enc) (v := v) trivial (by rw [encHead_enc]; exact ih)
      rw [encTail_enc] at this
      exact this
    | @lsp l r v _ ih =>
      have := Route.cons (tail := encTail s) (head := encHead s) (ok := fun _ => True)
        (i := enc (.lsp l)) (p := r.map enc) (v := v) trivial (by rw [encHead_enc]; exact ih)
      rw [encTail_enc] at this
      exact this
  · intro h
    induction r generalizing u with
    | nil =>
      generalize hl : List.map enc [] = l at h
      cases h with
      | nil => exact .nil _
      | cons => cases hl
    | cons x r ih =>
      obtain ⟨e, h'⟩ := route_cons_inv h
      rw [encTail_enc] at e
      rw [encHead_enc] at h'
      subst e
      have := ih h'
      cases x with
      | ifc i => exact .ifc this
      | lsp l => exact .lsp this

/-- the encoded set of paths -/
def encSet (paths : List (List Item)) : Finset (List ℕ) := (paths.map (List.map enc)).toFinset

theorem mem_encSet {paths : List (List Item)} {q : List ℕ} :
    q ∈ encSet paths ↔ ∃ r ∈ paths, r.map enc = q := by
  unfold encSet; simp

theorem map_mem_encSet {paths : List (List Item)} {r : List Item} :
    r.map enc ∈ encSet paths ↔ r ∈ paths := by
  rw [mem_encSet]
  constructor
  · rintro ⟨r', h, e⟩; exact encs_injective e ▸ h
  · intro h; exact ⟨r, h, rfl⟩

theorem outDeg_enc (paths : List (List Item)) (u : String) :
    outDeg s.itemTail paths u = (fanHops (encTail s) (encSet paths) u).card := by
  have h : fanHops (encTail s) (encSet paths) u =
      (((itemSet paths).filter fun x => s.itemTail x = u).map enc).toFinset := by
    ext n
    rw [mem_fanHops]
    simp only [List.mem_toFinset, List.mem_map, List.mem_filter, itemSet, List.mem_dedup,
      List.mem_flatten, decide_eq_true_eq]
    constructor
    · rintro ⟨⟨q, hq, hn⟩, e⟩
      obtain ⟨r, hr, rfl⟩ := mem_encSet.1 hq
      obtain ⟨x, hx, rfl⟩ := List.mem_map.1 hn
      rw [encTail_enc] at e
      exact ⟨x, ⟨⟨r, hr, hx⟩, e⟩, rfl⟩
    · rintro ⟨x, ⟨⟨r, hr, hx⟩, e⟩, rfl⟩
      exact ⟨⟨r.map enc, map_mem_encSet.2 hr, List.mem_map.2 ⟨x, hx, rfl⟩⟩, by rw [encTail_enc, e]⟩
  rw [h, List.toFinset_card_of_nodup, List.length_map]
  · rfl
  · exact (((List.nodup_dedup _).filter _).map enc_injective)

end

/-- a set of paths with shortcuts over which the traffic splits evenly -/
structure ItemFan (s : State) (a b : String) (paths : List (List Item)) : Prop where
  ne : paths ≠ []
  nodup : paths.Nodup
  fan : Fan (encTail s) (encHead s) a b (encSet paths)

section
variable {s : State} {ok : ℕ → Prop} {ρ : String → ℕ}

theorem Sub.increasing {x y : String} {gs : List (List ℕ)} {r : List Item}
    (h : Sub s ok ρ gs x r y) : ∀ z ∈ r, ρ (s.itemTail z) < ρ (s.itemHead z) := by
  induction gs generalizing x r with
  | nil =>
    obtain ⟨p, rfl, h1, h2⟩ := Sub.nil_iff.1 h
    intro z hz
    obtain ⟨i, hi, rfl⟩ := List.mem_map.1 hz
    have := h2 i hi
    show ρ (s.tail i) < ρ (s.head i)
    omega
  | cons g gs ih =>
    have hb := h.bounds.2 g (by simp)
    obtain ⟨keep, stretch, l, t, hf, hl, rfl, k1, k2, k3, k4⟩ := h.cons_inv
    have b2 : ρ (s.lspSrc l) < ρ (s.lspDst l) := by
      obtain ⟨-, i, j, hi, hj, -⟩ := hf
      have := route_bounds (ρ := ρ) k2 fun i hi => by
        have := k3 i (List.mem_append_right _ hi); omega
      have h3 := this.2 i (List.mem_of_head? hi)
      have h4 := k3 i (List.mem_append_right _ (List.mem_of_head? hi))
      omega
    intro z hz
    rcases List.mem_append.1 hz with hz | hz
    · obtain ⟨i, hi, rfl⟩ := List.mem_map.1 hz
      have := k3 i (List.mem_append_left _ hi)
      show ρ (s.tail i) < ρ (s.head i)
      omega
    · rcases List.mem_cons.1 hz with rfl | hz
      · exact b2
      · exact ih k4 z hz

theorem itemFan_of_sub {a b : String} {gs : List (List ℕ)} {paths : List (List Item)}
    (hu : Uniform s gs) (hne : paths ≠ []) (hnd : paths.Nodup)
    (h : ∀ r, r ∈ paths ↔ Sub s ok ρ gs a r b) : ItemFan s a b paths where
  ne := hne
  nodup := hnd
  fan := {
    route := by
      intro q hq
      obtain ⟨r, hr, rfl⟩ := mem_encSet.1 hq
      exact (itemRoute_iff s).1 ((h r).1 hr).route
    simple := by
      intro q hq
      obtain ⟨r, hr, rfl⟩ := mem_encSet.1 hq
      have hs := (h r).1 hr
      have := ranked_pairwise (ρ := ρ) ((itemRoute_iff s).1 hs.route) (by
        intro n hn
        obtain ⟨z, hz, rfl⟩ := List.mem_map.1 hn
        rw [encTail_enc, encHead_enc]
        exact hs.increasing z hz)
      exact this.imp fun {x y} hxy e => by subst e; omega
    exch := by
      intro r q r' q' u h1 h2 g1 g2
      obtain ⟨p, hp, e⟩ := mem_encSet.1 h1
      obtain ⟨p', hp', e'⟩ := mem_encSet.1 h2
      obtain ⟨r0, q0, rfl, rfl, rfl⟩ := List.map_eq_append_iff.1 e
      obtain ⟨r0', q0', rfl, rfl, rfl⟩ := List.map_eq_append_iff.1 e'
      rw [← List.map_append, map_mem_encSet, h]
      exact Sub.exchange (fun g hg l hl l' hl' => (hu g hg l hl l' hl').2)
        ((h _).1 hp) ((h _).1 hp') ((itemRoute_iff s).2 g1) ((itemRoute_iff s).2 g2) }

theorem itemFan_detail {paths : List (List Item)} {q : ℚ} {det : List PathInfo}
    (hd : pathInfos id (outDeg s.itemTail paths) s.itemTail q paths = .ok det) :
    List.Forall₂ (fun r x => x.items = r ∧
      x.traffic = q * share (encTail s) (encSet paths) (r.map enc)) paths det := by
  have h7 := pathInfos_forall hd
  have hdeg : outDeg s.itemTail paths = fun u => (fanHops (encTail s) (encSet paths) u).card :=
    funext fun u => outDeg_enc s paths u
  have h8 : ∀ r ∈ paths, ∀ x ∈ r, 1 ≤ (fanHops (encTail s) (encSet paths) (s.itemTail x)).card :=
    fun r hr x hx => Finset.card_pos.2
      ⟨enc x, mem_fanHops.2 ⟨⟨r.map enc, map_mem_encSet.2 hr, List.mem_map.2 ⟨x, hx, rfl⟩⟩,
        encTail_enc s x⟩⟩
  rw [hdeg] at h7
  have key : ∀ r ∈ paths, ∀ x, pathInfo id (fun u => (fanHops (encTail s) (encSet paths) u).card)
      s.itemTail q r = .ok x →
      x.items = r ∧ x.traffic = q * share (encTail s) (encSet paths) (r.map enc) := by
    intro r hr x hx
    obtain ⟨e1, e2, m, e3, e4⟩ := pathInfo_ok hx
    have hne : r ≠ [] := by rintro rfl; simp [cumSplits] at e3
    refine ⟨e1, ?_⟩
    rw [cumSplits_max _ _ _ _ hne (h8 r hr)] at e3
    cases e3
    rw [e4, share_eq, one_mul, List.map_map, div_eq_mul_inv]
    have : ((fun x => (fanHops (encTail s) (encSet paths) (encTail s x)).card) ∘ enc) =
        fun x => (fanHops (encTail s) (encSet paths) (s.itemTail x)).card := by
      funext x
      simp only [Function.comp, encTail_enc]
    rw [this]
    rfl
  clear hd hdeg h8
  revert h7 key
  generalize encSet paths = S
  intro h7 key
  induction h7 with
  | nil => exact .nil
  | cons hx _ ih => exact .cons (key _ (by simp) _ hx) (ih fun r hr => key r (by simp [hr]))

theorem forall₂_sum {α β : Type} {f : α → ℚ} {g : β → ℚ} {R : α → β → Prop} {l : List α}
    {m : List β} (h : List.Forall₂ R l m) (hR : ∀ x y, R x y → g y = f x) :
    (m.map g).sum = (l.map f).sum := by
  induction h with
  | nil => rfl
  | cons hx _ ih => simp only [List.map_cons, List.sum_cons, ih, hR _ _ hx]

theorem ItemFan.sum (h : ItemFan s a b paths) (f : List ℕ → ℚ) :
    (paths.map fun r => f (r.map enc)).sum = ∑ p ∈ encSet paths, f p := by
  unfold encSet
  rw [List.sum_toFinset _ (h.nodup.map encs_injective), List.map_map]
  rfl

theorem ItemFan.total {a b : String} {paths : List (List Item)} {q : ℚ} {det : List PathInfo}
    (h : ItemFan s a b paths)
    (hd : pathInfos id (outDeg s.itemTail paths) s.itemTail q paths = .ok det) :
    totalTraffic det = q := by
  unfold totalTraffic
  rw [forall₂_sum (f := fun r => q * share (encTail s) (encSet paths) (r.map enc))
    (itemFan_detail hd) fun x y hxy => hxy.2,
    h.sum fun p => q * share (encTail s) (encSet paths) p, ← Finset.mul_sum, h.fan.total, mul_one]
  obtain ⟨r, hr⟩ := List.exists_mem_of_ne_nil _ h.ne
  exact ⟨_, map_mem_encSet.2 hr⟩

end

end NTM
