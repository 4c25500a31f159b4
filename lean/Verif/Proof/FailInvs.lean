import Verif.Proof.FailHist

/-!
# Three invariants of failing and repairing
-/

namespace NTM

open Spec

theorem ifcHeld_iff {s : State} {i : ℕ} :
    s.ifcHeld i = true ↔ ∃ g ∈ (s.ifc i).srlgs, (s.srlg g).failed = true := by
  unfold State.ifcHeld; rw [List.any_eq_true]

theorem nodeHeld_iff {s : State} {n : ℕ} :
    s.nodeHeld n = true ↔ ∃ g ∈ (s.node n).srlgs, (s.srlg g).failed = true := by
  unfold State.nodeHeld; rw [List.any_eq_true]

theorem upIfc_failed (s : State) (i k : ℕ) :
    ((s.upIfc i).ifc k).failed = if k = i then false else (s.ifc k).failed := by
  unfold State.upIfc State.updIfc; simp only []; split <;> simp_all

theorem upIfc_srlgs (s : State) (i k : ℕ) : ((s.upIfc i).ifc k).srlgs = (s.ifc k).srlgs := by
  unfold State.upIfc State.updIfc; simp only []; split <;> simp_all

theorem downIfc_failed (s : State) (i k : ℕ) :
    ((s.downIfc i).ifc k).failed = if k = i then true else (s.ifc k).failed := by
  unfold State.downIfc State.updIfc; simp only []; split <;> simp_all

theorem downIfc_srlgs (s : State) (i k : ℕ) : ((s.downIfc i).ifc k).srlgs = (s.ifc k).srlgs := by
  unfold State.downIfc State.updIfc; simp only []; split <;> simp_all

theorem downIfc_net (s : State) (i : ℕ) : SameNet s (s.downIfc i) :=
  upIfc_sameNet s i _ fun _ => ⟨rfl, rfl, rfl, rfl⟩

theorem upNode_failed (s : State) (i k : ℕ) :
    ((s.upNode i).node k).failed = if k = i then false else (s.node k).failed := by
  unfold State.upNode State.updNode; simp only []; split <;> simp_all

theorem upNode_srlgs (s : State) (i k : ℕ) : ((s.upNode i).node k).srlgs = (s.node k).srlgs := by
  unfold State.upNode State.updNode; simp only []; split <;> simp_all

theorem upNode_net (s : State) (i : ℕ) : SameNet s (s.upNode i) :=
  upNode_sameNet s i _ fun _ => rfl

theorem setSrlg_failed (s : State) (g : ℕ) (b : Bool) (h : ℕ) :
    ((s.setSrlg g b).srlg h).failed = if h = g then b else (s.srlg h).failed := by
  unfold State.setSrlg State.updSrlg; simp only []; split <;> simp_all

/-- a node that is failed already stays as it is -/
theorem downNode_self {s : State} {n : ℕ} (h : (s.node n).failed = true) :
    (s.updNode n fun x => { x with failed := true }) = s := by
  unfold State.updNode
  have : (fun j => if j = n then { s.node j with failed := true } else s.node j) = s.node := by
    funext k
    split
    · next e => subst e; rw [← h]
    · rfl
  rw [this]

/-! ### Dead nodes are dark -/

theorem dark_mono {s t : State} (h : DeadNodesDark s) (hn : SameNet s t)
    (h1 : ∀ n, (t.node n).failed = true → (s.node n).failed = true)
    (h2 : ∀ i ∈ s.ifs, (s.ifc i).failed = true → (t.ifc i).failed = true) : DeadNodesDark t := by
  intro i hi hd
  rw [hn.ifs] at hi
  rw [hn.node, hn.remote] at hd
  exact h2 i hi (h i hi (hd.imp (h1 _) (h1 _)))

theorem nodesDown_mono {s t : State} (h : MemberNodesDown s) (hn : t.nodes = s.nodes)
    (h0 : ∀ n, ∀ g ∈ (t.node n).srlgs, (t.srlg g).failed = true →
      g ∈ (s.node n).srlgs ∧ (s.srlg g).failed = true)
    (h1 : ∀ n ∈ s.nodes, (s.node n).failed = true → (t.node n).failed = true) :
    MemberNodesDown t := by
  intro n hn' g hg hf
  rw [hn] at hn'
  obtain ⟨a, b⟩ := h0 n g hg hf
  exact h1 n hn' (h n hn' g a b)

theorem ifcsDown_mono {s t : State} (h : MemberIfcsDown s) (hn : t.ifs = s.ifs)
    (h0 : ∀ n, ∀ g ∈ (t.ifc n).srlgs, (t.srlg g).failed = true →
      g ∈ (s.ifc n).srlgs ∧ (s.srlg g).failed = true)
    (h1 : ∀ n ∈ s.ifs, (s.ifc n).failed = true → (t.ifc n).failed = true) :
    MemberIfcsDown t := by
  intro n hn' g hg hf
  rw [hn] at hn'
  obtain ⟨a, b⟩ := h0 n g hg hf
  exact h1 n hn' (h n hn' g a b)

theorem nodesDown_srlgDown {s : State} (h : MemberNodesDown s) (g : ℕ) :
    MemberNodesDown ((s.fell (srlgReach s g) (srlgMembers s g)).setSrlg g true) := by
  intro n hn0 k hk0 hf
  have hn : n ∈ s.nodes := hn0
  change ((s.fell (srlgReach s g) (srlgMembers s g)).node n).failed = true
  have hk : k ∈ (s.node n).srlgs := by
    have : k ∈ ((s.fell (srlgReach s g) (srlgMembers s g)).node n).srlgs := hk0
    rwa [fell_nodeSrlgs] at this
  rw [setSrlg_failed] at hf
  rw [fell_nodeFailed, Bool.or_eq_true]
  split at hf
  · next e => subst e; left; simp [srlgMembers, hn, hk]
  · right; exact h n hn k hk hf

theorem ifcsDown_srlgDown {s : State} (h : MemberIfcsDown s) (g : ℕ) :
    MemberIfcsDown ((s.fell (srlgReach s g) (srlgMembers s g)).setSrlg g true) := by
  intro n hn0 k hk0 hf
  have hn : n ∈ s.ifs := hn0
  change ((s.fell (srlgReach s g) (srlgMembers s g)).ifc n).failed = true
  have hk : k ∈ (s.ifc n).srlgs := by
    have : k ∈ ((s.fell (srlgReach s g) (srlgMembers s g)).ifc n).srlgs := hk0
    rwa [fell_ifcSrlgs] at this
  rw [setSrlg_failed] at hf
  rw [fell_failed, Bool.or_eq_true]
  split at hf
  · next e =>
    subst e
    left
    unfold srlgReach circuitsOf
    rw [Bool.or_eq_true, decide_eq_true_eq]
    exact .inr ⟨n, by simp [hn, hk], .inl rfl⟩
  · right; exact h n hn k hk hf

theorem fell_dark {s : State} {F N : ℕ → Bool} (h : DeadNodesDark s) (hN : NodeClosed s F N) :
    DeadNodesDark (s.fell F N) := by
  have hn := fell_sameNet s F N
  intro i hi hd
  rw [hn.node, hn.remote, fell_nodeFailed, fell_nodeFailed, Bool.or_eq_true, Bool.or_eq_true] at hd
  rw [fell_failed, Bool.or_eq_true]
  rcases hd with (hd | hd) | (hd | hd)
  · exact .inl (hN.reach i hi (.inl hd))
  · exact .inr (h i hi (.inl hd))
  · exact .inl (hN.reach i hi (.inr hd))
  · exact .inr (h i hi (.inr hd))

theorem fell_nodesDown {s : State} (F N : ℕ → Bool) (h : MemberNodesDown s) :
    MemberNodesDown (s.fell F N) :=
  nodesDown_mono h rfl (fun n g hg hf => ⟨by rwa [fell_nodeSrlgs] at hg, hf⟩)
    (fun n _ hf => by rw [fell_nodeFailed, hf, Bool.or_true])

theorem fell_ifcsDown {s : State} (F N : ℕ → Bool) (h : MemberIfcsDown s) :
    MemberIfcsDown (s.fell F N) :=
  ifcsDown_mono h rfl (fun n g hg hf => ⟨by rwa [fell_ifcSrlgs] at hg, hf⟩)
    (fun n _ hf => by rw [fell_failed, hf, Bool.or_true])

theorem srlgUp_less {s : State} {g : ℕ} {k : ℕ} (h : ((s.setSrlg g false).srlg k).failed = true) :
    (s.srlg k).failed = true := by
  rw [setSrlg_failed] at h
  split at h
  · cases h
  · exact h

/-- bringing up one interface -/
theorem upIfc_dark {s : State} {i : ℕ} (h : DeadNodesDark s)
    (h1 : (s.node (s.ifc i).node).failed = false) (h2 : (s.node (s.ifc i).remote).failed = false) :
    DeadNodesDark (s.upIfc i) := by
  have hn := upIfc_net s i
  intro k hk hd
  rw [hn.node, hn.remote] at hd
  rw [upIfc_failed]
  split
  · next e =>
    subst e
    rcases hd with hd | hd
    · exact absurd (h1.symm.trans hd) (by simp)
    · exact absurd (h2.symm.trans hd) (by simp)
  · exact h k hk hd

theorem upIfc_ifcsDown {s : State} {i : ℕ} (h : MemberIfcsDown s) (h1 : s.ifcHeld i = false) :
    MemberIfcsDown (s.upIfc i) := by
  intro k hk g hg hf
  rw [upIfc_srlgs] at hg
  rw [upIfc_failed]
  split
  · next e =>
    subst e
    have : s.ifcHeld k = true := ifcHeld_iff.2 ⟨g, hg, hf⟩
    rw [h1] at this; cases this
  · exact h k hk g hg hf

theorem downIfc_dark {s : State} (i : ℕ) (h : DeadNodesDark s) : DeadNodesDark (s.downIfc i) :=
  dark_mono h (downIfc_net s i) (fun _ h => h) fun k _ hf => by
    rw [downIfc_failed]; split
    · rfl
    · exact hf

theorem downIfc_ifcsDown {s : State} (i : ℕ) (h : MemberIfcsDown s) : MemberIfcsDown (s.downIfc i) :=
  ifcsDown_mono h rfl (fun n g hg hf => ⟨by rwa [downIfc_srlgs] at hg, hf⟩) fun k _ hf => by
    rw [downIfc_failed]; split
    · rfl
    · exact hf

/-- the invariant behind C38 -/
def DarkInv (s : State) : Prop := Wired s ∧ DeadNodesDark s ∧ MemberNodesDown s

theorem darkInv_cfg (s t : State) (h : DarkInv s) (c : SameCfg s t) : DarkInv t := by
  refine ⟨h.1.congr c.sameNet, dark_mono h.2.1 c.sameNet (fun n hf => by rwa [c.node] at hf)
    (fun i _ hf => by rw [c.ifc]; exact hf), nodesDown_mono h.2.2 c.nodes ?_ ?_⟩
  · intro n g hg hf; rw [c.node] at hg; rw [c.srlg] at hf; exact ⟨hg, hf⟩
  · intro n _ hf; rw [c.node]; exact hf

theorem darkInv_checked (s t : State) (h : DarkInv s) (c : Checked s t) : DarkInv t := by
  obtain ⟨h1, h2, -, h4, h5⟩ := c.srlg
  refine ⟨h.1.congr c.sameNet, dark_mono h.2.1 c.sameNet (fun n hf => by rwa [h2] at hf)
    (fun i _ hf => h5 i hf), nodesDown_mono h.2.2 c.sameNet.nodes ?_ ?_⟩
  · intro n g hg hf; rw [h2] at hg; rw [h1] at hf; exact ⟨hg, hf⟩
  · intro n _ hf; rw [h2]; exact hf

theorem darkInv : FailInv DarkInv where
  wired s h := h.1
  zero s i h _ := darkInv_cfg _ _ h (setReserved_cfg s i 0)
  valid env := validate_stays env (fun _ h => h.1) darkInv_checked
  fell s F N h hF hN := ⟨h.1.congr (fell_sameNet s F N), fell_dark h.2.1 hN, fell_nodesDown F N h.2.2⟩
  srlgUp s g h _ := ⟨h.1.congr (setSrlg_sameNet s g false), h.2.1,
    nodesDown_mono h.2.2 rfl (fun n k hk hf => ⟨hk, srlgUp_less hf⟩) (fun _ _ h => h)⟩
  srlgDown s g h _ := ⟨(h.1.congr (fell_sameNet s _ _)).congr (setSrlg_sameNet _ g true),
    fell_dark h.2.1 (srlgReach_nodeClosed s g), nodesDown_srlgDown h.2.2 g⟩
  held s i h _ _ := ⟨h.1.congr (downIfc_net s i), downIfc_dark i h.2.1, h.2.2⟩
  bring s i j h hi hj hij h1 h2 _ := by
    have hw := h.1
    have hn := upIfc_net s i
    have hd : DeadNodesDark (s.upIfc i) := upIfc_dark h.2.1 h1 h2
    split
    · exact ⟨(hw.congr hn).congr (downIfc_net _ j), downIfc_dark j hd, h.2.2⟩
    · refine ⟨(hw.congr hn).congr (upIfc_net _ j), upIfc_dark hd ?_ ?_, h.2.2⟩
      · rw [hn.node, hw.node_inj (hw.ends j hj).1 (hw.ends i hi).2 hij.2.1.symm]; exact h2
      · rw [hn.remote, hw.node_inj (hw.ends j hj).2 (hw.ends i hi).1 hij.1.symm]; exact h1
  nodeUp s n h _ hh := by
    refine ⟨h.1.congr (upNode_net s n), dark_mono h.2.1 (upNode_net s n) ?_ (fun _ _ h => h), ?_⟩
    · intro k hk
      rw [upNode_failed] at hk
      split at hk
      · cases hk
      · exact hk
    · intro k hk g hg hf
      rw [upNode_srlgs] at hg
      rw [upNode_failed]
      split
      · next e =>
        subst e
        have : s.nodeHeld k = true := nodeHeld_iff.2 ⟨g, hg, hf⟩
        rw [hh] at this; cases this
      · exact h.2.2 k hk g hg hf
  nodeHeld s n h hn hh := by
    obtain ⟨g, hg, hf⟩ := nodeHeld_iff.1 hh
    rw [downNode_self (h.2.2 n hn g hg hf)]
    exact h

/-- the invariant behind C42 -/
def DownInv (s : State) : Prop := Wired s ∧ MemberNodesDown s ∧ MemberIfcsDown s

theorem downInv_cfg (s t : State) (h : DownInv s) (c : SameCfg s t) : DownInv t := by
  refine ⟨h.1.congr c.sameNet, nodesDown_mono h.2.1 c.nodes ?_ ?_, ifcsDown_mono h.2.2 c.ifs ?_ ?_⟩
  · intro n g hg hf; rw [c.node] at hg; rw [c.srlg] at hf; exact ⟨hg, hf⟩
  · intro n _ hf; rw [c.node]; exact hf
  · intro n g hg hf; rw [c.ifc] at hg; rw [c.srlg] at hf; exact ⟨hg, hf⟩
  · intro n _ hf; rw [c.ifc]; exact hf

theorem downInv_checked (s t : State) (h : DownInv s) (c : Checked s t) : DownInv t := by
  obtain ⟨h1, h2, -, h4, h5⟩ := c.srlg
  refine ⟨h.1.congr c.sameNet, nodesDown_mono h.2.1 c.sameNet.nodes ?_ ?_,
    ifcsDown_mono h.2.2 c.sameNet.ifs ?_ ?_⟩
  · intro n g hg hf; rw [h2] at hg; rw [h1] at hf; exact ⟨hg, hf⟩
  · intro n _ hf; rw [h2]; exact hf
  · intro n g hg hf; rw [h4] at hg; rw [h1] at hf; exact ⟨hg, hf⟩
  · intro n _ hf; exact h5 n hf

theorem downInv : FailInv DownInv where
  wired s h := h.1
  zero s i h _ := downInv_cfg _ _ h (setReserved_cfg s i 0)
  valid env := validate_stays env (fun _ h => h.1) downInv_checked
  fell s F N h hF hN := ⟨h.1.congr (fell_sameNet s F N), fell_nodesDown F N h.2.1, fell_ifcsDown F N h.2.2⟩
  srlgUp s g h _ := ⟨h.1.congr (setSrlg_sameNet s g false),
    nodesDown_mono h.2.1 rfl (fun n k hk hf => ⟨hk, srlgUp_less hf⟩) (fun _ _ h => h),
    ifcsDown_mono h.2.2 rfl (fun n k hk hf => ⟨hk, srlgUp_less hf⟩) (fun _ _ h => h)⟩
  srlgDown s g h _ := ⟨(h.1.congr (fell_sameNet s _ _)).congr (setSrlg_sameNet _ g true),
    nodesDown_srlgDown h.2.1 g, ifcsDown_srlgDown h.2.2 g⟩
  held s i h _ _ := ⟨h.1.congr (downIfc_net s i), h.2.1, downIfc_ifcsDown i h.2.2⟩
  bring s i j h hi hj hij h1 h2 hh := by
    have hn := upIfc_net s i
    have hd : MemberIfcsDown (s.upIfc i) := upIfc_ifcsDown h.2.2 hh
    split
    · exact ⟨(h.1.congr hn).congr (downIfc_net _ j), h.2.1, downIfc_ifcsDown j hd⟩
    · next hj => exact ⟨(h.1.congr hn).congr (upIfc_net _ j), h.2.1,
        upIfc_ifcsDown hd (by rw [upIfc_held]; simpa using hj)⟩
  nodeUp s n h _ hh := by
    refine ⟨h.1.congr (upNode_net s n), ?_, h.2.2⟩
    intro k hk g hg hf
    rw [upNode_srlgs] at hg
    rw [upNode_failed]
    split
    · next e =>
      subst e
      have : s.nodeHeld k = true := nodeHeld_iff.2 ⟨g, hg, hf⟩
      rw [hh] at this; cases this
    · exact h.2.1 k hk g hg hf
  nodeHeld s n h hn hh := by
    obtain ⟨g, hg, hf⟩ := nodeHeld_iff.1 hh
    rw [downNode_self (h.2.1 n hn g hg hf)]
    exact h

/-! ### Both ends of a circuit agree -/

theorem srlgsMatch_congr {s t : State} (h : SrlgsMatch s) (hn : SameNet s t)
    (hs : ∀ i, (t.ifc i).srlgs = (s.ifc i).srlgs) : SrlgsMatch t := by
  intro i hi j hj hij g hg
  rw [hn.ifs] at hi hj
  rw [hs] at hg ⊢
  exact h i hi j hj ((hn.opposite i j).1 hij) g hg

theorem endsAgree_congr {s t : State} (h : EndsAgree s) (hn : SameNet s t)
    (hs : ∀ i ∈ s.ifs, (t.ifc i).failed = (s.ifc i).failed) : EndsAgree t := by
  intro i hi j hj hij
  rw [hn.ifs] at hi hj
  rw [hs i hi, hs j hj]
  exact h i hi j hj ((hn.opposite i j).1 hij)

theorem fell_endsAgree {s : State} {F N : ℕ → Bool} (h : EndsAgree s)
    (hF : TwinClosed s F) : EndsAgree (s.fell F N) := by
  intro i hi j hj hij
  have hij := ((fell_sameNet s F N).opposite i j).1 hij
  have hi : i ∈ s.ifs := hi
  have hj : j ∈ s.ifs := hj
  rw [fell_failed, fell_failed, h i hi j hj hij]
  congr 1
  rw [Bool.eq_iff_iff]
  exact ⟨hF.twin i hi j hj hij, hF.twin j hj i hi (opposite_symm hij)⟩

theorem ifcHeld_opposite {s : State} (h : SrlgsMatch s) {i j : ℕ} (hi : i ∈ s.ifs) (hj : j ∈ s.ifs)
    (hij : Opposite s i j) : s.ifcHeld i = s.ifcHeld j := by
  rw [Bool.eq_iff_iff, ifcHeld_iff, ifcHeld_iff]
  constructor
  · rintro ⟨g, hg, hf⟩; exact ⟨g, h j hj i hi (opposite_symm hij) g hg, hf⟩
  · rintro ⟨g, hg, hf⟩; exact ⟨g, h i hi j hj hij g hg, hf⟩

/-- the invariant behind C39 -/
def EndsInv (s : State) : Prop := Wired s ∧ EndsAgree s ∧ MemberIfcsDown s ∧ SrlgsMatch s

theorem endsInv_cfg (s t : State) (h : EndsInv s) (c : SameCfg s t) : EndsInv t := by
  refine ⟨h.1.congr c.sameNet, endsAgree_congr h.2.1 c.sameNet (fun i _ => by rw [c.ifc]),
    ifcsDown_mono h.2.2.1 c.ifs ?_ ?_, srlgsMatch_congr h.2.2.2 c.sameNet fun i => by rw [c.ifc]⟩
  · intro n g hg hf; rw [c.ifc] at hg; rw [c.srlg] at hf; exact ⟨hg, hf⟩
  · intro n _ hf; rw [c.ifc]; exact hf

theorem endsInv_checked (s t : State) (h : EndsInv s) (c : Checked s t) : EndsInv t := by
  obtain ⟨h1, h2, -, h4, h5⟩ := c.srlg
  refine ⟨h.1.congr c.sameNet, endsAgree_congr h.2.1 c.sameNet (fun i _ => c.failed h.2.1 i),
    ifcsDown_mono h.2.2.1 c.sameNet.ifs ?_ ?_, srlgsMatch_congr h.2.2.2 c.sameNet h4⟩
  · intro n g hg hf; rw [h4] at hg; rw [h1] at hf; exact ⟨hg, hf⟩
  · intro n _ hf; exact h5 n hf

theorem endsInv : FailInv EndsInv where
  wired s h := h.1
  zero s i h _ := endsInv_cfg _ _ h (setReserved_cfg s i 0)
  valid env := validate_stays env (fun _ h => h.1) endsInv_checked
  fell s F N h hF hN := ⟨h.1.congr (fell_sameNet s F N), fell_endsAgree h.2.1 hF,
    fell_ifcsDown F N h.2.2.1, srlgsMatch_congr h.2.2.2 (fell_sameNet s F N) (fell_ifcSrlgs s F N)⟩
  srlgUp s g h _ := ⟨h.1.congr (setSrlg_sameNet s g false),
    endsAgree_congr h.2.1 (setSrlg_sameNet s g false) (fun _ _ => rfl),
    ifcsDown_mono h.2.2.1 rfl (fun n k hk hf => ⟨hk, srlgUp_less hf⟩) (fun _ _ h => h),
    srlgsMatch_congr h.2.2.2 (setSrlg_sameNet s g false) (fun _ => rfl)⟩
  srlgDown s g h _ := by
    have hn := fell_sameNet s (srlgReach s g) (srlgMembers s g)
    have hw := h.1.congr hn
    exact ⟨hw.congr (setSrlg_sameNet _ g true),
      endsAgree_congr (fell_endsAgree h.2.1 (srlgReach_closed h.1 g))
        (setSrlg_sameNet _ g true) (fun _ _ => rfl),
      ifcsDown_srlgDown h.2.2.1 g,
      srlgsMatch_congr (srlgsMatch_congr h.2.2.2 hn (fell_ifcSrlgs s _ _))
        (setSrlg_sameNet _ g true) (fun _ => rfl)⟩
  held s i h hi hh := by
    obtain ⟨g, hg, hf⟩ := ifcHeld_iff.1 hh
    have hfail := h.2.2.1 i hi g hg hf
    refine ⟨h.1.congr (downIfc_net s i), endsAgree_congr h.2.1 (downIfc_net s i) ?_,
      downIfc_ifcsDown i h.2.2.1, srlgsMatch_congr h.2.2.2 (downIfc_net s i) (downIfc_srlgs s i)⟩
    intro k _
    rw [downIfc_failed]
    split
    · next e => rw [e, hfail]
    · rfl
  bring s i j h hi hj hij h1 h2 hh := by
    have hn := upIfc_net s i
    have hj' : s.ifcHeld j = false := by rw [← ifcHeld_opposite h.2.2.2 hi hj hij, hh]
    rw [if_neg (by simp [hj'])]
    have hn2 := SameNet.frame.trans hn (upIfc_net (s.upIfc i) j)
    refine ⟨h.1.congr hn2, ?_, upIfc_ifcsDown (upIfc_ifcsDown h.2.2.1 hh) (by rw [upIfc_held, hj']),
      srlgsMatch_congr h.2.2.2 hn2 fun k => by rw [upIfc_srlgs, upIfc_srlgs]⟩
    intro k hk0 l hl0 hkl0
    have hkl := (hn2.opposite k l).1 hkl0
    have hk : k ∈ s.ifs := hk0
    have hl : l ∈ s.ifs := hl0
    clear hk0 hl0 hkl0
    rw [upIfc_failed, upIfc_failed, upIfc_failed, upIfc_failed]
    by_cases hki : k = i
    · subst hki
      have : l = j := h.1.twin_unique hl hj hkl hij
      subst this
      simp
    · by_cases hkj : k = j
      · subst hkj
        have : l = i := h.1.twin_unique hl hi hkl (opposite_symm hij)
        subst this
        simp
      · have hli : l ≠ i := by
          rintro rfl
          exact hkj (h.1.twin_unique hk hj (opposite_symm hkl) hij)
        have hlj : l ≠ j := by
          rintro rfl
          exact hki (h.1.twin_unique hk hi (opposite_symm hkl) (opposite_symm hij))
        simp only [hki, hkj, hli, hlj, if_false]
        exact h.2.1 k hk l hl hkl
  nodeUp s n h _ hh :=
    ⟨h.1.congr (upNode_net s n), endsAgree_congr h.2.1 (upNode_net s n) (fun _ _ => rfl),
      h.2.2.1, srlgsMatch_congr h.2.2.2 (upNode_net s n) (fun _ => rfl)⟩
  nodeHeld s n h hn hh := by
    have hn := upNode_sameNet s n (fun x => { x with failed := true }) (fun _ => rfl)
    exact ⟨h.1.congr hn, endsAgree_congr h.2.1 hn (fun _ _ => rfl),
      h.2.2.1, srlgsMatch_congr h.2.2.2 hn (fun _ => rfl)⟩

end NTM
