import Verif.Proof.Order

/-!
# The bandwidth each LSP ends up with
-/

namespace NTM

open Spec

/-- number of LSPs with the end points of `l` that are routed -/
def routedPeers (s t : State) (l : ℕ) : ℕ :=
  ((s.peers l).filter fun m => (t.lsp m).path ≠ .unrouted).length

/-- the bandwidth of one LSP -/
def BwOf (env : Env) (s : State) (done : List ℕ) (t : State) (l : ℕ) : Prop :=
  ((t.lsp l).path = .unrouted ∧ (t.lsp l).reserved = .unrouted ∧
    (t.lsp l).setup = some (askedBw s (shareOf env s l) l)) ∨
  (IsRouted t l ∧ (t.lsp l).reserved = .val (askedBw s (shareOf env s l) l) ∧
    (t.lsp l).setup = some (askedBw s (shareOf env s l) l)) ∨
  (IsRouted t l ∧ (∀ m ∈ s.peers l, m ∈ done) ∧
    (∃ l' ∈ s.peers l, (t.lsp l').path = .unrouted) ∧
    (t.lsp l).reserved = .val (totalFor env s l / routedPeers s t l) ∧
    (t.lsp l).setup = some ((s.lsp l).newSetup (totalFor env s l / routedPeers s t l)))

theorem routedPeers_congr {s t t' : State} {l : ℕ}
    (h : ∀ m ∈ s.peers l, ((t'.lsp m).path = .unrouted ↔ (t.lsp m).path = .unrouted)) :
    routedPeers s t' l = routedPeers s t l := by
  unfold routedPeers
  congr 1
  refine List.filter_congr fun m hm => ?_
  simp only [ne_eq, decide_not, h m hm]

theorem bw_rule (env : Env) {s : State} (hs : Sane s) :
    LspRule env s fun done t => Basic s done t ∧ ∀ l ∈ done, BwOf env s done t l := by
  have B := basic_rule env hs
  refine ⟨⟨B.init, by simp⟩, ?_, ?_⟩
  · rintro done l t t' hf ⟨hb, hx⟩ hl hld hun hsig
    refine ⟨B.signal done l t t' hf hb hl hld hun hsig, ?_⟩
    intro m hm
    rcases List.mem_append.1 hm with hm' | hm'
    · have hml : m ≠ l := fun e => hld (e ▸ hm')
      have hsame := hsig.other hml
      unfold BwOf IsRouted
      rw [hsame]
      rcases hx m hm' with h | h | ⟨h1, h2, ⟨l', h3, h4⟩, h5, h6⟩
      · exact .inl h
      · exact .inr (.inl h)
      · have hp : ∀ x ∈ s.peers m, t'.lsp x = t.lsp x := fun x hxm =>
          hsig.other fun e => hld (e ▸ h2 x hxm)
        rw [routedPeers_congr (t := t) fun x hx => by rw [hp x hx]]
        exact .inr (.inr ⟨h1, fun x hx => by simp [h2 x hx], ⟨l', h3, by rw [hp l' h3]; exact h4⟩,
          h5, h6⟩)
    · have : m = l := List.mem_singleton.1 hm'
      subst this
      rcases hsig with ⟨-, rfl⟩ | ⟨p, k, -, rfl⟩
      · left
        rw [unrouted_lsp]
        exact ⟨rfl, rfl, rfl⟩
      · right; left
        unfold IsRouted
        rw [signalled_lsp]
        exact ⟨⟨_, _, _, rfl⟩, rfl, rfl⟩
  · rintro done l l' r t t' hf ⟨hb, hx⟩ hl hld hld' hl' e1 e2 e3 e4 e5 e6 ⟨e7, e8⟩ hre
    refine ⟨B.reopt done l l' r t t' hf hb hl hld hld' hl' e1 e2 e3 e4 e5 e6 ⟨e7, e8⟩ hre, ?_⟩
    have hst : ∀ m, ((t'.lsp m).path = .unrouted ↔ (t.lsp m).path = .unrouted) := by
      intro m
      by_cases hml : m = l
      · subst hml
        exact ⟨fun h => absurd h hre.routed_after, fun h => absurd h hre.routed_before⟩
      · rw [hre.other hml]
    intro m hm
    by_cases hml : m = l
    · subst hml
      have hrt := hre.routed
      have hcfg : (t.lsp m).configured = (s.lsp m).configured := by
        rw [hf.lsp m]; rfl
      obtain ⟨path, c, hd, res, h1, h2, rfl | ⟨p, k, x, hp, hne, hxx, rfl⟩⟩ := hre
      · rcases hx m hm with h | h | h
        · rw [h1] at h; cases h.1
        · exact .inr (.inl h)
        · exact .inr (.inr h)
      · right; right
        have hl'p : l' ∈ s.peers m := mem_between.2 ⟨hl', e1, e2⟩
        have hrp : routedPeers s _ m = r :=
          (routedPeers_congr fun x _ => hst x).trans e8.symm
        refine ⟨hrt.2, e7, ⟨l', hl'p, (hst l').2 e3⟩, ?_, ?_⟩
        · rw [hrp, resignalled_lsp, hxx]
        · rw [hrp, resignalled_lsp, hxx]
          simp only [Lsp.newSetup, hcfg]
    · have hsame := hre.other hml
      unfold BwOf IsRouted
      rw [hsame, routedPeers_congr (t := t) fun x _ => hst x]
      rcases hx m hm with h | h | ⟨h1, h2, ⟨l'', h3, h4⟩, h5, h6⟩
      · exact .inl h
      · exact .inr (.inl h)
      · exact .inr (.inr ⟨h1, h2, ⟨l'', h3, (hst l'').2 h4⟩, h5, h6⟩)

end NTM
