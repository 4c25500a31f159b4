import Verif.Props.File

/-!
# C105: line ends of a model file do not matter
-/

namespace NTM

open Spec

namespace Spec

/-- how a line may end: Unix, Windows, old Mac -/
def LineEnd (e : String) : Prop := e = "\n" ∨ e = "\r\n" ∨ e = "\r"

instance (e : String) : Decidable (LineEnd e) := inferInstanceAs (Decidable (_ ∨ _ ∨ _))

/-- the text made of lines with their ends -/
def endedText (ls : List (String × String)) : String :=
  String.ofList (ls.flatMap fun l => l.1.toList ++ l.2.toList)

/-- a carriage return is not followed by a newline that is meant to end another, empty, line -/
def NoGlue : List (String × String) → Prop
  | a :: b :: ls => (a.2 = "\r" → b.1 = "" → b.2 ≠ "\n") ∧ NoGlue (b :: ls)
  | _ => True

end Spec

/-- reading goes on the same whether or not a carriage return came just before, if what follows is
not a newline -/
theorem splitLinesAux_cr {cs cur : List Char} (h : cs.head? ≠ some '\n') (b : Bool) :
    splitLinesAux cs b cur = splitLinesAux cs false cur := by
  cases cs with
  | nil => rfl
  | cons c cs =>
    have hc : c ≠ '\n' := fun e => h (by rw [e]; rfl)
    rw [splitLinesAux, splitLinesAux]
    simp [hc]

theorem splitLinesAux_ended {ls : List (String × String)} {tail : List Char}
    (hb : ∀ l ∈ ls, ∀ c ∈ l.1.toList, ¬ LineBreak c) (he : ∀ l ∈ ls, LineEnd l.2)
    (hg : NoGlue ls) (ht : ∀ c ∈ tail, ¬ LineBreak c) :
    splitLinesAux ((ls.flatMap fun l => l.1.toList ++ l.2.toList) ++ tail) false [] =
      ls.map (fun l => l.1.toList) ++ (if tail = [] then [] else [tail]) := by
  induction ls with
  | nil =>
    have := splitLinesAux_line tail [] [] ht
    rw [List.append_nil] at this
    simpa [splitLinesAux] using this
  | cons l ls ih =>
    have hg' : NoGlue ls := by
      cases ls with
      | nil => trivial
      | cons b ls => exact hg.2
    have ih' := ih (fun x hx => hb x (List.mem_cons_of_mem _ hx))
      (fun x hx => he x (List.mem_cons_of_mem _ hx)) hg'
    rw [List.flatMap_cons, List.append_assoc, List.append_assoc,
      splitLinesAux_line _ _ _ (hb l (by simp)), List.nil_append]
    rw [List.map_cons, List.cons_append, ← ih']
    generalize hrest : (ls.flatMap fun l => l.1.toList ++ l.2.toList) ++ tail = rest
    rcases he l (by simp) with h | h | h
    · rw [h]; rfl
    · rw [h]; rfl
    · rw [h]
      show l.1.toList :: splitLinesAux rest true [] = _
      rw [splitLinesAux_cr]
      rw [← hrest]
      cases ls with
      | nil =>
        cases tail with
        | nil => simp
        | cons c cs =>
          intro e
          have : c = '\n' := by simpa using e
          exact ht c (by simp) (by rw [this]; unfold LineBreak; simp)
      | cons b ls =>
        obtain ⟨x, e⟩ := b
        intro h0
        cases hx : x.toList with
        | nil =>
          have hxe : x = "" := by
            rw [← String.ofList_toList (s := x), hx]
          have hne := hg.1 h hxe
          rcases he (x, e) (by simp) with h' | h' | h'
          · exact hne h'
          · simp only [] at h'
            subst h'
            simp [hx] at h0
          · simp only [] at h'
            subst h'
            simp [hx] at h0
        | cons c cs =>
          have : c = '\n' := by simpa [hx] using h0
          refine hb (x, e) (by simp) c (by rw [hx]; simp) ?_
          rw [this]; unfold LineBreak; simp

/-- **C105** Whatever ends the lines of a model file, newline, carriage return or both, in any
mixture, and whether or not the last line is ended, loading reads the same lines. -/
theorem C105_line_ends (rd : Reader) {ls : List (String × String)} {last : String}
    (hb : ∀ l ∈ ls, ∀ c ∈ l.1.toList, ¬ LineBreak c) (he : ∀ l ∈ ls, LineEnd l.2)
    (hg : NoGlue ls) (hl : ∀ c ∈ last.toList, ¬ LineBreak c) (hne : last ≠ "") (s : State) :
    loadText rd (endedText ls) s = loadModel rd (ls.map Prod.fst) s ∧
    loadText rd (endedText ls ++ last) s = loadModel rd (ls.map Prod.fst ++ [last]) s := by
  constructor
  · unfold loadText splitLines endedText
    have := splitLinesAux_ended (tail := []) hb he hg (by simp)
    rw [String.toList_ofList]
    rw [List.append_nil] at this
    rw [this]
    simp [List.map_map, Function.comp_def]
  · unfold loadText splitLines endedText
    have := splitLinesAux_ended (tail := last.toList) hb he hg hl
    have hnl : last.toList ≠ [] := by
      intro h
      exact hne (by rw [← String.ofList_toList (s := last), h])
    rw [String.toList_append, String.toList_ofList, this, if_neg hnl]
    simp [List.map_map, Function.comp_def]

/-- **C105** A description written with one kind of line end loads the same with any other. -/
theorem C105_round_trip {rd : Reader} {w : Writer} {k : Kind} {d : FileData} {e : String}
    (hend : LineEnd e) (h : WellFormed rd w k d) (hn : NoEmptyNumber rd) :
    ∃ t, loadText rd (endedText ((fileLines w d).map fun l => (l, e))) (emptyState k) = .ok () t ∧
      t.kind = k ∧ Contains t d := by
  obtain ⟨t, ht, hk, hc⟩ := C67_round_trip h hn
  refine ⟨t, ?_, hk, hc⟩
  rw [← ht]
  have hb := fileLines_noBreak h
  have hglue : ∀ ls : List String, NoGlue (ls.map fun l => (l, e)) := by
    intro ls
    induction ls with
    | nil => trivial
    | cons a ls ih =>
      cases ls with
      | nil => trivial
      | cons b ls =>
        refine ⟨?_, ih⟩
        show e = "\r" → b = "" → e ≠ "\n"
        intro h1 _ h2
        rw [h1] at h2
        exact absurd h2 (by decide)
  have hlast : ∀ c ∈ ("x" : String).toList, ¬ LineBreak c := by
    unfold LineBreak; decide
  rw [(C105_line_ends rd (last := "x") (ls := (fileLines w d).map fun l => (l, e))
    (by
      intro l hl
      obtain ⟨a, ha, rfl⟩ := List.mem_map.1 hl
      exact hb a ha)
    (by
      intro l hl
      obtain ⟨a, ha, rfl⟩ := List.mem_map.1 hl
      exact hend) (hglue _) hlast (by decide) _).1]
  unfold loadText
  rw [splitLines_fileText hb, List.map_map]
  simp [Function.comp_def]

/-- three kinds of line ends in one text, blank lines among them -/
example : (∀ l ∈ [("INTERFACES_TABLE", "\r\n"), ("", "\n"), ("A\tB", "\r"), ("", "\r\n"), ("", "\n")],
      ∀ c ∈ l.1.toList, ¬ LineBreak c) ∧
    (∀ l ∈ [("INTERFACES_TABLE", "\r\n"), ("", "\n"), ("A\tB", "\r"), ("", "\r\n"), ("", "\n")],
      LineEnd l.2) ∧
    NoGlue [("INTERFACES_TABLE", "\r\n"), ("", "\n"), ("A\tB", "\r"), ("", "\r\n"), ("", "\n")] ∧
    splitLines "INTERFACES_TABLE\r\n\nA\tB\r\r\n\nC" = ["INTERFACES_TABLE", "", "A\tB", "", "", "C"] := by
  refine ⟨by unfold LineBreak; decide +kernel, by decide +kernel, ?_, by decide +kernel⟩
  simp [NoGlue]

/-- the hypotheses of `C105_round_trip` hold of a description with two circuits, demands and LSPs -/
example (k : Kind) : LineEnd "\r\n" ∧ WellFormed .plain decimal k (Ex.described k) ∧
    NoEmptyNumber .plain :=
  ⟨by decide, Ex.described_wellFormed k, (C67_decimal 0).2.2⟩

end NTM
