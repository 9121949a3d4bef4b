import Verif.Model.Scanner
/-
C27, lines: what the scanner takes as the lines of a file, and which of them it takes as signal lines.
-/
namespace Verif

theorem split_line {l : Str} (h : '\n' ∉ l) : l.splitOn '\n' = [l] := by
  unfold List.splitOn
  rw [List.splitOnP_eq_single]
  intro x hx
  rw [beq_eq_false_iff_ne]
  exact fun q => h (q ▸ hx)

theorem split_lines (ls : List Str) (h : ∀ l ∈ ls, '\n' ∉ l) (r : Str) :
    (ls.flatMap (fun l => l ++ ['\n']) ++ r).splitOn '\n' = ls ++ r.splitOn '\n' := by
  induction ls with
  | nil => rfl
  | cons a t ih =>
    rw [List.flatMap_cons, List.append_assoc, List.append_assoc, List.cons_append, List.nil_append]
    unfold List.splitOn
    rw [List.splitOnP_append_cons _ _ (by decide)]
    have e := split_line (h a List.mem_cons_self)
    unfold List.splitOn at e ih
    rw [e, ih fun l hl => h l (List.mem_cons_of_mem _ hl)]
    rfl

/-- **C27**, lines.  The lines of a text are the pieces between its line feeds; nothing is lost, also not a
last line without a line feed, and no line is read behind a final line feed. -/
theorem C27_lines (ls : List Str) (h : ∀ l ∈ ls, '\n' ∉ l) :
    getLines (ls.flatMap fun l => l ++ ['\n']) = ls ∧
    ∀ last : Str, '\n' ∉ last → last ≠ [] → getLines (ls.flatMap (fun l => l ++ ['\n']) ++ last) = ls ++ [last] := by
  constructor
  · have e := split_lines ls h []
    rw [List.append_nil] at e
    unfold getLines
    rw [e]
    show (if (ls ++ [[]]).getLast? = some [] then (ls ++ [[]]).dropLast else _) = ls
    rw [List.getLast?_concat, if_pos rfl, List.dropLast_concat]
  · intro last h1 h2
    have e := split_lines ls h last
    rw [split_line h1] at e
    unfold getLines
    rw [e]
    show (if (ls ++ [last]).getLast? = some [] then _ else ls ++ [last]) = _
    rw [List.getLast?_concat, if_neg (fun q => h2 (Option.some.inj q))]

/-- Every text is of one of the two forms of `C27_lines`. -/
theorem C27_lines_all (text : Str) : ∃ (ls : List Str) (last : Str), (∀ l ∈ ls, '\n' ∉ l) ∧ '\n' ∉ last ∧ text = ls.flatMap (fun l => l ++ ['\n']) ++ last := by
  induction text with
  | nil => exact ⟨[], [], fun _ q => (nomatch q), fun q => (nomatch q), rfl⟩
  | cons c t ih =>
    obtain ⟨ls, last, h1, h2, rfl⟩ := ih
    by_cases hc : c = '\n'
    · subst hc
      refine ⟨[] :: ls, last, ?_, h2, rfl⟩
      intro l hl
      rcases List.mem_cons.1 hl with rfl | hl
      · exact fun q => (nomatch q)
      · exact h1 l hl
    · cases ls with
      | nil =>
        refine ⟨[], c :: last, h1, ?_, rfl⟩
        intro q
        rcases List.mem_cons.1 q with q | q
        · exact hc q.symm
        · exact h2 q
      | cons a ls =>
        refine ⟨(c :: a) :: ls, last, ?_, h2, rfl⟩
        intro l hl
        rcases List.mem_cons.1 hl with rfl | hl
        · intro q
          rcases List.mem_cons.1 q with q | q
          · exact hc q.symm
          · exact h1 a List.mem_cons_self q
        · exact h1 l (List.mem_cons_of_mem _ hl)

example : getLines "BO_ 1 A: 8 E\n\n SG_ x".toList = ["BO_ 1 A: 8 E".toList, [], " SG_ x".toList] := by decide

/-- **C27**, signal lines.  A line is taken as the line of a signal exactly if it contains `SG_` behind a white space. -/
theorem C27_signal_line (line : Str) : isSignalLine line = true ↔
    ∃ a w b, line = a ++ w :: ("SG_".toList ++ b) ∧ (w = ' ' ∨ 9 ≤ w.toNat ∧ w.toNat ≤ 13) := by
  have hw : ∀ w, isWs w = true ↔ (w = ' ' ∨ 9 ≤ w.toNat ∧ w.toNat ≤ 13) := by
    intro w
    unfold isWs
    rw [Bool.or_eq_true, beq_iff_eq, Bool.and_eq_true, decide_eq_true_iff, decide_eq_true_iff]
  induction line with
  | nil =>
    constructor
    · intro q
      cases q
    · rintro ⟨a, w, b, q, -⟩
      cases a <;> cases q
  | cons c cs ih =>
    rw [isSignalLine, Bool.or_eq_true, Bool.and_eq_true, hw, List.isPrefixOf_iff_prefix]
    constructor
    · rintro (⟨q1, b, q2⟩ | q)
      · exact ⟨[], c, b, by rw [← q2]; rfl, q1⟩
      · obtain ⟨a, w, b, q1, q2⟩ := ih.1 q
        exact ⟨c :: a, w, b, by rw [q1]; rfl, q2⟩
    · rintro ⟨a, w, b, q1, q2⟩
      cases a with
      | nil =>
        cases q1
        exact .inl ⟨q2, b, rfl⟩
      | cons x a =>
        cases q1
        exact .inr (ih.2 ⟨a, w, b, rfl, q2⟩)

example : isSignalLine " SG_ Speed : 0|12@1+".toList = true ∧ isSignalLine "SG_ Speed".toList = false ∧ isSignalLine "CM_SG_ 1".toList = false := by decide

end Verif
