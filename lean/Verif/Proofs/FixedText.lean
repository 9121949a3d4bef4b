import Verif.Proofs.ExtRun
/-
Fixed lines of the generated files: comments and code.
-/
namespace Verif
open Spec

variable {files : List (Str × Str)} {D D' D'' : Defs} {us vs : List Tok}

/-- A fixed line is empty, a comment or a line of code without macros. -/
def fixedOk (s : String) : Bool :=
  decide ('\n' ∉ s.toList) && decide (s.toList.length ≤ 9997) &&
  match s.toList with
  | [] => true
  | '/' :: '/' :: c => decide (c.getLast? ≠ some '\\')
  | t => t.all plainCh && codeText (lex t) && noHash [.l s] && segsB [.l s]

/-- The tokens of a fixed line. -/
def fixedToks (s : String) : List Tok :=
  match s.toList with
  | [] => []
  | '/' :: '/' :: _ => []
  | t => lex t

theorem gen_fixed (hB : Base D) {s : String} (h : fixedOk s = true) : Gen files [.appendF s.toList] D D (fixedToks s) := by
  unfold fixedOk at h
  rw [Bool.and_eq_true, Bool.and_eq_true] at h
  obtain ⟨⟨h1, h2⟩, h3⟩ := h
  have h1 := of_decide_eq_true h1
  have h2 := of_decide_eq_true h2
  unfold fixedToks
  split at h3
  · rename_i e
    rw [e]
    exact Gen.appendNil
  · rename_i c e
    rw [e] at h1 h2 ⊢
    simp only [List.length_cons] at h2
    exact Gen.comment (by omega) (fun h => h1 (by simp [h])) (of_decide_eq_true h3)
  · rename_i t n1 n2
    rw [Bool.and_eq_true, Bool.and_eq_true, Bool.and_eq_true] at h3
    obtain ⟨⟨⟨p1, p2⟩, p3⟩, p4⟩ := h3
    have hg : Gen files [.appendF s.toList] D D (lex s.toList) := by
      refine Gen.line [.l s] (by simp [segText, Seg.text]) trivial trivial (by omega) ?_ (by simpa [litsPlain] using p1) p4 p3
      have e : segToks [.l s] = lex s.toList := by simp [segToks, Seg.toks]
      rw [e]
      exact hB.lit [] s p2
    exact hg

/-- Lines, each ended. -/
def joinE : List String → Str
  | [] => []
  | s :: r => s.toList ++ '\n' :: joinE r

/-- Lines, the last not ended. -/
def joinNl : List String → Str
  | [] => []
  | [s] => s.toList
  | s :: r => s.toList ++ '\n' :: joinNl r

theorem fixedOk_nl {s : String} (h : fixedOk s = true) : '\n' ∉ s.toList := by
  unfold fixedOk at h
  rw [Bool.and_eq_true, Bool.and_eq_true] at h
  exact of_decide_eq_true h.1.1

theorem gen_joinE (hB : Base D) : ∀ (ls : List String), ls ≠ [] → ls.all fixedOk = true → (joinE ls).length ≤ 9999 →
    Gen files [.appendF (joinE ls)] D D (ls.flatMap fixedToks)
  | [], h, _, _ => absurd rfl h
  | [s], _, h, hl => by
    simp only [List.all_cons, List.all_nil, Bool.and_true] at h
    exact ((gen_fixed hB h).nlEnd (fixedOk_nl h) hl).eq (by simp)
  | s :: t :: r, _, h, hl => by
    rw [List.all_cons, Bool.and_eq_true] at h
    have ih := gen_joinE hB (t :: r) (by simp) h.2 (by rw [joinE, List.length_append, List.length_cons] at hl; omega)
    exact (gen_fixed hB h.1).nl ih (fixedOk_nl h.1) (by rw [joinE]; simp) hl

theorem joinNl_ne {s : String} {r : List String} (h : (s :: r).getLast? ≠ some "") : joinNl (s :: r) ≠ [] := by
  cases r with
  | nil =>
    rw [joinNl]
    intro e
    exact h (by rw [List.getLast?_singleton]; exact congrArg some (String.ext e))
  | cons t r =>
    rw [joinNl]
    · simp
    · simp

theorem gen_joinNl (hB : Base D) : ∀ (ls : List String), ls.getLast? ≠ some "" → ls ≠ [] → ls.all fixedOk = true → (joinNl ls).length ≤ 9999 →
    Gen files [.appendF (joinNl ls)] D D (ls.flatMap fixedToks)
  | [], _, h, _, _ => absurd rfl h
  | [s], _, _, h, hl => by
    simp only [List.all_cons, List.all_nil, Bool.and_true] at h
    exact (gen_fixed hB h).eq (by simp)
  | s :: t :: r, h0, _, h, hl => by
    rw [List.all_cons, Bool.and_eq_true] at h
    rw [List.getLast?_cons_cons] at h0
    have e : joinNl (s :: t :: r) = s.toList ++ '\n' :: joinNl (t :: r) := by rw [joinNl]; simp
    rw [e] at hl ⊢
    have ih := gen_joinNl hB (t :: r) h0 (by simp) h.2 (by rw [List.length_append, List.length_cons] at hl; omega)
    exact (gen_fixed hB h.1).nl ih (fixedOk_nl h.1) (joinNl_ne h0) hl

/-! ### The sign extension helper -/

def extLines : List String :=
  ["// This function performs extension of sign for the signals",
   "// whose bit width value is not aligned to one of power of 2 or less than 8.",
   "// The types 'bitext_t' and 'ubitext_t' define the biggest bit width which",
   "// can be correctly handled. You need to select type which can contain",
   "// n+1 bits where n is the largest signed signal width. For example if",
   "// the most wide signed signal has a width of 31 bits you need to set",
   "// bitext_t as int32_t and ubitext_t as uint32_t",
   "// Defined these typedefs in @dbccodeconf.h or locally in 'dbcdrvname'-config.h",
   "static bitext_t __ext_sig__(ubitext_t val, uint8_t bits)",
   "{",
   "  ubitext_t const m = (ubitext_t) (1u << (bits - 1u));",
   "  return ((val ^ m) - m);",
   "}",
   ""]

theorem extSigText_eq : extSigText = joinE extLines := by
  unfold extSigText
  simp only [String.toList_append]
  decide +kernel

def extToks : List Tok :=
  [.word "static".toList, .word "bitext_t".toList, .word "__ext_sig__".toList, .p ['('], .word "ubitext_t".toList, .word "val".toList,
    .p [','], .word "uint8_t".toList, .word "bits".toList, .p [')'], .p ['{'], .word "ubitext_t".toList, .word "const".toList, .word "m".toList, .p ['='],
    .p ['('], .word "ubitext_t".toList, .p [')'], .p ['('], .word "1u".toList, .p ['<', '<'], .p ['('], .word "bits".toList, .p ['-'], .word "1u".toList,
    .p [')'], .p [')'], .p [';'], .word "return".toList, .p ['('], .p ['('], .word "val".toList, .p ['^'], .word "m".toList, .p [')'], .p ['-'], .word "m".toList,
    .p [')'], .p [';'], .p ['}']]

theorem ext_parse (r : List Tok) (k : Nat) : parseItem (k + 60) (extToks ++ r) = some (.func extFunc, r) := rfl

theorem ext_read (hB : Base D) : GItems files [.appendF extSigText] D D [.func extFunc] := by
  refine ⟨extToks, ?_, PItems.one (by decide) fun r => ⟨60, fun f hf => ?_⟩⟩
  · rw [extSigText_eq]
    exact (gen_joinE hB extLines (by decide) (by decide +kernel) (by decide +kernel)).eq (by decide +kernel)
  · obtain ⟨k, rfl⟩ : ∃ k, f = k + 60 := ⟨f - 60, by omega⟩
    exact ext_parse r k

end Verif
