import Verif.Spec.CSyntax
import Verif.Proofs.Digits
/-
Rules for the lexer and the expression parser.
-/
namespace Verif
open Verif.Spec

/-! ### Lexer -/

theorem lexGo_step (c : Char) (r cur : Str) :
    lexGo (c :: r) cur =
      if isWordCh c || (c == '.' && inNumber cur) then lexGo r (cur ++ [c])
      else if isBlankCh c then flushWord cur (lexGo r [])
      else
        match r with
        | d :: r' => if twoCh c d then flushWord cur (.p [c, d] :: lexGo r' []) else flushWord cur (.p [c] :: lexGo r [])
        | [] => flushWord cur [.p [c]] := by
  cases r with
  | nil =>
    unfold lexGo
    split
    · simp [lexGo, flushWord]
    · split
      · simp [lexGo, flushWord]
      · rfl
  | cons d r => rw [lexGo]

/-- A separator: what may follow a word. -/
def sepCh (c : Char) : Bool := !(isWordCh c || c == '.')

/-- The text begins with a separator, or is empty. -/
def SepHead : Str → Prop
  | [] => True
  | c :: _ => sepCh c = true

theorem lexGo_flush {rest cur : Str} (h : SepHead rest) : lexGo rest cur = flushWord cur (lexGo rest []) := by
  cases rest with
  | nil => simp [lexGo, flushWord]
  | cons c r =>
    have hc : isWordCh c = false ∧ (c == '.') = false := by
      simpa [SepHead, sepCh] using h
    rw [lexGo_step, lexGo_step]
    simp only [hc.1, hc.2, Bool.false_and, Bool.or_false, Bool.false_eq_true, if_false]
    split
    · simp [flushWord]
    · cases r with
      | nil => simp [flushWord]
      | cons d r => dsimp only; split <;> simp [flushWord]

theorem lexGo_wordAux (w rest cur : Str) (hw : ∀ c ∈ w, isWordCh c = true) (h : SepHead rest) :
    lexGo (w ++ rest) cur = flushWord (cur ++ w) (lexGo rest []) := by
  induction w generalizing cur with
  | nil => simpa using lexGo_flush h
  | cons c w ih =>
    rw [List.cons_append, lexGo_step, if_pos (by simp [hw c (by simp)]), ih _ (fun x hx => hw x (by simp [hx]))]
    simp

theorem lex_word {w rest : Str} (hw : ∀ c ∈ w, isWordCh c = true) (h0 : w ≠ []) (h : SepHead rest) :
    lex (w ++ rest) = .word w :: lex rest := by
  show lexGo _ [] = _
  rw [lexGo_wordAux w rest [] hw h]
  simp [flushWord, h0, lex]

theorem lex_blank (r : Str) : lex (' ' :: r) = lex r := by
  show lexGo _ [] = _
  rw [lexGo_step]
  simp [isWordCh, isBlankCh, flushWord, lex]

/-- A punctuator of one character that never starts one of two characters. -/
def soloCh (c : Char) : Bool := ['(', ')', '[', ']', ';', ',', '{', '}'].contains c

theorem lex_solo {c : Char} (h : soloCh c = true) (r : Str) : lex (c :: r) = .p [c] :: lex r := by
  have hc : c = '(' ∨ c = ')' ∨ c = '[' ∨ c = ']' ∨ c = ';' ∨ c = ',' ∨ c = '{' ∨ c = '}' := by
    simpa [soloCh] using h
  show lexGo _ [] = _
  rw [lexGo_step]
  rcases hc with rfl | rfl | rfl | rfl | rfl | rfl | rfl | rfl <;>
  · cases r with
    | nil => rfl
    | cons d r => simp [isWordCh, isBlankCh, flushWord, lex, twoCh]

theorem lex_two {c d : Char} (h : twoCh c d = true) (hc : isWordCh c = false ∧ isBlankCh c = false ∧ c ≠ '.') (r : Str) :
    lex (c :: d :: r) = .p [c, d] :: lex r := by
  show lexGo _ [] = _
  rw [lexGo_step]
  simp [hc, h, flushWord, lex]

/-- An operator character followed by a blank. -/
theorem lex_one {c : Char} (hc : isWordCh c = false ∧ isBlankCh c = false ∧ c ≠ '.') (h : twoCh c ' ' = false) (r : Str) :
    lex (c :: ' ' :: r) = .p [c] :: lex r := by
  show lexGo _ [] = _
  rw [lexGo_step]
  have e := lex_blank r
  unfold lex at e
  simp [hc, h, flushWord, e, lex]

/-! ### Parser -/

/-- The parser reads `x` from `ts`, given enough fuel. -/
def Parses (m : PMode) (ts : List Tok) (x : PExpr × List Tok) : Prop := ∃ f, parseGo f m ts = some x

theorem parseGo_mono {f : Nat} {m : PMode} {ts : List Tok} {x} (h : parseGo f m ts = some x) :
    ∀ g, f ≤ g → parseGo g m ts = some x := by
  induction f generalizing m ts x with
  | zero => simp [parseGo] at h
  | succ f ih =>
    intro g hg
    obtain ⟨g, rfl⟩ : ∃ k, g = k + 1 := ⟨g - 1, by omega⟩
    have hg' : f ≤ g := by omega
    have key : ∀ {m ts y}, parseGo f m ts = y → y ≠ none → parseGo g m ts = y := by
      intro m ts y h1 h2
      cases y with
      | none => exact absurd rfl h2
      | some y => exact ih h1 g hg'
    match m with
    | .at 0 =>
      unfold parseGo at h ⊢
      split at h
      · rename_i w r
        split at h
        · rename_i ht
          rw [if_pos ht]
          split at h
          · rename_i a r' hr
            rw [key hr (by simp)]
            exact h
          · cases h
        · rename_i ht
          rw [if_neg ht]
          exact key h (by simp)
      · split at h
        · rename_i a r' hr
          rw [key hr (by simp)]
          exact key h (by simp)
        · cases h
      · split at h
        · rename_i a r' hr
          rw [key hr (by simp)]
          exact h
        · cases h
      · split at h
        · rename_i a r' hr
          rw [key hr (by simp)]
          exact h
        · cases h
      · split at h
        · rename_i a r' hr
          rw [key hr (by simp)]
          exact h
        · cases h
      · exact key h (by simp)
      · cases h
    | .at (lv + 1) =>
      unfold parseGo at h ⊢
      split at h
      · rename_i a r hr
        rw [key hr (by simp)]
        exact key h (by simp)
      · cases h
    | .more lv acc =>
      unfold parseGo at h ⊢
      split at h
      · rename_i op r
        split at h
        · rename_i ho
          rw [if_pos ho]
          split at h
          · rename_i hq
            rw [if_pos hq]
            split at h
            · rename_i b r' hr
              rw [key hr (by simp)]
              split at h
              · rename_i c r'' hr'
                simp only [key hr' (by simp)]
                exact h
              · cases h
            · cases h
          · rename_i hq
            rw [if_neg hq]
            split at h
            · rename_i ha
              rw [if_pos ha]
              split at h
              · rename_i b r' hr
                rw [key hr (by simp)]
                exact h
              · cases h
            · rename_i ha
              rw [if_neg ha]
              split at h
              · rename_i b r' hr
                rw [key hr (by simp)]
                exact key h (by simp)
              · cases h
        · rename_i ho
          rw [if_neg ho]
          exact h
      · exact h
    | .post acc =>
      unfold parseGo at h ⊢
      split at h
      · split at h
        · rename_i a r' hr
          rw [key hr (by simp)]
          exact key h (by simp)
        · cases h
      · exact key h (by simp)
      · exact key h (by simp)
      · exact key h (by simp)
      · exact key h (by simp)
      · split at h
        · rename_i a r' hr
          rw [key hr (by simp)]
          exact key h (by simp)
        · cases h
      · exact h

theorem Parses.both {m n : PMode} {ts us : List Tok} {x y} (h1 : Parses m ts x) (h2 : Parses n us y) :
    ∃ f, parseGo f m ts = some x ∧ parseGo f n us = some y := by
  obtain ⟨f, h1⟩ := h1
  obtain ⟨g, h2⟩ := h2
  exact ⟨max f g, parseGo_mono h1 _ (by omega), parseGo_mono h2 _ (by omega)⟩

/-- The parser is deterministic. -/
theorem Parses.det {m : PMode} {ts : List Tok} {x y} (h1 : Parses m ts x) (h2 : Parses m ts y) : x = y := by
  obtain ⟨f, h1, h2⟩ := h1.both h2
  rw [h1] at h2
  exact Option.some.inj h2

/-- No operator of level `k` at the head. -/
def NoOp (k : Nat) (r : List Tok) : Prop := ∀ op r', r = .p op :: r' → opLevel op ≠ some k

theorem Parses.more_stop {lv : Nat} {acc : PExpr} {r : List Tok} (h : NoOp lv r) : Parses (.more lv acc) r (acc, r) := by
  refine ⟨1, ?_⟩
  unfold parseGo
  split
  · rename_i op r'
    rw [if_neg (h op r' rfl)]
  · rfl

theorem Parses.more_step {lv : Nat} {acc b : PExpr} {op : Str} {r r' : List Tok} {x} (ho : opLevel op = some lv)
    (h1 : Parses (.at (lv - 1)) r (b, r')) (h2 : Parses (.more lv (.bin op acc b)) r' x)
    (hq : op ≠ ['?'] := by decide) (ha : isAssign op = false := by decide) :
    Parses (.more lv acc) (.p op :: r) x := by
  obtain ⟨f, h1, h2⟩ := h1.both h2
  refine ⟨f + 1, ?_⟩
  unfold parseGo
  simp only [ho, if_true, hq, if_false, ha, Bool.false_eq_true, h1, h2]

theorem Parses.assignE {acc b : PExpr} {op : Str} {r r' : List Tok} (ha : isAssign op = true) (h1 : Parses (.at 12) r (b, r')) :
    Parses (.more 12 acc) (.p op :: r) (.assign op acc b, r') := by
  obtain ⟨f, h1⟩ := h1
  refine ⟨f + 1, ?_⟩
  have ho : opLevel op = some 12 ∧ op ≠ ['?'] := by
    have e : op = ['='] ∨ op = ['|', '='] := by simpa [isAssign] using ha
    rcases e with rfl | rfl <;> decide
  unfold parseGo
  simp only [ho.1, if_true, ho.2, if_false, ha, h1]

theorem Parses.condE {acc b c : PExpr} {r r' r'' : List Tok} (h1 : Parses (.at topLevel) r (b, .p [':'] :: r'))
    (h2 : Parses (.at 11) r' (c, r'')) : Parses (.more 11 acc) (.p ['?'] :: r) (.cond acc b c, r'') := by
  obtain ⟨f, h1, h2⟩ := h1.both h2
  refine ⟨f + 1, ?_⟩
  unfold parseGo
  simp only [show opLevel ['?'] = some 11 by decide, if_true, h1, h2]

theorem Parses.up {lv : Nat} {a : PExpr} {ts r : List Tok} {x} (h1 : Parses (.at lv) ts (a, r)) (h2 : Parses (.more (lv + 1) a) r x) :
    Parses (.at (lv + 1)) ts x := by
  obtain ⟨f, h1, h2⟩ := h1.both h2
  refine ⟨f + 1, ?_⟩
  unfold parseGo
  simp only [h1, h2]

theorem Parses.climb {lv : Nat} {a : PExpr} {ts r : List Tok} (h : Parses (.at lv) ts (a, r)) (hi : Nat) (hle : lv ≤ hi)
    (hn : ∀ k, lv < k → k ≤ hi → NoOp k r) : Parses (.at hi) ts (a, r) := by
  induction hi with
  | zero =>
    obtain rfl : lv = 0 := by omega
    exact h
  | succ hi ih =>
    rcases Nat.eq_or_lt_of_le hle with e | e
    · exact e ▸ h
    · exact (ih (by omega) (fun k h1 h2 => hn k h1 (by omega))).up (Parses.more_stop (hn _ (by omega) (Nat.le_refl _)))

theorem Parses.paren {a : PExpr} {r r' : List Tok} {x} (hne : ∀ w r'', r ≠ .word w :: .p [')'] :: r'')
    (h1 : Parses (.at topLevel) r (a, .p [')'] :: r')) (h2 : Parses (.post a) r' x) : Parses (.at 0) (.p ['('] :: r) x := by
  obtain ⟨f, h1, h2⟩ := h1.both h2
  refine ⟨f + 1, ?_⟩
  unfold parseGo
  split
  · rename_i w r'' e
    injection e with e1 e2
    exact absurd e2 (hne _ _)
  · rename_i r'' hx e
    injection e with e1 e2
    subst e2
    simp only [h1, h2]
  all_goals simp_all

theorem Parses.parenWord {w : Str} {r : List Tok} {x} (ht : isType w = false)
    (h2 : Parses (.post (if inNumber w then .num w else .id w)) r x) : Parses (.at 0) (.p ['('] :: .word w :: .p [')'] :: r) x := by
  obtain ⟨f, h2⟩ := h2
  refine ⟨f + 1, ?_⟩
  unfold parseGo
  simp only [ht, h2, Bool.false_eq_true, if_false]

theorem Parses.castE {w : Str} {a : PExpr} {r r' : List Tok} (ht : isType w = true) (h : Parses (.at 0) r (a, r')) :
    Parses (.at 0) (.p ['('] :: .word w :: .p [')'] :: r) (.cast w a, r') := by
  obtain ⟨f, h⟩ := h
  refine ⟨f + 1, ?_⟩
  unfold parseGo
  simp only [ht, h, if_true]

theorem Parses.wordE {w : Str} {r : List Tok} {x} (h : Parses (.post (if inNumber w then .num w else .id w)) r x) :
    Parses (.at 0) (.word w :: r) x := by
  obtain ⟨f, h⟩ := h
  refine ⟨f + 1, ?_⟩
  unfold parseGo
  simp only [h]

/-- No postfix operator at the head. -/
def NoPost (r : List Tok) : Prop := ∀ op r', r = .p op :: r' → op ≠ ['['] ∧ op ≠ ['-', '>'] ∧ op ≠ ['.'] ∧ op ≠ ['('] ∧ op ≠ ['+', '+']

theorem Parses.post_stop {acc : PExpr} {r : List Tok} (h : NoPost r) : Parses (.post acc) r (acc, r) := by
  refine ⟨1, ?_⟩
  unfold parseGo
  split
  · exact absurd rfl (h _ _ rfl).1
  · exact absurd rfl (h _ _ rfl).2.1
  · exact absurd rfl (h _ _ rfl).2.2.1
  · exact absurd rfl (h _ _ rfl).2.2.2.2
  · exact absurd rfl (h _ _ rfl).2.2.2.1
  · exact absurd rfl (h _ _ rfl).2.2.2.1
  · rfl

theorem Parses.indexE {acc i : PExpr} {r r' : List Tok} {x} (h1 : Parses (.at topLevel) r (i, .p [']'] :: r'))
    (h2 : Parses (.post (.index acc i)) r' x) : Parses (.post acc) (.p ['['] :: r) x := by
  obtain ⟨f, h1, h2⟩ := h1.both h2
  refine ⟨f + 1, ?_⟩
  unfold parseGo
  simp only [h1, h2]

theorem Parses.arrowE {acc : PExpr} {w : Str} {r : List Tok} {x} (h : Parses (.post (.arrow acc w)) r x) :
    Parses (.post acc) (.p ['-', '>'] :: .word w :: r) x := by
  obtain ⟨f, h⟩ := h
  refine ⟨f + 1, ?_⟩
  unfold parseGo
  simp only [h]

theorem noOp_nil (k : Nat) : NoOp k [] := by
  intro op r h
  cases h

theorem noOp_cons {k : Nat} {op : Str} (h : opLevel op ≠ some k) (r : List Tok) : NoOp k (.p op :: r) := by
  intro op' r' e
  injection e with e1 e2
  injection e1 with e1
  exact e1 ▸ h

theorem noOp_word {k : Nat} {w : Str} (r : List Tok) : NoOp k (.word w :: r) := by
  intro op' r' e
  injection e with e1 e2
  cases e1

theorem noPost_nil : NoPost [] := by
  intro op r h
  cases h

theorem noPost_cons {op : Str} (h : op ≠ ['['] ∧ op ≠ ['-', '>'] ∧ op ≠ ['.'] ∧ op ≠ ['('] ∧ op ≠ ['+', '+']) (r : List Tok) : NoPost (.p op :: r) := by
  intro op' r' e
  injection e with e1 e2
  injection e1 with e1
  exact e1 ▸ h

theorem noPost_word {w : Str} (r : List Tok) : NoPost (.word w :: r) := by
  intro op' r' e
  injection e with e1 e2
  cases e1

theorem opLevel_close : opLevel [')'] = none := by decide

theorem noOp_close (k : Nat) (r : List Tok) : NoOp k (.p [')'] :: r) := noOp_cons (by rw [opLevel_close]; simp) r

/-- `a op b` at the level of the operator, followed by something that is no operator of any level. -/
theorem Parses.binE {op : Str} {lv : Nat} {A B : PExpr} {ts us r : List Tok} (ho : opLevel op = some (lv + 1))
    (h1 : Parses (.at 0) ts (A, .p op :: us)) (h2 : Parses (.at 0) us (B, r)) (hr : ∀ k, NoOp k r)
    (hq : op ≠ ['?'] := by decide) (ha : isAssign op = false := by decide) :
    Parses (.at (lv + 1)) ts (.bin op A B, r) := by
  have h1' : Parses (.at lv) ts (A, .p op :: us) := h1.climb lv (by omega) fun k _ h => noOp_cons (by
    rw [ho]
    intro e
    injection e with e
    omega) us
  have h2' : Parses (.at lv) us (B, r) := h2.climb lv (by omega) fun k _ _ => hr k
  exact h1'.up (Parses.more_step ho h2' (Parses.more_stop (hr _)) hq ha)

/-- `(a op b)` -/
theorem Parses.binParen {op : Str} {lv : Nat} {A B : PExpr} {ts us r : List Tok} {x} (ho : opLevel op = some (lv + 1)) (hl : lv + 1 ≤ topLevel)
    (hne : ∀ w r'', ts ≠ .word w :: .p [')'] :: r'')
    (h1 : Parses (.at 0) ts (A, .p op :: us)) (h2 : Parses (.at 0) us (B, .p [')'] :: r)) (h3 : Parses (.post (.bin op A B)) r x)
    (hq : op ≠ ['?'] := by decide) (ha : isAssign op = false := by decide) :
    Parses (.at 0) (.p ['('] :: ts) x :=
  Parses.paren hne ((Parses.binE ho h1 h2 (fun k => noOp_close k r) hq ha).climb topLevel hl fun k _ _ => noOp_close k r) h3

end Verif
