import Verif.Proofs.CPre
/-
Lines made of literal pieces and names: their tokens; macro replacement in them.
-/
namespace Verif
open Verif.Spec

/-! ### Lines from pieces -/

/-- A piece of a line: literal text, a name, or text with known tokens. -/
inductive Seg where
  | l (s : String)
  | w (n : Str)
  | e (t : Str) (ts : List Tok)

def Seg.text : Seg → Str
  | .l s => s.toList
  | .w n => n
  | .e t _ => t

def Seg.toks : Seg → List Tok
  | .l s => lex s.toList
  | .w n => [.word n]
  | .e _ ts => ts

def segText : List Seg → Str
  | [] => []
  | s :: r => s.text ++ segText r

def segToks : List Seg → List Tok
  | [] => []
  | s :: r => s.toks ++ segToks r

/-- Whether the first character is no part of a word. -/
def sepHeadB : List Seg → Bool
  | [] => true
  | .l s :: r => match s.toList with
    | [] => sepHeadB r
    | c :: _ => sepCh c
  | .w _ :: _ => false
  | .e _ _ :: _ => false

/-- Whether the first piece is a name. -/
def headW : List Seg → Bool
  | .w _ :: _ => true
  | _ => false

/-- Whether the text ends with a character after which a token ends in any case. -/
def endSolo (s : Str) : Bool := match s.getLast? with
  | some c => isBlankCh c || soloCh c
  | none => false

/-- Whether the text ends with a character that is no part of a word. -/
def endSep (s : Str) : Bool := match s.getLast? with
  | some c => sepCh c
  | none => false

/-- The pieces do not share tokens. -/
def segsB : List Seg → Bool
  | [] => true
  | .l s :: r => (endSolo s.toList || (endSep s.toList && headW r)) && segsB r
  | _ :: r => sepHeadB r && segsB r

/-- The characters of a word. -/
def IsWord (w : Str) : Prop := w ≠ [] ∧ ∀ c ∈ w, isWordCh c = true

/-- The names are words, the texts have the tokens. -/
def SegsW : List Seg → Prop
  | [] => True
  | .l _ :: r => SegsW r
  | .w w :: r => IsWord w ∧ SegsW r
  | .e t ts :: r => (∀ x, SepHead x → lex (t ++ x) = ts ++ lex x) ∧ SegsW r

theorem flushWord_append (cur : Str) (a b : List Tok) : flushWord cur (a ++ b) = flushWord cur a ++ b := by
  unfold flushWord
  split <;> simp

theorem twoCh_word {c d : Char} (h : isWordCh d = true) : twoCh c d = false := by
  rw [Bool.eq_false_iff]
  intro e
  have h1 : (c, d) ∈ ([('-', '>'), ('+', '+'), ('-', '-'), ('<', '<'), ('>', '>'), ('<', '='), ('>', '='), ('=', '='), ('!', '='), ('&', '&'), ('|', '|'),
   ('*', '='), ('/', '='), ('%', '='), ('+', '='), ('-', '='), ('&', '='), ('^', '='), ('|', '='), ('#', '#')] : List (Char × Char)) := by
    simpa [twoCh, List.contains_iff_mem] using e
  have h2 : ∀ p ∈ ([('-', '>'), ('+', '+'), ('-', '-'), ('<', '<'), ('>', '>'), ('<', '='), ('>', '='), ('=', '='), ('!', '='), ('&', '&'), ('|', '|'),
   ('*', '='), ('/', '='), ('%', '='), ('+', '='), ('-', '='), ('&', '='), ('^', '='), ('|', '='), ('#', '#')] : List (Char × Char)),
      isWordCh p.2 = false := by decide
  have := h2 _ h1
  rw [h] at this
  cases this

theorem twoCh_solo {c d : Char} (h : soloCh c = true) : twoCh c d = false := by
  have hc : c = '(' ∨ c = ')' ∨ c = '[' ∨ c = ']' ∨ c = ';' ∨ c = ',' ∨ c = '{' ∨ c = '}' := by
    simpa [soloCh] using h
  rcases hc with rfl | rfl | rfl | rfl | rfl | rfl | rfl | rfl <;> simp [twoCh]

theorem sepCh_parts {c : Char} (h : sepCh c = true) : isWordCh c = false ∧ (c == '.') = false := by
  simpa [sepCh] using h

theorem soloBlank_sep {c : Char} (h : (isBlankCh c || soloCh c) = true) : sepCh c = true := by
  rcases Bool.or_eq_true_iff.mp h with h | h
  · rcases Bool.or_eq_true_iff.mp h with h | h
    · rw [beq_iff_eq.mp h]
      decide
    · simp only [Bool.and_eq_true, decide_eq_true_eq] at h
      have h0 : c ≠ '_' ∧ c ≠ '.' := ⟨by rintro rfl; revert h; decide, by rintro rfl; revert h; decide⟩
      simp [sepCh, isWordCh, h0]
      omega
  · have hc : c = '(' ∨ c = ')' ∨ c = '[' ∨ c = ']' ∨ c = ';' ∨ c = ',' ∨ c = '{' ∨ c = '}' := by
      simpa [soloCh] using h
    rcases hc with rfl | rfl | rfl | rfl | rfl | rfl | rfl | rfl <;> decide

/-- The last token of `s` ends with `s`. -/
def CleanEnd (s rest : Str) : Prop :=
  ∃ c, s.getLast? = some c ∧ sepCh c = true ∧ (isBlankCh c = true ∨ ∀ d r, rest = d :: r → twoCh c d = false)

theorem lexGo_append (s rest cur : Str) (h : CleanEnd s rest) : lexGo (s ++ rest) cur = lexGo s cur ++ lexGo rest [] := by
  obtain ⟨n, hn⟩ : ∃ n, s.length ≤ n := ⟨_, Nat.le_refl _⟩
  induction n generalizing s cur with
  | zero =>
    obtain ⟨c, hc, _⟩ := h
    have : s = [] := List.eq_nil_of_length_eq_zero (by omega)
    rw [this] at hc
    cases hc
  | succ n ih =>
    obtain ⟨e, he, h1, h2⟩ := h
    match s, hn with
    | [], _ => cases he
    | [c], _ =>
      have : c = e := by simpa using he
      subst this
      have hp := sepCh_parts h1
      rw [List.singleton_append, lexGo_step, lexGo_step]
      simp only [hp.1, hp.2, Bool.false_and, Bool.or_false, Bool.false_eq_true, if_false]
      by_cases hb : isBlankCh c = true
      · rw [if_pos hb, if_pos hb]
        simp [lexGo, flushWord]
        split <;> simp
      · rw [if_neg hb, if_neg hb]
        cases rest with
        | nil => simp [lexGo, flushWord]
        | cons d r =>
          have := h2.resolve_left hb d r rfl
          simp only [this, Bool.false_eq_true, if_false]
          rw [← flushWord_append]
          rfl
    | c :: d :: r, hn =>
      have he' : (d :: r).getLast? = some e := by simpa using he
      rw [List.cons_append, lexGo_step, lexGo_step (r := d :: r)]
      split
      · exact ih (d :: r) _ ⟨e, he', h1, h2⟩ (by simpa using hn)
      · split
        · rw [ih (d :: r) _ ⟨e, he', h1, h2⟩ (by simpa using hn), flushWord_append]
        · simp only [List.cons_append]
          split
          · rw [← flushWord_append, List.cons_append]
            cases r with
            | nil => rfl
            | cons x r =>
              rw [ih (x :: r) _ ⟨e, by simpa using he', h1, h2⟩ (by simp at hn ⊢; omega)]
          · have := ih (d :: r) [] ⟨e, he', h1, h2⟩ (by simpa using hn)
            rw [List.cons_append] at this
            rw [this, ← flushWord_append]
            rfl

theorem lex_seg {s rest : Str} (h : CleanEnd s rest) : lex (s ++ rest) = lex s ++ lex rest := lexGo_append s rest [] h

theorem sepHead_segs {l : List Seg} (h : sepHeadB l = true) : SepHead (segText l) := by
  induction l with
  | nil => trivial
  | cons s r ih =>
    cases s with
    | l s =>
      simp only [sepHeadB] at h
      show SepHead (s.toList ++ segText r)
      cases hs : s.toList with
      | nil => rw [hs] at h; exact ih h
      | cons c t => rw [hs] at h; exact h
    | w w => cases h
    | e t ts => cases h

/-- The tokens of a line. -/
theorem lex_segs (l : List Seg) (hb : segsB l = true) (hw : SegsW l) : lex (segText l) = segToks l := by
  induction l with
  | nil => rfl
  | cons s r ih =>
    cases s with
    | l s =>
      simp only [segsB, Bool.and_eq_true, Bool.or_eq_true] at hb
      show lex (s.toList ++ segText r) = lex s.toList ++ segToks r
      rw [lex_seg, ih hb.2 hw]
      rcases hb.1 with h | ⟨h, h'⟩
      · unfold endSolo at h
        split at h
        · rename_i c hc
          refine ⟨c, hc, soloBlank_sep h, ?_⟩
          rcases Bool.or_eq_true_iff.mp h with h | h
          · exact .inl h
          · exact .inr fun d r _ => twoCh_solo h
        · cases h
      · unfold endSep at h
        split at h
        · rename_i c hc
          refine ⟨c, hc, h, .inr ?_⟩
          intro d q hd
          cases r with
          | nil => cases h'
          | cons s r =>
            cases s with
            | l s => cases h'
            | e t ts => cases h'
            | w w =>
              have hw1 : IsWord w := hw.1
              have : segText (.w w :: r) = w ++ segText r := rfl
              rw [this] at hd
              cases w with
              | nil => exact absurd rfl hw1.1
              | cons x w =>
                rw [List.cons_append] at hd
                cases hd
                exact twoCh_word (hw1.2 _ (by simp))
        · cases h
    | w w =>
      simp only [segsB, Bool.and_eq_true] at hb
      show lex (w ++ segText r) = .word w :: segToks r
      rw [lex_word hw.1.2 hw.1.1 (sepHead_segs hb.1), ih hb.2 hw.2]
    | e t ts =>
      simp only [segsB, Bool.and_eq_true] at hb
      show lex (t ++ segText r) = ts ++ segToks r
      rw [hw.1 _ (sepHead_segs hb.1), ih hb.2 hw.2]

/-! ### Plain lines -/

/-- The literal pieces are plain text. -/
def litsPlain : List Seg → Bool
  | [] => true
  | .l s :: r => s.toList.all plainCh && litsPlain r
  | _ :: r => litsPlain r

/-- The texts with known tokens are plain. -/
def TextsPlain : List Seg → Prop
  | [] => True
  | .e t _ :: r => PlainT t ∧ TextsPlain r
  | _ :: r => TextsPlain r

theorem plain_segs {l : List Seg} (h1 : litsPlain l = true) (h2 : SegsW l) (h3 : TextsPlain l) : PlainT (segText l) := by
  induction l with
  | nil => exact plainT_nil
  | cons s r ih =>
    cases s with
    | l s =>
      simp only [litsPlain, Bool.and_eq_true] at h1
      exact PlainT.append (fun c hc => List.all_eq_true.mp h1.1 c hc) (ih h1.2 h2 h3)
    | w w => exact PlainT.append (plainT_word h2.1.2) (ih h1 h2.2 h3)
    | e t ts => exact PlainT.append h3.1 (ih h1 h2.2 h3.2)

/-- The first character that is no blank is in the first piece and is no `#`, or a name follows. -/
def noHash : List Seg → Bool
  | .l s :: r => match s.toList.dropWhile isBlankCh with
    | c :: _ => c != '#'
    | [] => headW r
  | .w _ :: _ => true
  | _ => false

theorem dropWhile_append_of_ne {p : Char → Bool} {a b : Str} {c : Char} {r : Str} (h : a.dropWhile p = c :: r) :
    (a ++ b).dropWhile p = c :: (r ++ b) := by
  induction a with
  | nil => cases h
  | cons x a ih =>
    rw [List.cons_append, List.dropWhile_cons]
    rw [List.dropWhile_cons] at h
    split
    · rename_i hx
      rw [if_pos hx] at h
      exact ih h
    · rename_i hx
      rw [if_neg hx] at h
      injection h with h1 h2
      rw [h1, h2]

theorem not_blank_word {c : Char} (h : isWordCh c = true) : isBlankCh c = false := by
  rw [Bool.eq_false_iff]
  intro hb
  have := soloBlank_sep (c := c) (by simp [hb])
  have := (sepCh_parts this).1
  rw [h] at this
  cases this

theorem dropWhile_append_nil {p : Char → Bool} {a b : Str} (h : a.dropWhile p = []) : (a ++ b).dropWhile p = b.dropWhile p := by
  induction a with
  | nil => rfl
  | cons x a ih =>
    rw [List.dropWhile_cons] at h
    rw [List.cons_append, List.dropWhile_cons]
    split
    · rename_i hx
      rw [if_pos hx] at h
      exact ih h
    · rename_i hx
      rw [if_neg hx] at h
      cases h

theorem notDir_word {w : Str} (hw1 : IsWord w) {q r : Str} (e' : (w ++ q).dropWhile isBlankCh = '#' :: r) : False := by
  cases w with
  | nil => exact absurd rfl hw1.1
  | cons x w =>
    have hx := hw1.2 x (by simp)
    rw [List.cons_append, List.dropWhile_cons, if_neg (by rw [not_blank_word hx]; simp)] at e'
    injection e' with e1 e2
    subst e1
    revert hx
    decide

theorem notDir_segs {l : List Seg} (h : noHash l = true) (hw : SegsW l) : NotDir (segText l) := by
  intro r e
  unfold dropBlank at e
  cases l with
  | nil => cases h
  | cons s q =>
    cases s with
    | e t ts => cases h
    | l s =>
      have e' : (s.toList ++ segText q).dropWhile isBlankCh = '#' :: r := e
      simp only [noHash] at h
      cases hs : s.toList.dropWhile isBlankCh with
      | nil =>
        rw [hs] at h
        rw [dropWhile_append_nil hs] at e'
        match q, h, hw with
        | .w w :: q, _, hw => exact notDir_word hw.1 e'
      | cons c t =>
        rw [dropWhile_append_of_ne hs] at e'
        rw [hs] at h
        injection e' with e1 e2
        subst e1
        simp at h
    | w w =>
      have e' : (w ++ segText q).dropWhile isBlankCh = '#' :: r := e
      exact notDir_word hw.1 e'

/-- Length: literal pieces, and at most `k` for a name. -/
def segLen (k : Nat) : List Seg → Nat
  | [] => 0
  | .l s :: r => s.toList.length + segLen k r
  | .w _ :: r => k + segLen k r
  | .e t _ :: r => t.length + segLen k r

/-- Names have at most `k` characters. -/
def SegsShort (k : Nat) : List Seg → Prop
  | [] => True
  | .w w :: r => w.length ≤ k ∧ SegsShort k r
  | _ :: r => SegsShort k r

theorem length_segs {k : Nat} {l : List Seg} (h : SegsShort k l) : (segText l).length ≤ segLen k l := by
  induction l with
  | nil => exact Nat.le_refl _
  | cons s r ih =>
    cases s with
    | l s =>
      have := ih h
      show (s.toList ++ segText r).length ≤ s.toList.length + segLen k r
      rw [List.length_append]
      omega
    | w w =>
      have := ih h.2
      have := h.1
      show (w ++ segText r).length ≤ k + segLen k r
      rw [List.length_append]
      omega
    | e t ts =>
      have := ih h
      show (t ++ segText r).length ≤ t.length + segLen k r
      rw [List.length_append]
      omega

/-! ### Macro replacement -/

/-- The tokens are replaced independently of what is behind them. -/
def ExpP (ds : Defs) (hide : List Str) (a a' : List Tok) : Prop :=
  ∀ r r', Exp ds hide r r' → Exp ds hide (a ++ r) (a' ++ r')

variable {ds : Defs} {hide : List Str}

theorem ExpP.nil : ExpP ds hide [] [] := fun _ _ h => h

theorem ExpP.append {a a' b b' : List Tok} (h1 : ExpP ds hide a a') (h2 : ExpP ds hide b b') : ExpP ds hide (a ++ b) (a' ++ b') := by
  intro r r' h
  rw [List.append_assoc, List.append_assoc]
  exact h1 _ _ (h2 _ _ h)

theorem ExpP.exp {a a' : List Tok} (h : ExpP ds hide a a') : Exp ds hide a a' := by
  have := h [] [] (Exp.nil _ _)
  simpa using this

theorem Exp.succ {ts us : List Tok} (F : Nat) (h : ∀ f, F ≤ f → expand (f + 1) ds hide ts = some us) : Exp ds hide ts us :=
  ⟨F + 1, fun f hf => by
    obtain ⟨k, rfl⟩ : ∃ k, f = k + 1 := ⟨f - 1, by omega⟩
    exact h k (by omega)⟩

theorem ExpP.punct (s : Str) : ExpP ds hide [.p s] [.p s] := by
  rintro r r' ⟨F, h⟩
  refine Exp.succ F fun f hf => ?_
  show expand (f + 1) ds hide (.p s :: r) = _
  rw [expand, h f hf]
  rfl

/-- The word is not replaced. -/
def NoMac (ds : Defs) (hide : List Str) (w : Str) : Prop := hide.contains w = true ∨ ds.lookup w = none

theorem ExpP.word {w : Str} (hw : NoMac ds hide w) : ExpP ds hide [.word w] [.word w] := by
  rintro r r' ⟨F, h⟩
  refine Exp.succ F fun f hf => ?_
  show expand (f + 1) ds hide (.word w :: r) = _
  have e : (if hide.contains w = true then none else ds.lookup w) = none := by
    rcases hw with h | h
    · rw [if_pos h]
    · rw [h]; simp
  rw [expand]
  simp only [e, h f hf]
  rfl

theorem ExpP.obj {w : Str} {body us : List Tok} (hh : hide.contains w = false) (hw : ds.lookup w = some (.obj body))
    (hb : Exp ds (w :: hide) body us) : ExpP ds hide [.word w] us := by
  rintro r r' ⟨F, h⟩
  obtain ⟨G, hb⟩ := hb
  refine Exp.succ (F + G) fun f hf => ?_
  show expand (f + 1) ds hide (.word w :: r) = _
  rw [expand]
  simp only [hh, Bool.false_eq_true, if_false, hw, h f (by omega), hb f (by omega)]

/-- Parentheses are balanced. -/
def Balanced (a : List Tok) : Prop := ∀ d r, closeArgs d (a ++ r) = (closeArgs d r).map fun x => (a ++ x.1, x.2)

theorem Balanced.nil : Balanced [] := by
  intro d r
  show closeArgs d r = (closeArgs d r).map fun x => (x.1, x.2)
  simp

theorem Balanced.append {a b : List Tok} (h1 : Balanced a) (h2 : Balanced b) : Balanced (a ++ b) := by
  intro d r
  rw [List.append_assoc, h1, h2, Option.map_map]
  congr 1
  funext x
  simp [Function.comp]

theorem Balanced.tok {t : Tok} (h1 : t ≠ .p ['(']) (h2 : t ≠ .p [')']) : Balanced [t] := by
  intro d r
  show closeArgs d (t :: r) = _
  rw [closeArgs, if_neg h1, if_neg h2]
  rfl

theorem Balanced.paren {a : List Tok} (h : Balanced a) : Balanced (.p ['('] :: (a ++ [.p [')']])) := by
  intro d r
  show closeArgs d (.p ['('] :: ((a ++ [.p [')']]) ++ r)) = _
  rw [closeArgs, if_pos rfl, List.append_assoc, h]
  show Option.map _ (Option.map _ (closeArgs (d + 1) (.p [')'] :: r))) = _
  rw [closeArgs, if_neg (by decide), if_pos rfl, if_neg (by omega), Nat.add_sub_cancel]
  cases closeArgs d r <;> simp

theorem Balanced.close {a : List Tok} (h : Balanced a) (r : List Tok) : closeArgs 0 (a ++ .p [')'] :: r) = some (a, r) := by
  rw [h]
  show Option.map _ (closeArgs 0 (.p [')'] :: r)) = _
  rw [closeArgs, if_neg (by decide), if_pos rfl, if_pos rfl]
  simp

/-- No comma outside parentheses, at any depth of surrounding parentheses. -/
def ArgTok (a : List Tok) : Prop := ∀ d r cur, splitArgs d (a ++ r) cur = splitArgs d r (cur ++ a)

theorem ArgTok.nil : ArgTok [] := by
  intro d r cur
  simp

theorem ArgTok.append {a b : List Tok} (h1 : ArgTok a) (h2 : ArgTok b) : ArgTok (a ++ b) := by
  intro d r cur
  rw [List.append_assoc, h1, h2, List.append_assoc]

theorem ArgTok.tok {t : Tok} (h1 : t ≠ .p ['(']) (h2 : t ≠ .p [')']) (h3 : t ≠ .p [',']) : ArgTok [t] := by
  intro d r cur
  show splitArgs d (t :: r) cur = _
  rw [splitArgs, if_neg (by simp [h3]), if_neg h1, if_neg h2]

theorem ArgTok.paren {a : List Tok} (h : ArgTok a) : ArgTok (.p ['('] :: (a ++ [.p [')']])) := by
  intro d r cur
  show splitArgs d (.p ['('] :: ((a ++ [.p [')']]) ++ r)) cur = _
  rw [splitArgs, if_neg (by simp), if_pos rfl, List.append_assoc, h]
  show splitArgs (d + 1) (.p [')'] :: r) _ = _
  rw [splitArgs, if_neg (by simp), if_neg (by decide), if_pos rfl, Nat.add_sub_cancel]
  simp

/-- The arguments as tokens. -/
def joinArgs : List (List Tok) → List Tok
  | [] => []
  | [a] => a
  | a :: b :: r => a ++ .p [','] :: joinArgs (b :: r)

theorem splitArgs_join (as : List (List Tok)) (h0 : as ≠ []) (h : ∀ a ∈ as, ArgTok a) : splitArgs 0 (joinArgs as) [] = as := by
  induction as with
  | nil => exact absurd rfl h0
  | cons a r ih =>
    cases r with
    | nil =>
      have := h a (by simp) 0 [] []
      simpa [joinArgs, splitArgs] using this
    | cons b r =>
      show splitArgs 0 (a ++ .p [','] :: joinArgs (b :: r)) [] = _
      rw [h a (by simp), splitArgs, if_pos (by simp), List.nil_append, ih (by simp) (fun x hx => h x (by simp [hx]))]

theorem balanced_join (as : List (List Tok)) (h : ∀ a ∈ as, Balanced a) : Balanced (joinArgs as) := by
  induction as with
  | nil => exact Balanced.nil
  | cons a r ih =>
    cases r with
    | nil => exact h a (by simp)
    | cons b r =>
      exact (h a (by simp)).append ((Balanced.tok (by decide) (by decide) : Balanced [.p [',']]).append (ih fun x hx => h x (by simp [hx])))

/-- Replaced arguments, one by one. -/
def ExpAll (ds : Defs) (hide : List Str) : List (List Tok) → List (List Tok) → Prop
  | [], [] => True
  | a :: r, a' :: r' => Exp ds hide a a' ∧ ExpAll ds hide r r'
  | _, _ => False

theorem ExpAll.all {as as' : List (List Tok)} (h : ExpAll ds hide as as') :
    ∃ F, ∀ f, F ≤ f → optAll (as.map (expand f ds hide)) = some as' := by
  induction as generalizing as' with
  | nil =>
    cases as' with
    | nil => exact ⟨0, fun _ _ => rfl⟩
    | cons a r => exact h.elim
  | cons a r ih =>
    cases as' with
    | nil => exact h.elim
    | cons a' r' =>
      obtain ⟨F, hF⟩ := h.1
      obtain ⟨G, hG⟩ := ih h.2
      refine ⟨F + G, fun f hf => ?_⟩
      rw [List.map_cons, hF f (by omega), optAll, hG f (by omega)]
      rfl

theorem ExpAll.length {as as' : List (List Tok)} (h : ExpAll ds hide as as') : as.length = as'.length := by
  induction as generalizing as' with
  | nil =>
    cases as' with
    | nil => rfl
    | cons a r => exact h.elim
  | cons a r ih =>
    cases as' with
    | nil => exact h.elim
    | cons a' r' => simp [ih h.2]

/-- A call of a macro with arguments. -/
theorem ExpP.fnCall {w : Str} {ps : List Str} {body us : List Tok} {as as' : List (List Tok)} (hh : hide.contains w = false)
    (hw : ds.lookup w = some (.fn ps body)) (h0 : as ≠ []) (hl : as.length = ps.length)
    (hb : ∀ a ∈ as, Balanced a) (ha : ∀ a ∈ as, ArgTok a) (hx : ExpAll ds hide as as')
    (hs : Exp ds (w :: hide) (substArgs (ps.zip as') body) us) :
    ExpP ds hide (.word w :: .p ['('] :: (joinArgs as ++ [.p [')']])) us := by
  rintro r r' ⟨F, h⟩
  obtain ⟨G, hs⟩ := hs
  obtain ⟨K, hK⟩ := hx.all
  refine Exp.succ (F + G + K) fun f hf => ?_
  show expand (f + 1) ds hide (.word w :: .p ['('] :: ((joinArgs as ++ [.p [')']]) ++ r)) = _
  have hp : ¬ (ps = [] ∧ joinArgs as = []) := by
    rintro ⟨rfl, _⟩
    exact h0 (List.eq_nil_of_length_eq_zero (by simpa using hl))
  have hc : closeArgs 0 ((joinArgs as ++ [.p [')']]) ++ r) = some (joinArgs as, r) := by
    rw [List.append_assoc]
    exact (balanced_join as hb).close r
  rw [expand]
  simp only [hh, Bool.false_eq_true, if_false, hw, hc, hp, splitArgs_join as h0 ha, hl, if_true, hK f (by omega), hs f (by omega), h f (by omega)]

/-- A call of a macro without parameters. -/
theorem ExpP.fnCall0 {w : Str} {body us : List Tok} (hh : hide.contains w = false) (hw : ds.lookup w = some (.fn [] body))
    (hs : Exp ds (w :: hide) (substArgs [] body) us) : ExpP ds hide (.word w :: .p ['('] :: [.p [')']]) us := by
  rintro r r' ⟨F, h⟩
  obtain ⟨G, hs⟩ := hs
  refine Exp.succ (F + G) fun f hf => ?_
  show expand (f + 1) ds hide (.word w :: .p ['('] :: .p [')'] :: r) = _
  have hc : closeArgs 0 (.p [')'] :: r) = some ([], r) := rfl
  rw [expand]
  simp only [hh, Bool.false_eq_true, if_false, hw, hc, and_self, if_true, List.length_nil, List.map_nil, optAll, List.zip_nil_left,
    hs f (by omega), h f (by omega)]

/-- Words of tokens. -/
def tokWords : List Tok → List Str
  | [] => []
  | .word w :: r => w :: tokWords r
  | .p _ :: r => tokWords r

theorem tokWords_append (a b : List Tok) : tokWords (a ++ b) = tokWords a ++ tokWords b := by
  induction a with
  | nil => rfl
  | cons t a ih => cases t <;> simp [tokWords, ih]

/-- Tokens without macros. -/
theorem ExpP.plain {ts : List Tok} (h : ∀ w ∈ tokWords ts, NoMac ds hide w) : ExpP ds hide ts ts := by
  induction ts with
  | nil => exact ExpP.nil
  | cons t r ih =>
    cases t with
    | p s => exact (ExpP.punct s).append (ih h)
    | word w => exact (ExpP.word (h w (by simp [tokWords]))).append (ih fun x hx => h x (by simp [tokWords, hx]))

theorem Exp.plain {ts : List Tok} (h : ∀ w ∈ tokWords ts, NoMac ds hide w) : Exp ds hide ts ts := (ExpP.plain h).exp

end Verif
