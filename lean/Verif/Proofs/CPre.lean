import Verif.Spec.CPre
import Verif.Model.MainText
import Verif.Proofs.CSyntax
/-
Rules for the preprocessor on the text of a sequence of writer calls.
-/
namespace Verif
open Verif.Spec

/-! ### Lines of a text -/

/-- The text consists of whole lines, which are `ls` after the removal of splices and comments. -/
def PPL (t : Str) (ls : List Str) : Prop := ∀ rest, ppLines (t ++ rest) = ls ++ ppLines rest

theorem PPL.nil : PPL [] [] := fun _ => rfl

theorem PPL.append {s t : Str} {k l : List Str} (h1 : PPL s k) (h2 : PPL t l) : PPL (s ++ t) (k ++ l) := by
  intro rest
  rw [List.append_assoc, h1, h2, List.append_assoc]

theorem unsplice_cons {c : Char} {r : Str} (h : c ≠ '\\') : unsplice (c :: r) = c :: unsplice r := by
  cases r with
  | nil => rfl
  | cons d r => rw [unsplice, if_neg (by simp [h])]

theorem unsplice_cons' {c d : Char} {r : Str} (h : d ≠ '\n') : unsplice (c :: d :: r) = c :: unsplice (d :: r) := by
  rw [unsplice, if_neg (by simp [h])]

/-- A line that does not end in a backslash. -/
theorem unsplice_line (l rest : Str) (hn : '\n' ∉ l) (hb : l.getLast? ≠ some '\\') :
    unsplice (l ++ '\n' :: rest) = l ++ '\n' :: unsplice rest := by
  induction l with
  | nil => exact unsplice_cons (by decide)
  | cons c l ih =>
    cases l with
    | nil =>
      have hc : c ≠ '\\' := by simpa using hb
      show unsplice (c :: '\n' :: rest) = _
      rw [unsplice_cons hc, unsplice_cons (by decide)]
      rfl
    | cons d l =>
      have hd : d ≠ '\n' := fun e => hn (by simp [e])
      show unsplice (c :: d :: (l ++ '\n' :: rest)) = _
      rw [unsplice_cons' hd]
      have := ih (fun e => hn (by simp [List.mem_cons.mp e])) (by simpa using hb)
      rw [List.cons_append] at this
      rw [this]
      rfl

/-- Characters of text without comments, quotation marks, line ends and backslashes. -/
def plainCh (c : Char) : Bool := c != '/' && c != '"' && c != '\'' && c != '\n' && c != '\\'

/-- Text of plain characters. -/
def PlainT (t : Str) : Prop := ∀ c ∈ t, plainCh c = true

instance (t : Str) : Decidable (PlainT t) := inferInstanceAs (Decidable (∀ c ∈ t, _))

theorem PlainT.append {a b : Str} (h1 : PlainT a) (h2 : PlainT b) : PlainT (a ++ b) := by
  intro c hc
  rcases List.mem_append.mp hc with h | h
  · exact h1 c h
  · exact h2 c h

theorem plainT_nil : PlainT [] := by
  intro c hc
  cases hc

theorem plainCh_word {c : Char} (h : isWordCh c = true) : plainCh c = true := by
  have : c ≠ '/' ∧ c ≠ '"' ∧ c ≠ '\'' ∧ c ≠ '\n' ∧ c ≠ '\\' := by
    refine ⟨?_, ?_, ?_, ?_, ?_⟩ <;> · rintro rfl; revert h; decide
  simp [plainCh, this]

theorem plainT_word {w : Str} (h : ∀ c ∈ w, isWordCh c = true) : PlainT w := fun c hc => plainCh_word (h c hc)

theorem PlainT.parts {a : Str} (h : PlainT a) : '\n' ∉ a ∧ a.getLast? ≠ some '\\' := by
  constructor
  · intro hc
    have := h _ hc
    revert this
    decide
  · intro e
    have := h _ (List.mem_of_getLast? e)
    revert this
    decide

theorem uncomment_plainCons {c : Char} {r : Str} (h : plainCh c = true) : uncomment .code (c :: r) = c :: uncomment .code r := by
  have h' : c ≠ '/' ∧ c ≠ '"' ∧ c ≠ '\'' := by
    simp only [plainCh, Bool.and_eq_true, bne_iff_ne] at h
    exact ⟨h.1.1.1.1, h.1.1.1.2, h.1.1.2⟩
  cases r with
  | nil => rfl
  | cons d r => rw [uncomment, if_neg (by simp [h'.1]), if_neg (by simp [h'.1]), if_neg h'.2.1, if_neg h'.2.2]

theorem uncomment_plain (a r : Str) (h : PlainT a) : uncomment .code (a ++ r) = a ++ uncomment .code r := by
  induction a with
  | nil => rfl
  | cons c a ih =>
    rw [List.cons_append, uncomment_plainCons (h c (by simp)), ih (fun x hx => h x (by simp [hx]))]
    rfl

theorem uncomment_nl (r : Str) : uncomment .code ('\n' :: r) = '\n' :: uncomment .code r := by
  cases r with
  | nil => rfl
  | cons d r => rw [uncomment, if_neg (by simp), if_neg (by simp), if_neg (by decide), if_neg (by decide)]

theorem uncomment_line (c r : Str) (h : '\n' ∉ c) : uncomment .line (c ++ '\n' :: r) = '\n' :: uncomment .code r := by
  induction c with
  | nil => rw [List.nil_append, uncomment, if_pos rfl]
  | cons x c ih =>
    rw [List.cons_append, uncomment, if_neg (fun e => h (by simp [e]))]
    exact ih fun e => h (by simp [e])

theorem uncomment_slash (r : Str) : uncomment .code ('/' :: ' ' :: r) = '/' :: ' ' :: uncomment .code r := by
  rw [uncomment, if_neg (by simp), if_neg (by simp), if_neg (by decide), if_neg (by decide), uncomment_plainCons (by decide)]

theorem uncomment_str (b r : Str) (h : '"' ∉ b ∧ '\n' ∉ b) :
    uncomment .str (b ++ '"' :: r) = b ++ '"' :: uncomment .code r := by
  induction b with
  | nil => rw [List.nil_append, uncomment, if_pos (by simp)]; rfl
  | cons c b ih =>
    rw [List.cons_append, uncomment, if_neg (by
      rintro (e | e)
      · exact h.1 (by simp [e])
      · exact h.2 (by simp [e]))]
    rw [ih ⟨fun e => h.1 (by simp [e]), fun e => h.2 (by simp [e])⟩]
    rfl

theorem uncomment_quote (r : Str) (hr : r ≠ []) : uncomment .code ('"' :: r) = '"' :: uncomment .str r := by
  cases r with
  | nil => exact absurd rfl hr
  | cons d r => rw [uncomment, if_neg (by simp), if_neg (by simp), if_pos rfl]

theorem linesGo_line (l rest cur : Str) (h : '\n' ∉ l) : linesGo (l ++ '\n' :: rest) cur = (cur ++ l) :: linesGo rest [] := by
  induction l generalizing cur with
  | nil => rw [List.nil_append, linesGo, if_pos rfl, List.append_nil]
  | cons c l ih =>
    rw [List.cons_append, linesGo, if_neg (fun e => h (by simp [e])), ih _ (fun e => h (by simp [e])), List.append_assoc]
    rfl

/-- One line, from what the removal of comments makes of it. -/
theorem PPL.line {l u : Str} (hn : '\n' ∉ l) (hb : l.getLast? ≠ some '\\') (hu : '\n' ∉ u)
    (h : ∀ r, uncomment .code (l ++ '\n' :: r) = u ++ '\n' :: uncomment .code r) : PPL (l ++ ['\n']) [u] := by
  intro rest
  show linesGo (uncomment .code (unsplice ((l ++ ['\n']) ++ rest))) [] = [u] ++ linesGo _ []
  rw [List.append_assoc, List.singleton_append, unsplice_line _ _ hn hb, h, linesGo_line _ _ _ hu]
  rfl

theorem PPL.plain {a : Str} (h : PlainT a) : PPL (a ++ ['\n']) [a] :=
  PPL.line h.parts.1 h.parts.2 h.parts.1 fun r => by rw [uncomment_plain _ _ h, uncomment_nl]

/-- A line with a `//` comment. -/
theorem PPL.comment {a c : Str} (h : PlainT a) (hc : '\n' ∉ c) (hb : c.getLast? ≠ some '\\') :
    PPL ((a ++ '/' :: '/' :: c) ++ ['\n']) [a ++ [' ']] := by
  refine PPL.line ?_ ?_ ?_ ?_
  · simp [h.parts.1, hc]
  · cases c with
    | nil => simp
    | cons x c =>
      rw [List.getLast?_append]
      have e : ('/' :: '/' :: x :: c).getLast? = (x :: c).getLast? := by simp
      rw [e]
      cases hx : (x :: c).getLast? with
      | none => simp at hx
      | some y => rw [hx] at hb; simpa using hb
  · simp [h.parts.1]
  · intro r
    rw [List.append_assoc, uncomment_plain _ _ h]
    show a ++ uncomment .code ('/' :: '/' :: (c ++ '\n' :: r)) = _
    rw [uncomment, if_pos (by simp), uncomment_line _ _ hc]
    simp

/-- A line with one division sign. -/
theorem PPL.slash {a b : Str} (ha : PlainT a) (hb : PlainT b) : PPL ((a ++ '/' :: ' ' :: b) ++ ['\n']) [a ++ '/' :: ' ' :: b] := by
  have hn : '\n' ∉ a ++ '/' :: ' ' :: b := by simp [ha.parts.1, hb.parts.1]
  refine PPL.line hn ?_ hn ?_
  · cases b with
    | nil => simp
    | cons x b =>
      rw [List.getLast?_append]
      have e : ('/' :: ' ' :: x :: b).getLast? = (x :: b).getLast? := by simp
      rw [e]
      have := hb.parts.2
      cases hx : (x :: b).getLast? with
      | none => simp at hx
      | some y => rw [hx] at this; simpa using this
  · intro r
    rw [List.append_assoc, uncomment_plain _ _ ha]
    show a ++ uncomment .code ('/' :: ' ' :: (b ++ '\n' :: r)) = _
    rw [uncomment_slash, uncomment_plain _ _ hb, uncomment_nl]
    simp

/-- A line with a string at its end. -/
theorem PPL.quote {a b : Str} (ha : PlainT a) (hb : PlainT b) : PPL ((a ++ '"' :: (b ++ ['"'])) ++ ['\n']) [a ++ '"' :: (b ++ ['"'])] := by
  have hn : '\n' ∉ a ++ '"' :: (b ++ ['"']) := by simp [ha.parts.1, hb.parts.1]
  refine PPL.line hn ?_ hn ?_
  · rw [List.getLast?_append]
    have : ('"' :: (b ++ ['"'])).getLast? = some '"' := by
      rw [show '"' :: (b ++ ['"']) = ('"' :: b) ++ ['"'] by rfl, List.getLast?_append]
      rfl
    rw [this]
    simp
  · intro r
    rw [List.append_assoc, uncomment_plain _ _ ha]
    show a ++ uncomment .code ('"' :: ((b ++ ['"']) ++ '\n' :: r)) = _
    rw [uncomment_quote _ (by simp), List.append_assoc]
    show a ++ '"' :: uncomment .str (b ++ '"' :: '\n' :: r) = _
    rw [uncomment_str _ _ ⟨by
      intro hc
      have := hb _ hc
      revert this
      decide, hb.parts.1⟩, uncomment_nl]
    simp

theorem PPL.blank : PPL ['\n'] [[]] := PPL.plain (a := []) plainT_nil

/-! ### Text of writer calls -/

/-- The calls add the text `t` to the buffer. -/
def Emits (ops : List WOp) (t : Str) : Prop := ∀ w, Writer.run w ops = { w with buf := w.buf ++ t }

theorem Emits.nil : Emits [] [] := fun w => by simp [Writer.run]

theorem Emits.append {a b : List WOp} {s t : Str} (h1 : Emits a s) (h2 : Emits b t) : Emits (a ++ b) (s ++ t) := by
  intro w
  rw [Writer.run, List.foldl_append]
  have e1 := h1 w
  have e2 := h2 { w with buf := w.buf ++ s }
  rw [Writer.run] at e1 e2
  rw [e1, e2, List.append_assoc]

theorem Emits.text {ops : List WOp} {t : Str} (h : Emits ops t) : opsText ops = t := by
  rw [opsText, h]
  rfl

theorem lineText_nil : lineText [] = ['\n'] := rfl

theorem lineText_line {l : Str} (h : '\n' ∉ l) : lineText l = l ++ ['\n'] := by
  unfold lineText
  split
  · rename_i e
    rw [List.getLast?_eq_none_iff.mp e]
    rfl
  · rename_i c e
    rw [if_pos]
    rintro rfl
    exact h (List.mem_of_getLast? e)

theorem emits_appendF (t : Str) : Emits [.appendF t] (lineText (printLoc t)) := fun _ => rfl
theorem emits_append (t : Str) : Emits [.append t] (lineText t) := fun _ => rfl
theorem emits_appendText (t : Str) : Emits [.appendText t] t := fun _ => rfl
theorem emits_appendTextF (t : Str) : Emits [.appendTextF t] (printLoc t) := fun _ => rfl
theorem emits_lines (n : Nat) : Emits [.lines n] (List.replicate n '\n') := fun _ => rfl

theorem printLoc_short {t : Str} (h : t.length ≤ 9999) : printLoc t = t := by
  unfold printLoc
  exact List.take_of_length_le h

theorem emits_line {t : Str} (h : t.length ≤ 9999) (hn : '\n' ∉ t) : Emits [.appendF t] (t ++ ['\n']) := by
  have := emits_appendF t
  rwa [printLoc_short h, lineText_line hn] at this

/-! ### Directives -/

/-- The part of the state a line can change when all conditionals are closed again. -/
structure Core where
  defs : Defs
  out : List Tok
  fail : Bool
  deriving DecidableEq, Repr

/-- A state from open conditionals and the rest. -/
def mkPP (fr : List Frame) (c : Core) : PP := { frames := fr, defs := c.defs, out := c.out, fail := c.fail }

/-- The step of `ppText`. -/
def ppStep (f : Nat) (files : List (Str × Str)) (d : Nat) (st : PP) (l : Str) : PP :=
  match includeOf l with
  | some name =>
    if st.live then
      match files.lookup name with
      | some u => ppText f files d st u
      | none => st
    else st
  | none => ppLine f st l

/-- The lines have no effect when they are skipped. -/
def Skips (files : List (Str × Str)) (ls : List Str) : Prop :=
  ∀ f d st, st.live = false → ls.foldl (ppStep f files d) st = st

/-- The lines turn `c` into `c'` (given enough fuel), and have no effect when they are skipped. -/
def Run (files : List (Str × Str)) (ls : List Str) (c c' : Core) : Prop :=
  Skips files ls ∧ ∃ F, ∀ f, F ≤ f → ∀ d, F ≤ d → ∀ fr, (mkPP fr c).live = true → ls.foldl (ppStep f files d) (mkPP fr c) = mkPP fr c'

variable {files : List (Str × Str)}

theorem Skips.nil : Skips files [] := fun _ _ _ _ => rfl

theorem Skips.append {a b : List Str} (h1 : Skips files a) (h2 : Skips files b) : Skips files (a ++ b) := by
  intro f d st h
  rw [List.foldl_append, h1 f d st h, h2 f d st h]

theorem Run.nil (c : Core) : Run files [] c c := ⟨Skips.nil, 0, fun _ _ _ _ _ _ => rfl⟩

theorem live_mkPP (fr : List Frame) (c c' : Core) : (mkPP fr c).live = (mkPP fr c').live := rfl

theorem Run.append {a b : List Str} {c c1 c2 : Core} (h1 : Run files a c c1) (h2 : Run files b c1 c2) : Run files (a ++ b) c c2 := by
  obtain ⟨s1, F1, h1⟩ := h1
  obtain ⟨s2, F2, h2⟩ := h2
  refine ⟨s1.append s2, F1 + F2, fun f hf d hd fr hl => ?_⟩
  rw [List.foldl_append, h1 f (by omega) d (by omega) fr hl, h2 f (by omega) d (by omega) fr hl]

/-- A line that begins a conditional, taken or not in state `c`. -/
def IfLine (files : List (Str × Str)) (h : Str) (c : Core) (b : Bool) : Prop :=
  (∀ f d st, st.live = false → ∃ x, ppStep f files d st h = st.push x) ∧
  ∃ F, ∀ f, F ≤ f → ∀ d, F ≤ d → ∀ fr, (mkPP fr c).live = true → ppStep f files d (mkPP fr c) h = (mkPP fr c).push b

/-- An `#else` line. -/
def ElseLine (files : List (Str × Str)) (e : Str) : Prop :=
  ∀ f d st fr rest, st.frames = fr :: rest → fr.els = false →
    ppStep f files d st e = { st with frames := ⟨fr.outer, true, true, fr.outer && !fr.taken⟩ :: rest }

/-- An `#endif` line. -/
def EndLine (files : List (Str × Str)) (e : Str) : Prop :=
  ∀ f d st fr rest, st.frames = fr :: rest → ppStep f files d st e = { st with frames := rest }

/-- A line that begins a conditional, seen in a skipped group. -/
def IfHead (files : List (Str × Str)) (h : Str) : Prop :=
  ∀ f d st, st.live = false → ∃ x, ppStep f files d st h = st.push x

theorem Skips.cond {h e : Str} {a : List Str} (hi : IfHead files h) (ha : Skips files a) (he : EndLine files e) :
    Skips files (h :: (a ++ [e])) := by
  intro f d st hl
  obtain ⟨x, hx⟩ := hi f d st hl
  rw [List.foldl_cons, hx, List.foldl_append, ha f d (st.push x) (by simp [PP.push, PP.live] at hl ⊢; simp [hl])]
  exact he f d _ _ _ rfl

theorem Skips.condElse {h e n : Str} {a b : List Str} (hi : IfHead files h) (ha : Skips files a) (hl : ElseLine files n)
    (hb : Skips files b) (he : EndLine files e) : Skips files (h :: (a ++ n :: (b ++ [e]))) := by
  intro f d st hd
  obtain ⟨x, hx⟩ := hi f d st hd
  have h1 : (st.push x).live = false := by simp [PP.push, PP.live] at hd ⊢; simp [hd]
  rw [List.foldl_cons, hx, List.foldl_append, ha f d (st.push x) h1, List.foldl_cons, hl f d _ _ _ rfl rfl, List.foldl_append,
    hb f d _ (by show (_ && _) = false; simp [hd])]
  exact he f d _ _ _ rfl

theorem Run.ifThen {h e : Str} {a : List Str} {c c' : Core} (hi : IfLine files h c true) (he : EndLine files e)
    (ha : Run files a c c') : Run files (h :: (a ++ [e])) c c' := by
  obtain ⟨s1, F1, h1⟩ := ha
  obtain ⟨i1, F2, h2⟩ := hi
  refine ⟨Skips.cond i1 s1 he, F1 + F2, fun f hf d hd fr hl => ?_⟩
  rw [List.foldl_cons, h2 f (by omega) d (by omega) fr hl, List.foldl_append]
  have hp : (mkPP fr c).push true = mkPP (⟨true, true, false, true⟩ :: fr) c := by
    rw [PP.push, hl]
    rfl
  rw [hp, h1 f (by omega) d (by omega) _ rfl]
  exact he f d _ _ _ rfl

theorem Run.ifSkip {h e : Str} {a : List Str} {c : Core} (hi : IfLine files h c false) (he : EndLine files e)
    (ha : Skips files a) : Run files (h :: (a ++ [e])) c c := by
  obtain ⟨i1, F2, h2⟩ := hi
  refine ⟨Skips.cond i1 ha he, F2, fun f hf d hd fr hl => ?_⟩
  rw [List.foldl_cons, h2 f (by omega) d (by omega) fr hl, List.foldl_append, ha f d _ (by simp [PP.push, PP.live])]
  exact he f d _ _ _ rfl

theorem Run.elseT {h e n : Str} {a b : List Str} {c c' : Core} (hi : IfLine files h c true) (hn : ElseLine files n) (he : EndLine files e)
    (ha : Run files a c c') (hb : Skips files b) : Run files (h :: (a ++ n :: (b ++ [e]))) c c' := by
  obtain ⟨s1, F1, h1⟩ := ha
  obtain ⟨i1, F2, h2⟩ := hi
  refine ⟨Skips.condElse i1 s1 hn hb he, F1 + F2, fun f hf d hd fr hl => ?_⟩
  rw [List.foldl_cons, h2 f (by omega) d (by omega) fr hl, List.foldl_append]
  have hp : (mkPP fr c).push true = mkPP (⟨true, true, false, true⟩ :: fr) c := by
    rw [PP.push, hl]
    rfl
  rw [hp, h1 f (by omega) d (by omega) _ rfl, List.foldl_cons, hn f d _ _ _ rfl rfl, List.foldl_append, hb f d _ rfl]
  exact he f d _ _ _ rfl

theorem Run.elseF {h e n : Str} {a b : List Str} {c c' : Core} (hi : IfLine files h c false) (hn : ElseLine files n) (he : EndLine files e)
    (ha : Skips files a) (hb : Run files b c c') : Run files (h :: (a ++ n :: (b ++ [e]))) c c' := by
  obtain ⟨s1, F1, h1⟩ := hb
  obtain ⟨i1, F2, h2⟩ := hi
  refine ⟨Skips.condElse i1 ha hn s1 he, F1 + F2, fun f hf d hd fr hl => ?_⟩
  rw [List.foldl_cons, h2 f (by omega) d (by omega) fr hl, List.foldl_append, ha f d _ (by simp [PP.push, PP.live]), List.foldl_cons,
    hn f d _ _ _ rfl rfl, List.foldl_append]
  have hp : ({ (mkPP fr c).push false with frames := ⟨(mkPP fr c).live, true, true, (mkPP fr c).live && !false⟩ :: (mkPP fr c).frames } : PP)
      = mkPP (⟨true, true, true, true⟩ :: fr) c := by
    rw [hl]
    rfl
  rw [hp, h1 f (by omega) d (by omega) _ rfl]
  exact he f d _ _ _ rfl

/-! ### Single lines -/

/-- The line is no directive. -/
def NotDir (l : Str) : Prop := ∀ r, dropBlank l ≠ '#' :: r

theorem ppStep_notDir {l : Str} (h : NotDir l) (f d : Nat) (st : PP) :
    ppStep f files d st l = if st.live then
      match expand f st.defs [] (lex l) with
      | some ts => { st with out := st.out ++ ts }
      | none => { st with fail := true }
    else st := by
  have h1 : includeOf l = none := by
    unfold includeOf
    split
    · rename_i r e
      exact absurd e (h r)
    · rfl
  unfold ppStep
  rw [h1]
  show ppLine f st l = _
  unfold ppLine
  split
  · rename_i r e
    exact absurd e (h r)
  · rfl

/-- Macro replacement, given enough fuel. -/
def Exp (ds : Defs) (hide : List Str) (ts us : List Tok) : Prop := ∃ F, ∀ f, F ≤ f → expand f ds hide ts = some us

theorem Run.text {l : Str} {c : Core} {us : List Tok} (h : NotDir l) (he : Exp c.defs [] (lex l) us) :
    Run files [l] c { c with out := c.out ++ us } := by
  obtain ⟨F, hF⟩ := he
  refine ⟨fun f d st hl => ?_, F, fun f hf d hd fr hl => ?_⟩
  · rw [List.foldl_cons, ppStep_notDir h, hl]
    rfl
  · rw [List.foldl_cons, ppStep_notDir h, hl]
    have := hF f hf
    show (match expand f c.defs [] (lex l) with
      | some ts => _
      | none => _) = _
    rw [this]
    rfl

theorem Skips.text {l : Str} (h : NotDir l) : Skips files [l] := by
  intro f d st hl
  rw [List.foldl_cons, ppStep_notDir h, hl]
  rfl

theorem Exp.nil (ds : Defs) (hide : List Str) : Exp ds hide [] [] := ⟨1, fun f hf => by
  obtain ⟨k, rfl⟩ : ∃ k, f = k + 1 := ⟨f - 1, by omega⟩
  rfl⟩

/-- A blank line. -/
theorem Run.blankLine {l : Str} (c : Core) (h : dropBlank l = []) (hl : lex l = []) : Run files [l] c c := by
  have := Run.text (files := files) (l := l) (c := c) (us := []) (by intro r; rw [h]; simp) (by rw [hl]; exact Exp.nil _ _)
  simpa using this

theorem Run.empty (c : Core) : Run files [[]] c c := Run.blankLine c rfl rfl
theorem Run.space (c : Core) : Run files [[' ']] c c := Run.blankLine c rfl rfl

/-- The line is the directive `d` with `rest` behind it. -/
def IsDir (l d rest : Str) : Prop := ∃ r, dropBlank l = '#' :: r ∧ wordOf r = (d, rest)

theorem ppStep_dir {l d0 rest : Str} (h : IsDir l d0 rest) (hi : d0 ≠ "include".toList) (f d : Nat) (st : PP) :
    ppStep f files d st l = ppLine f st l := by
  obtain ⟨r, h1, h2⟩ := h
  unfold ppStep includeOf
  rw [h1]
  simp only [h2, hi, if_false]

theorem ppLine_ifdef {l rest : Str} (h : IsDir l "ifdef".toList rest) (f : Nat) (st : PP) :
    ppLine f st l = st.push ((st.defs.lookup (wordOf rest).1).isSome) := by
  obtain ⟨r, h1, h2⟩ := h
  unfold ppLine
  rw [h1]
  simp only [h2, if_true]

theorem ppLine_ifndef {l rest : Str} (h : IsDir l "ifndef".toList rest) (f : Nat) (st : PP) :
    ppLine f st l = st.push (!(st.defs.lookup (wordOf rest).1).isSome) := by
  obtain ⟨r, h1, h2⟩ := h
  unfold ppLine
  rw [h1]
  simp only [h2]
  rw [if_neg (by decide), if_pos trivial]

theorem elseLine {l rest : Str} (h : IsDir l "else".toList rest) : ElseLine files l := by
  intro f d st fr rs hs he
  rw [ppStep_dir h (by decide)]
  obtain ⟨r, h1, h2⟩ := h
  unfold ppLine
  rw [h1]
  simp only [h2]
  rw [if_neg (by decide), if_neg (by decide), if_neg (by decide), if_pos trivial, hs]
  simp only [he, Bool.false_eq_true, if_false]

theorem endLine {l rest : Str} (h : IsDir l "endif".toList rest) : EndLine files l := by
  intro f d st fr rs hs
  rw [ppStep_dir h (by decide)]
  obtain ⟨r, h1, h2⟩ := h
  unfold ppLine
  rw [h1]
  simp only [h2]
  rw [if_neg (by decide), if_neg (by decide), if_neg (by decide), if_neg (by decide), if_pos trivial, hs]

/-- A directive that is no conditional has no effect in a skipped group. -/
theorem Skips.dir {l d0 rest : Str} (h : IsDir l d0 rest) (h1 : d0 ≠ "ifdef".toList) (h2 : d0 ≠ "ifndef".toList)
    (h3 : d0 ≠ "if".toList) (h4 : d0 ≠ "else".toList) (h5 : d0 ≠ "endif".toList) : Skips files [l] := by
  intro f d st hl
  rw [List.foldl_cons, List.foldl_nil]
  by_cases hi : d0 = "include".toList
  · obtain ⟨r, e1, e2⟩ := h
    unfold ppStep includeOf
    rw [e1]
    simp only [e2, hi, if_true, hl, Bool.false_eq_true, if_false]
  · rw [ppStep_dir h hi]
    obtain ⟨r, e1, e2⟩ := h
    unfold ppLine
    rw [e1]
    simp only [e2]
    rw [if_neg h1, if_neg h2, if_neg h3, if_neg h4, if_neg h5, if_pos (by simp [hl])]

theorem ppLine_define {l rest : Str} (h : IsDir l "define".toList rest) (f : Nat) (st : PP) (hl : st.live = true) :
    ppLine f st l = st.define rest := by
  obtain ⟨r, h1, h2⟩ := h
  unfold ppLine
  rw [h1]
  simp only [h2]
  rw [if_neg (by decide), if_neg (by decide), if_neg (by decide), if_neg (by decide), if_neg (by decide), if_neg (by simp [hl]), if_pos trivial]

/-- A new macro. -/
theorem Run.define {l rest n : Str} {m : MDef} {c : Core} (h : IsDir l "define".toList rest) (hd : defOf rest = some (n, m))
    (hn : c.defs.lookup n = none) : Run files [l] c { c with defs := c.defs ++ [(n, m)] } := by
  refine ⟨Skips.dir h (by decide) (by decide) (by decide) (by decide) (by decide), 0, fun f hf d hd' fr hl => ?_⟩
  rw [List.foldl_cons, List.foldl_nil, ppStep_dir h (by decide), ppLine_define h _ _ hl]
  unfold PP.define
  rw [hd]
  simp only [mkPP, hn]

theorem Run.pragma {l rest : Str} (c : Core) (h : IsDir l "pragma".toList rest) : Run files [l] c c := by
  refine ⟨Skips.dir h (by decide) (by decide) (by decide) (by decide) (by decide), 0, fun f hf d hd' fr hl => ?_⟩
  rw [List.foldl_cons, List.foldl_nil, ppStep_dir h (by decide)]
  obtain ⟨r, e1, e2⟩ := h
  unfold ppLine
  rw [e1]
  simp only [e2]
  rw [if_neg (by decide), if_neg (by decide), if_neg (by decide), if_neg (by decide), if_neg (by decide), if_neg (by simp [hl]),
    if_neg (by decide), if_neg (by decide), if_pos (by simp)]

/-- `#include` of a file that is not known. -/
theorem Run.includeUnknown {l n : Str} (c : Core) (h : includeOf l = some n) (hf : files.lookup n = none) : Run files [l] c c := by
  have e : ∀ f d st, ppStep f files d st l = st := by
    intro f d st
    unfold ppStep
    rw [h]
    show (if st.live then (match files.lookup n with
      | some u => _
      | none => _) else _) = _
    rw [hf]
    simp
  exact ⟨fun f d st _ => e f d st, 0, fun f _ d _ fr _ => e f d _⟩

theorem ppText_succ (f d : Nat) (st : PP) (t : Str) :
    ppText f files (d + 1) st t =
      if ((ppLines t).foldl (ppStep f files d) st).frames.length = st.frames.length then (ppLines t).foldl (ppStep f files d) st
      else { (ppLines t).foldl (ppStep f files d) st with fail := true } := rfl

/-- The lines of a whole file. -/
theorem Run.file {t : Str} {ls : List Str} {c c' : Core} (hp : PPL t ls) (h : Run files ls c c') :
    ∃ F, ∀ f, F ≤ f → ∀ d, F ≤ d → ∀ fr, (mkPP fr c).live = true → ppText f files d (mkPP fr c) t = mkPP fr c' := by
  have h2 : Run files (ls ++ [[]]) c c' := h.append (Run.empty c')
  obtain ⟨s, F, h⟩ := h2
  refine ⟨F + 1, fun f hf d hd fr hl => ?_⟩
  obtain ⟨k, rfl⟩ : ∃ k, d = k + 1 := ⟨d - 1, by omega⟩
  have e : ppLines t = ls ++ [[]] := by
    have := hp []
    rwa [List.append_nil] at this
  rw [ppText_succ, e, h f (by omega) k (by omega) fr hl]
  simp [mkPP]

/-- `#include` of a known file. -/
theorem Run.includeFile {l n t : Str} {ls : List Str} {c c' : Core} (h : includeOf l = some n) (hf : files.lookup n = some t)
    (hp : PPL t ls) (hr : Run files ls c c') : Run files [l] c c' := by
  obtain ⟨F, hF⟩ := Run.file hp hr
  refine ⟨?_, F, fun f hf' d hd fr hl => ?_⟩
  · intro f d st hl
    rw [List.foldl_cons, List.foldl_nil]
    unfold ppStep
    rw [h]
    simp [hl]
  · rw [List.foldl_cons, List.foldl_nil]
    unfold ppStep
    rw [h]
    simp only [hl, if_true, hf]
    exact hF f hf' d hd fr hl

theorem ifHead_ifdef {l rest : Str} (h : IsDir l "ifdef".toList rest) : IfHead files l := fun f d st _ =>
  ⟨_, by rw [ppStep_dir h (by decide), ppLine_ifdef h]⟩

theorem ifHead_ifndef {l rest : Str} (h : IsDir l "ifndef".toList rest) : IfHead files l := fun f d st _ =>
  ⟨_, by rw [ppStep_dir h (by decide), ppLine_ifndef h]⟩

theorem ifLine_ifdef {l rest : Str} (h : IsDir l "ifdef".toList rest) (c : Core) :
    IfLine files l c ((c.defs.lookup (wordOf rest).1).isSome) :=
  ⟨ifHead_ifdef h, 0, fun f _ d _ fr _ => by rw [ppStep_dir h (by decide), ppLine_ifdef h]; rfl⟩

theorem ifLine_ifndef {l rest : Str} (h : IsDir l "ifndef".toList rest) (c : Core) :
    IfLine files l c (!(c.defs.lookup (wordOf rest).1).isSome) :=
  ⟨ifHead_ifndef h, 0, fun f _ d _ fr _ => by rw [ppStep_dir h (by decide), ppLine_ifndef h]; rfl⟩

end Verif
