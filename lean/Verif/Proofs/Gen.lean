import Verif.Proofs.Segs
import Verif.Proofs.ExprText
/-
What the preprocessor makes of a sequence of writer calls.
-/
namespace Verif
open Verif.Spec

/-- The writer calls print whole lines, which are `ls` after the removal of comments. -/
def OL (ops : List WOp) (ls : List Str) : Prop := ∃ t, Emits ops t ∧ PPL t ls

theorem OL.nil : OL [] [] := ⟨[], Emits.nil, PPL.nil⟩

theorem OL.append {a b : List WOp} {k l : List Str} (h1 : OL a k) (h2 : OL b l) : OL (a ++ b) (k ++ l) := by
  obtain ⟨s, e1, p1⟩ := h1
  obtain ⟨t, e2, p2⟩ := h2
  exact ⟨s ++ t, e1.append e2, p1.append p2⟩

/-- The printed lines have no effect when they are skipped. -/
def GSkip (files : List (Str × Str)) (ops : List WOp) : Prop := ∃ ls, OL ops ls ∧ Skips files ls

/-- The printed lines turn the macros `D` into `D'` and give the tokens `us`. -/
def Gen (files : List (Str × Str)) (ops : List WOp) (D D' : Defs) (us : List Tok) : Prop :=
  ∃ ls, OL ops ls ∧ ∀ out, Run files ls ⟨D, out, false⟩ ⟨D', out ++ us, false⟩

variable {files : List (Str × Str)} {D D' D'' : Defs} {a b : List WOp} {us vs : List Tok}

theorem Gen.skip (h : Gen files a D D' us) : GSkip files a := by
  obtain ⟨ls, h1, h2⟩ := h
  exact ⟨ls, h1, (h2 []).1⟩

theorem GSkip.nil : GSkip files [] := ⟨[], OL.nil, Skips.nil⟩

theorem GSkip.append (h1 : GSkip files a) (h2 : GSkip files b) : GSkip files (a ++ b) := by
  obtain ⟨k, o1, s1⟩ := h1
  obtain ⟨l, o2, s2⟩ := h2
  exact ⟨k ++ l, o1.append o2, s1.append s2⟩

theorem Gen.nil : Gen files [] D D [] := ⟨[], OL.nil, fun out => by
  rw [List.append_nil]
  exact Run.nil _⟩

theorem Gen.append (h1 : Gen files a D D' us) (h2 : Gen files b D' D'' vs) : Gen files (a ++ b) D D'' (us ++ vs) := by
  obtain ⟨k, o1, r1⟩ := h1
  obtain ⟨l, o2, r2⟩ := h2
  refine ⟨k ++ l, o1.append o2, fun out => ?_⟩
  rw [← List.append_assoc]
  exact (r1 out).append (r2 _)

theorem Gen.cons {x : WOp} (h1 : Gen files [x] D D' us) (h2 : Gen files b D' D'' vs) : Gen files (x :: b) D D'' (us ++ vs) := h1.append h2

/-- The same with the tokens written differently. -/
theorem Gen.eq (h : Gen files a D D' us) (e : us = vs) : Gen files a D D' vs := e ▸ h

/-- Lines without tokens. -/
theorem Gen.silent {ls : List Str} (h : OL a ls) (hr : ∀ c : Core, Run files ls c c) : Gen files a D D [] :=
  ⟨ls, h, fun out => by rw [List.append_nil]; exact hr _⟩

/-! ### Blank lines and comments -/

theorem PPL.blanks (n : Nat) : PPL (List.replicate n '\n') (List.replicate n []) := by
  induction n with
  | zero => exact PPL.nil
  | succ n ih => exact PPL.append (s := ['\n']) (k := [[]]) PPL.blank ih

theorem Run.blanks (n : Nat) (c : Core) : Run files (List.replicate n []) c c := by
  induction n with
  | zero => exact Run.nil c
  | succ n ih => exact Run.append (a := [[]]) (Run.empty c) ih

theorem Gen.lines (n : Nat) : Gen files [.lines n] D D [] :=
  Gen.silent ⟨_, emits_lines n, PPL.blanks n⟩ (Run.blanks n)

theorem Gen.empty : Gen files [opEmpty] D D [] := Gen.lines 1

theorem Gen.appendNil : Gen files [.appendF []] D D [] :=
  Gen.silent ⟨_, emits_appendF [], PPL.blank⟩ Run.empty

/-- A comment of one line. -/
theorem Gen.comment {c : Str} (hl : c.length ≤ 9997) (hc : '\n' ∉ c) (hb : c.getLast? ≠ some '\\') :
    Gen files [.appendF ('/' :: '/' :: c)] D D [] := by
  refine Gen.silent ⟨_, emits_line (by simpa using hl) (by simpa using hc), ?_⟩ Run.space
  exact PPL.comment (a := []) plainT_nil hc hb

/-- Lines of comments, as text. -/
def CommentText (t : Str) : Prop := ∃ n, PPL t (List.replicate n [' '])

theorem Run.spaces (n : Nat) (c : Core) : Run files (List.replicate n [' ']) c c := by
  induction n with
  | zero => exact Run.nil c
  | succ n ih => exact Run.append (a := [[' ']]) (Run.space c) ih

theorem Gen.commentText {t : Str} (h : CommentText t) : Gen files [.appendText t] D D [] := by
  obtain ⟨n, h⟩ := h
  exact Gen.silent ⟨_, emits_appendText t, h⟩ (Run.spaces n)

/-! ### Lines of code -/

/-- A printed line of pieces. -/
theorem OL.segs {t : Str} (l : List Seg) (hL : t = segText l) (hw : SegsW l) (ht : TextsPlain l) (hlen : t.length ≤ 9999)
    (hp : litsPlain l = true) : OL [.appendF t] [segText l] := by
  subst hL
  have hpl := plain_segs hp hw ht
  exact ⟨_, emits_line hlen hpl.parts.1, PPL.plain hpl⟩

theorem Gen.line {t : Str} (l : List Seg) (hL : t = segText l) (hw : SegsW l) (ht : TextsPlain l) (hlen : t.length ≤ 9999)
    (hx : ExpP D [] (segToks l) us)
    (hp : litsPlain l = true := by rfl) (hb : segsB l = true := by rfl) (hh : noHash l = true := by rfl) :
    Gen files [.appendF t] D D us := by
  refine ⟨_, OL.segs l hL hw ht hlen hp, fun out => ?_⟩
  refine Run.text (notDir_segs hh hw) ?_
  rw [lex_segs l hb hw]
  exact hx.exp

/-! ### Conditionals -/

theorem words_of_ident {n : Str} (h : IsIdent n) : IsWord n := ⟨(ident_words h).1, (ident_words h).2.1⟩

theorem takeWhile_words {n r : Str} (h : ∀ c ∈ n, isWordCh c = true) (hr : ∀ c q, r = c :: q → isWordCh c = false) :
    (n ++ r).takeWhile isWordCh = n ∧ (n ++ r).dropWhile isWordCh = r := by
  induction n with
  | nil =>
    cases r with
    | nil => exact ⟨rfl, rfl⟩
    | cons c q => simp [hr c q rfl]
  | cons c n ih =>
    have := ih fun x hx => h x (by simp [hx])
    simp [h c (by simp), this.1, this.2]

theorem wordOf_ident {n r : Str} (h : IsWord n) (hr : ∀ c q, r = c :: q → isWordCh c = false) : wordOf (' ' :: (n ++ r)) = (n, r) := by
  unfold wordOf dropBlank
  have e : (' ' :: (n ++ r)).dropWhile isBlankCh = n ++ r := by
    rw [List.dropWhile_cons, if_pos (by decide)]
    cases n with
    | nil => exact absurd rfl h.1
    | cons c n =>
      rw [List.cons_append, List.dropWhile_cons, if_neg]
      rw [not_blank_word (h.2 c (by simp))]
      simp
  rw [e, (takeWhile_words h.2 hr).1, (takeWhile_words h.2 hr).2]

theorem wordOf_ident' {n : Str} (h : IsWord n) : wordOf (' ' :: n) = (n, []) := by
  have := wordOf_ident (r := []) h (by intro c q e; cases e)
  rwa [List.append_nil] at this

theorem isDir_ifdef (n : Str) : IsDir ("#ifdef ".toList ++ n) "ifdef".toList (' ' :: n) := ⟨"ifdef ".toList ++ n, rfl, rfl⟩
theorem isDir_ifndef (n : Str) : IsDir ("#ifndef ".toList ++ n) "ifndef".toList (' ' :: n) := ⟨"ifndef ".toList ++ n, rfl, rfl⟩
theorem isDir_define (n : Str) : IsDir ("#define ".toList ++ n) "define".toList (' ' :: n) := ⟨"define ".toList ++ n, rfl, rfl⟩
theorem isDir_endif : IsDir "#endif".toList "endif".toList [] := ⟨"endif".toList, rfl, rfl⟩
theorem isDir_endifC : IsDir ("#endif ".toList ++ [' ']) "endif".toList [' ', ' '] := ⟨"endif  ".toList, rfl, rfl⟩
theorem isDir_else : IsDir "#else".toList "else".toList [] := ⟨"else".toList, rfl, rfl⟩

theorem plain_lit {s : String} (h : s.toList.all plainCh = true) : PlainT s.toList := fun c hc => List.all_eq_true.mp h c hc

theorem length_lit_append (s : String) {n : Str} {k : Nat} (hk : s.toList.length ≤ 20) (h : n.length ≤ k) (h9 : k ≤ 9000) :
    (s.toList ++ n).length ≤ 9999 := by
  rw [List.length_append]
  omega

theorem ol_plain {t : Str} (h : PlainT t) (hl : t.length ≤ 9999) : OL [.appendF t] [t] := ⟨_, emits_line hl h.parts.1, PPL.plain h⟩

theorem ol_ifdef {n : Str} (h : IsWord n) (hn : n.length ≤ 9000) : OL [opIfdef n] ["#ifdef ".toList ++ n] :=
  ol_plain ((plain_lit (by decide)).append (plainT_word h.2)) (length_lit_append _ (by decide) hn (by omega))

theorem ol_ifndef {n : Str} (h : IsWord n) (hn : n.length ≤ 9000) : OL [opIfndef n] ["#ifndef ".toList ++ n] :=
  ol_plain ((plain_lit (by decide)).append (plainT_word h.2)) (length_lit_append _ (by decide) hn (by omega))

theorem ol_endif : OL [opLine "#endif"] ["#endif".toList] := ol_plain (plain_lit (by decide)) (by decide)
theorem ol_else : OL [opLine "#else"] ["#else".toList] := ol_plain (plain_lit (by decide)) (by decide)

theorem ol_endifC {n : Str} (h : IsWord n) (hn : n.length ≤ 9000) : OL [opEndif n] ["#endif ".toList ++ [' ']] := by
  have h1 : '\n' ∉ n := (plainT_word h.2).parts.1
  have h2 : n.getLast? ≠ some '\\' := (plainT_word h.2).parts.2
  have e : "#endif // ".toList ++ n = "#endif ".toList ++ '/' :: '/' :: (' ' :: n) := rfl
  refine ⟨_, emits_line (length_lit_append _ (by decide) hn (by omega)) ?_, ?_⟩
  · rw [List.mem_append]
    rintro (h | h)
    · revert h; decide
    · exact h1 h
  · rw [e]
    refine PPL.comment (plain_lit (by decide)) (by simpa using h1) ?_
    cases n with
    | nil => simp
    | cons x n => simpa using h2

theorem endLine_plain : EndLine files "#endif".toList := endLine isDir_endif
theorem endLine_comment : EndLine files ("#endif ".toList ++ [' ']) := endLine isDir_endifC
theorem elseLine_plain : ElseLine files "#else".toList := elseLine isDir_else

/-- A closing line. -/
def CloseOp (files : List (Str × Str)) (x : WOp) : Prop := ∃ l, OL [x] [l] ∧ EndLine files l

theorem closeOp_plain : CloseOp files (opLine "#endif") := ⟨_, ol_endif, endLine_plain⟩
theorem closeOp_comment {n : Str} (h : IsWord n) (hn : n.length ≤ 9000) : CloseOp files (opEndif n) := ⟨_, ol_endifC h hn, endLine_comment⟩

theorem OL.cond {x y : WOp} {h e : Str} {ls : List Str} (hx : OL [x] [h]) (ha : OL a ls) (hy : OL [y] [e]) :
    OL ([x] ++ a ++ [y]) (h :: (ls ++ [e])) := by
  have := (hx.append ha).append hy
  rwa [List.append_assoc, List.singleton_append] at this

theorem OL.condElse {x y z : WOp} {h e n : Str} {k l : List Str} (hx : OL [x] [h]) (ha : OL a k) (hz : OL [z] [n]) (hb : OL b l) (hy : OL [y] [e]) :
    OL ([x] ++ a ++ [z] ++ b ++ [y]) (h :: (k ++ n :: (l ++ [e]))) := by
  have := (((hx.append ha).append hz).append hb).append hy
  simpa using this

/-- `#ifdef` of a macro that is defined. -/
theorem Gen.ifdefT {n : Str} {y : WOp} (h : IsWord n) (hn : n.length ≤ 9000) (hd : (D.lookup n).isSome = true) (hy : CloseOp files y)
    (ha : Gen files a D D' us) : Gen files ([opIfdef n] ++ a ++ [y]) D D' us := by
  obtain ⟨ls, o, r⟩ := ha
  obtain ⟨e, oy, ey⟩ := hy
  refine ⟨_, OL.cond (ol_ifdef h hn) o oy, fun out => Run.ifThen ?_ ey (r out)⟩
  have := ifLine_ifdef (files := files) (isDir_ifdef n) ⟨D, out, false⟩
  rwa [wordOf_ident' h, hd] at this

/-- `#ifdef` of a macro that is not defined. -/
theorem Gen.ifdefF {n : Str} {y : WOp} (h : IsWord n) (hn : n.length ≤ 9000) (hd : (D.lookup n).isSome = false) (hy : CloseOp files y)
    (ha : GSkip files a) : Gen files ([opIfdef n] ++ a ++ [y]) D D [] := by
  obtain ⟨ls, o, r⟩ := ha
  obtain ⟨e, oy, ey⟩ := hy
  refine ⟨_, OL.cond (ol_ifdef h hn) o oy, fun out => ?_⟩
  rw [List.append_nil]
  refine Run.ifSkip ?_ ey r
  have := ifLine_ifdef (files := files) (isDir_ifdef n) ⟨D, out, false⟩
  rwa [wordOf_ident' h, hd] at this

theorem Gen.ifndefT {n : Str} {y : WOp} (h : IsWord n) (hn : n.length ≤ 9000) (hd : D.lookup n = none) (hy : CloseOp files y)
    (ha : Gen files a D D' us) : Gen files ([opIfndef n] ++ a ++ [y]) D D' us := by
  obtain ⟨ls, o, r⟩ := ha
  obtain ⟨e, oy, ey⟩ := hy
  refine ⟨_, OL.cond (ol_ifndef h hn) o oy, fun out => Run.ifThen ?_ ey (r out)⟩
  have := ifLine_ifndef (files := files) (isDir_ifndef n) ⟨D, out, false⟩
  rwa [wordOf_ident' h, hd] at this

theorem Gen.ifndefF {n : Str} {y : WOp} (h : IsWord n) (hn : n.length ≤ 9000) (hd : (D.lookup n).isSome = true) (hy : CloseOp files y)
    (ha : GSkip files a) : Gen files ([opIfndef n] ++ a ++ [y]) D D [] := by
  obtain ⟨ls, o, r⟩ := ha
  obtain ⟨e, oy, ey⟩ := hy
  refine ⟨_, OL.cond (ol_ifndef h hn) o oy, fun out => ?_⟩
  rw [List.append_nil]
  refine Run.ifSkip ?_ ey r
  have := ifLine_ifndef (files := files) (isDir_ifndef n) ⟨D, out, false⟩
  rwa [wordOf_ident' h, hd] at this

theorem Gen.elseT {n : Str} {y : WOp} (h : IsWord n) (hn : n.length ≤ 9000) (hd : (D.lookup n).isSome = true) (hy : CloseOp files y)
    (ha : Gen files a D D' us) (hb : GSkip files b) : Gen files ([opIfdef n] ++ a ++ [opLine "#else"] ++ b ++ [y]) D D' us := by
  obtain ⟨ls, o, r⟩ := ha
  obtain ⟨lb, ob, rb⟩ := hb
  obtain ⟨e, oy, ey⟩ := hy
  refine ⟨_, OL.condElse (ol_ifdef h hn) o ol_else ob oy, fun out => Run.elseT ?_ elseLine_plain ey (r out) rb⟩
  have := ifLine_ifdef (files := files) (isDir_ifdef n) ⟨D, out, false⟩
  rwa [wordOf_ident' h, hd] at this

theorem Gen.elseF {n : Str} {y : WOp} (h : IsWord n) (hn : n.length ≤ 9000) (hd : (D.lookup n).isSome = false) (hy : CloseOp files y)
    (ha : GSkip files a) (hb : Gen files b D D' us) : Gen files ([opIfdef n] ++ a ++ [opLine "#else"] ++ b ++ [y]) D D' us := by
  obtain ⟨ls, o, r⟩ := ha
  obtain ⟨lb, ob, rb⟩ := hb
  obtain ⟨e, oy, ey⟩ := hy
  refine ⟨_, OL.condElse (ol_ifdef h hn) o ol_else ob oy, fun out => Run.elseF ?_ elseLine_plain ey r (rb out)⟩
  have := ifLine_ifdef (files := files) (isDir_ifdef n) ⟨D, out, false⟩
  rwa [wordOf_ident' h, hd] at this

theorem GSkip.cond {x y : WOp} {h : Str} (hx : OL [x] [h]) (hi : IfHead files h) (hy : CloseOp files y) (ha : GSkip files a) :
    GSkip files ([x] ++ a ++ [y]) := by
  obtain ⟨ls, o, r⟩ := ha
  obtain ⟨e, oy, ey⟩ := hy
  exact ⟨_, OL.cond hx o oy, Skips.cond hi r ey⟩

theorem GSkip.ifdef {n : Str} {y : WOp} (h : IsWord n) (hn : n.length ≤ 9000) (hy : CloseOp files y) (ha : GSkip files a) :
    GSkip files ([opIfdef n] ++ a ++ [y]) := GSkip.cond (ol_ifdef h hn) (ifHead_ifdef (isDir_ifdef n)) hy ha

theorem GSkip.ifndef {n : Str} {y : WOp} (h : IsWord n) (hn : n.length ≤ 9000) (hy : CloseOp files y) (ha : GSkip files a) :
    GSkip files ([opIfndef n] ++ a ++ [y]) := GSkip.cond (ol_ifndef h hn) (ifHead_ifndef (isDir_ifndef n)) hy ha

theorem GSkip.ifdefElse {n : Str} {y : WOp} (h : IsWord n) (hn : n.length ≤ 9000) (hy : CloseOp files y) (ha : GSkip files a) (hb : GSkip files b) :
    GSkip files ([opIfdef n] ++ a ++ [opLine "#else"] ++ b ++ [y]) := by
  obtain ⟨ls, o, r⟩ := ha
  obtain ⟨lb, ob, rb⟩ := hb
  obtain ⟨e, oy, ey⟩ := hy
  exact ⟨_, OL.condElse (ol_ifdef h hn) o ol_else ob oy, Skips.condElse (ifHead_ifdef (isDir_ifdef n)) r elseLine_plain rb ey⟩

/-- Both outcomes of `#ifdef`, when the lines inside can be read. -/
theorem Gen.ifdef {n : Str} {y : WOp} (h : IsWord n) (hn : n.length ≤ 9000) (hy : CloseOp files y) (ha : Gen files a D D us) :
    Gen files ([opIfdef n] ++ a ++ [y]) D D (if (D.lookup n).isSome then us else []) := by
  cases hd : (D.lookup n).isSome with
  | true => exact Gen.ifdefT h hn hd hy ha
  | false => exact Gen.ifdefF h hn hd hy ha.skip

theorem Gen.ifdefElse {n : Str} {y : WOp} (h : IsWord n) (hn : n.length ≤ 9000) (hy : CloseOp files y) (ha : Gen files a D D us)
    (hb : Gen files b D D vs) :
    Gen files ([opIfdef n] ++ a ++ [opLine "#else"] ++ b ++ [y]) D D (if (D.lookup n).isSome then us else vs) := by
  cases hd : (D.lookup n).isSome with
  | true => exact Gen.elseT h hn hd hy ha hb.skip
  | false => exact Gen.elseF h hn hd hy ha.skip hb

/-! ### Definitions -/

theorem defOf_obj {n r : Str} (h : IsIdent n) (hr : ∀ c q, r = c :: q → isWordCh c = false ∧ c ≠ '(') :
    defOf (' ' :: (n ++ r)) = some (n, .obj (lex r)) := by
  have hi := ident_words h
  unfold defOf
  rw [wordOf_ident ⟨hi.1, hi.2.1⟩ (fun c q e => (hr c q e).1)]
  simp only [hi.1, hi.2.2, Bool.false_eq_true, or_self, if_false]
  cases r with
  | nil => rfl
  | cons c q =>
    have := (hr c q rfl).2
    split
    · rename_i e
      injection e with e1
      exact absurd e1 this
    · rfl

theorem defOf_fn {n r : Str} {inside body : List Tok} {ps : List Str} (h : IsIdent n) (hc : closeArgs 0 (lex r) = some (inside, body))
    (hp : paramNames inside = some ps) : defOf (' ' :: (n ++ '(' :: r)) = some (n, .fn ps body) := by
  have hi := ident_words h
  unfold defOf
  rw [wordOf_ident ⟨hi.1, hi.2.1⟩ (fun c q e => by injection e with e1; rw [← e1]; decide)]
  simp only [hi.1, hi.2.2, Bool.false_eq_true, or_self, if_false, hc, hp]
  rfl

/-- A line that defines a macro. -/
theorem ol_define {n : Str} (l : List Seg) (hL : n = segText l) (hw : SegsW l) (ht : TextsPlain l) (hp : litsPlain l = true)
    (hlen : n.length ≤ 9000) : OL [.appendF ("#define ".toList ++ n)] ["#define ".toList ++ n] := by
  subst hL
  exact ol_plain ((plain_lit (by decide)).append (plain_segs hp hw ht)) (length_lit_append _ (by decide) hlen (by omega))

theorem Gen.define {t n : Str} {m : MDef} (o : OL a ["#define ".toList ++ t]) (hd : defOf (' ' :: t) = some (n, m)) (hn : D.lookup n = none) :
    Gen files a D (D ++ [(n, m)]) [] := by
  refine ⟨_, o, fun out => ?_⟩
  rw [List.append_nil]
  exact Run.define (isDir_define t) hd hn

theorem GSkip.define {t : Str} (o : OL a ["#define ".toList ++ t]) : GSkip files a :=
  ⟨_, o, Skips.dir (isDir_define t) (by decide) (by decide) (by decide) (by decide) (by decide)⟩

end Verif
