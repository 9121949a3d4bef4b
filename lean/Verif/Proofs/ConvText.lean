import Verif.Proofs.HeadText
/-
The conversion macros, value tables and constants of a message in the header.
-/
namespace Verif
open Spec

variable {files : List (Str × Str)} {D0 E : Defs} {g : GenDesc}

/-! ### Lines that define macros -/

/-- The lines define the macros `ds`, and nothing else. -/
def HL (files : List (Str × Str)) (ls : List Str) (ds : List DefE) : Prop :=
  ∀ D, Fresh D ds → ∀ out, Run files ls ⟨D, out, false⟩ ⟨addAll D ds, out, false⟩

theorem HL.append {a b : List Str} {ds es : List DefE} (h1 : HL files a ds) (h2 : HL files b es) : HL files (a ++ b) (ds ++ es) := by
  intro D hf out
  rw [addAll_append]
  rw [fresh_append] at hf
  exact (h1 D hf.1 out).append (h2 _ hf.2 out)

theorem HL.define {t n : Str} {m : MDef} (hd : defOf (' ' :: t) = some (n, m)) : HL files ["#define ".toList ++ t] [⟨false, n, m⟩] := by
  intro D hf out
  have hn : D.lookup n = none := hf.1 rfl
  have e : addAll D [⟨false, n, m⟩] = D ++ [(n, m)] := by
    show addOne D _ = _
    unfold addOne
    simp only [hn, Option.isSome_none, Bool.false_eq_true, if_false]
  rw [e]
  exact Run.define (isDir_define t) hd hn

theorem HL.quiet {ls : List Str} (h : ∀ c : Core, Run files ls c c) : HL files ls [] := fun D _ out => h _

theorem HL.hp {ops : List WOp} {ls : List Str} {ds : List DefE} (o : OL ops ls) (h : HL files ls ds) : HP files D0 E ops ds [] := by
  intro D _ _ hf
  refine GItems.silent ⟨ls, o, fun out => ?_⟩
  rw [List.append_nil]
  exact h D hf out

/-! ### Constants -/

/-- A printed factor or offset. -/
def constText (dbl : Bool) (d : Dec) : Str := if dbl then prtDec d else intStr d.trunc

theorem lex_const (dbl : Bool) (d : Dec) {rest : Str} (h : SepHead rest) : lex (constText dbl d ++ rest) = (constOf dbl d).toks ++ lex rest := by
  cases dbl with
  | true =>
    rw [constText, if_pos rfl, lex_prtDec d h]
    unfold constOf Const.toks signed
    by_cases hn : d.num < 0 <;> simp [hn]
  | false =>
    rw [constText, if_neg Bool.false_ne_true, lex_intStr _ h]
    unfold constOf Const.toks signed
    by_cases hn : d.trunc < 0 <;> simp [hn]

theorem plain_const (dbl : Bool) (d : Dec) : PlainT (constText dbl d) := by
  cases dbl
  · exact plain_intStr _
  · exact plain_prtDec _

def convF (s : Sig) : Str := constText s.isDouble s.factor
def convO (s : Sig) : Str := constText s.isDouble s.offset

/-- Body of `toS`. -/
def toSText (s : Sig) : Str := match convKind s with
  | .full => toSFull (convO s) (convF s)
  | .factor => toSFactor (convF s)
  | .offset => toSOffset (convO s)

/-- Body of `fromS`. -/
def fromSText (s : Sig) : Str := match convKind s with
  | .full => fromSFull (convO s) (convF s)
  | .factor => fromSFactor (convF s)
  | .offset => fromSOffset (convO s)

theorem fmtCast_some {d : Dec} {t : Str} (h : fmtCastI32 d = some t) : t = intStr d.trunc := by
  unfold fmtCastI32 at h
  split at h
  · injection h with h
    exact h.symm
  · cases h

theorem printPhys_eq {s : Sig} {drv t : Str} (h : printPhysicalToRaw s drv = some t) : t = convText s drv (convF s) (toSText s) (fromSText s) := by
  unfold printPhysicalToRaw at h
  unfold toSText fromSText convF convO convKind constText
  cases hd : s.isDouble with
  | true =>
    rw [hd, if_pos rfl] at h
    injection h with h
    exact h.symm
  | false =>
    rw [hd, if_neg Bool.false_ne_true] at h
    simp only [Bool.false_eq_true, if_false]
    cases hf : fmtCastI32 s.factor with
    | none => rw [hf] at h; cases h
    | some f =>
      rw [hf, Option.bind_some] at h
      have ef := fmtCast_some hf
      subst ef
      cases ho : s.offset.eqInt 0 with
      | true =>
        rw [ho, if_pos rfl] at h
        injection h with h
        exact h.symm
      | false =>
        rw [ho, if_neg Bool.false_ne_true] at h
        cases hq : fmtCastI32 s.offset with
        | none => rw [hq] at h; cases h
        | some o =>
          rw [hq, Option.map_some] at h
          have eo := fmtCast_some hq
          subst eo
          injection h with h
          rw [← h]
          cases s.factor.eqInt 1 <;> rfl

/-! ### The macros of a signal -/

/-- `DRV_SIG` -/
def convBase (g : GenDesc) (s : Sig) : Str := g.drvUp ++ "_".toList ++ s.name

/-- The three macros. -/
def convDefs (g : GenDesc) (s : Sig) : List DefE :=
  [⟨false, convBase g s ++ "_CovFactor".toList, .obj (par (constOf s.isDouble s.factor).toks)⟩,
   ⟨false, convBase g s ++ "_toS".toList, .fn ["x".toList] (toToks s [.word "x".toList])⟩,
   ⟨false, convBase g s ++ "_fromS".toList, .fn ["x".toList] (fromToks s [.word "x".toList])⟩]

/-- Texts of a signal are not too long. -/
structure ConvOk (s : Sig) : Prop where
  name : IsIdent s.name ∧ s.name.length ≤ 500
  f : (convF s).length ≤ 1000
  o : (convO s).length ≤ 1000

theorem strPrint_short {t : Str} (h : t.length ≤ 4095) : strPrint t = t := List.take_of_length_le h

theorem convBase_ident (hd : IsIdent g.drvUp ∧ g.drvUp.length ≤ 500) {s : Sig} (h : ConvOk s) (x : String) (hx : ∀ c ∈ x.toList, isWordCh c = true) :
    IsIdent (convBase g s ++ x.toList) := by
  refine isIdent_word (isIdent_word (isIdent_word hd.1 (by decide)) (isWord_ident h.name.1)) hx

theorem printType_cty (t : CTy) : printType t = ctyText t := by cases t <;> rfl

theorem typeSeg (t : CTy) : IsWord (ctyText t) ∧ (ctyText t).length ≤ 8 := by
  cases t <;> exact ⟨⟨by decide, by decide⟩, by decide⟩

/-- Pieces of a line behind the name of `toS`, without the line end. -/
def toSegs (s : Sig) : List Seg := match convKind s with
  | .full => [.l "x) ( (", .w (ctyText s.typeRo), .l ") (((x) - (", .e (convO s) (constOf s.isDouble s.offset).toks, .l ")) / (",
      .e (convF s) (constOf s.isDouble s.factor).toks, .l ")) )"]
  | .factor => [.l "x) ( (", .w (ctyText s.typeRo), .l ") ((x) / (", .e (convF s) (constOf s.isDouble s.factor).toks, .l ")) )"]
  | .offset => [.l "x) ( (", .w (ctyText s.typeRo), .l ") ((x) - (", .e (convO s) (constOf s.isDouble s.offset).toks, .l ")) )"]

def fromSegs (s : Sig) : List Seg := match convKind s with
  | .full => [.l "x) ( (((x) * (", .e (convF s) (constOf s.isDouble s.factor).toks, .l ")) + (",
      .e (convO s) (constOf s.isDouble s.offset).toks, .l ")) )"]
  | .factor => [.l "x) ( ((x) * (", .e (convF s) (constOf s.isDouble s.factor).toks, .l ")) )"]
  | .offset => [.l "x) ( ((x) + (", .e (convO s) (constOf s.isDouble s.offset).toks, .l ")) )"]

theorem toSegs_ok (s : Sig) : SegsW (toSegs s) ∧ segsB (toSegs s) = true ∧
    closeArgs 0 (segToks (toSegs s)) = some ([.word "x".toList], toToks s [.word "x".toList]) := by
  have hf : ∀ x, SepHead x → lex (convF s ++ x) = (constOf s.isDouble s.factor).toks ++ lex x := fun x hx => lex_const _ _ hx
  have ho : ∀ x, SepHead x → lex (convO s ++ x) = (constOf s.isDouble s.offset).toks ++ lex x := fun x hx => lex_const _ _ hx
  have ht := (typeSeg s.typeRo).1
  unfold toSegs toToks
  cases convKind s with
  | full => exact ⟨⟨ht, ho, hf, trivial⟩, rfl, by
      simp only [segToks, Seg.toks, par, List.append_assoc, List.cons_append, List.nil_append, List.append_nil]; rfl⟩
  | factor => exact ⟨⟨ht, hf, trivial⟩, rfl, by
      simp only [segToks, Seg.toks, par, List.append_assoc, List.cons_append, List.nil_append, List.append_nil]; rfl⟩
  | offset => exact ⟨⟨ht, ho, trivial⟩, rfl, by
      simp only [segToks, Seg.toks, par, List.append_assoc, List.cons_append, List.nil_append, List.append_nil]; rfl⟩

theorem fromSegs_ok (s : Sig) : SegsW (fromSegs s) ∧ segsB (fromSegs s) = true ∧ litsPlain (fromSegs s) = true ∧ TextsPlain (fromSegs s) ∧
    closeArgs 0 (segToks (fromSegs s)) = some ([.word "x".toList], fromToks s [.word "x".toList]) := by
  have hf : ∀ x, SepHead x → lex (convF s ++ x) = (constOf s.isDouble s.factor).toks ++ lex x := fun x hx => lex_const _ _ hx
  have ho : ∀ x, SepHead x → lex (convO s ++ x) = (constOf s.isDouble s.offset).toks ++ lex x := fun x hx => lex_const _ _ hx
  have pf := plain_const s.isDouble s.factor
  have po := plain_const s.isDouble s.offset
  unfold fromSegs fromToks
  cases convKind s with
  | full => exact ⟨⟨hf, ho, trivial⟩, rfl, rfl, ⟨pf, po, trivial⟩, by
      simp only [segToks, Seg.toks, par, List.append_assoc, List.cons_append, List.nil_append, List.append_nil]; rfl⟩
  | factor => exact ⟨⟨hf, trivial⟩, rfl, rfl, ⟨pf, trivial⟩, by
      simp only [segToks, Seg.toks, par, List.append_assoc, List.cons_append, List.nil_append, List.append_nil]; rfl⟩
  | offset => exact ⟨⟨ho, trivial⟩, rfl, rfl, ⟨po, trivial⟩, by
      simp only [segToks, Seg.toks, par, List.append_assoc, List.cons_append, List.nil_append, List.append_nil]; rfl⟩

def convL2 (g : GenDesc) (s : Sig) : Str := convBase g s ++ "_CovFactor".toList ++ ' ' :: ("(".toList ++ convF s ++ ")".toList)
def convL3 (g : GenDesc) (s : Sig) : Str := convBase g s ++ "_toS".toList ++ '(' :: segText (toSegs s)
def convL4 (g : GenDesc) (s : Sig) : Str := convBase g s ++ "_fromS".toList ++ '(' :: segText (fromSegs s)

theorem toS_len {o f : Str} (ho : o.length ≤ 1000) (hf : f.length ≤ 1000) (k : ConvKind) :
    (match k with | .full => toSFull o f | .factor => toSFactor f | .offset => toSOffset o).length ≤ 4095 := by
  cases k <;> dsimp only <;> first | unfold toSFull | unfold toSFactor | unfold toSOffset
  all_goals simp only [List.length_append, String.reduceToList, List.length_cons, List.length_nil] <;> omega

theorem fromS_len {o f : Str} (ho : o.length ≤ 1000) (hf : f.length ≤ 1000) (k : ConvKind) :
    (match k with | .full => fromSFull o f | .factor => fromSFactor f | .offset => fromSOffset o).length ≤ 4095 := by
  cases k <;> dsimp only <;> first | unfold fromSFull | unfold fromSFactor | unfold fromSOffset
  all_goals simp only [List.length_append, String.reduceToList, List.length_cons, List.length_nil] <;> omega

theorem convText_short {s : Sig} {d f a b : Str} (h1 : d.length ≤ 500) (h2 : s.name.length ≤ 500) (h3 : f.length ≤ 1000)
    (ha : a.length ≤ 4095) (hb : b.length ≤ 4095) : convText s d f a b =
      ("// signal: @".toList ++ s.name ++ "\n".toList) ++ (macroStart s d ++ "_CovFactor (".toList ++ f ++ ")\n".toList) ++
      (macroStart s d ++ "_toS(x) ( (".toList ++ ctyText s.typeRo ++ ") ".toList) ++ a ++ (macroStart s d ++ "_fromS(x) ( ".toList) ++ b := by
  unfold convText macroStart
  rw [printType_cty]
  have h5 := (typeSeg s.typeRo).2
  generalize ctyText s.typeRo = ty at h5 ⊢
  rw [strPrint_short ha, strPrint_short hb]
  rw [strPrint_short, strPrint_short, strPrint_short, strPrint_short]
  all_goals
    simp only [List.length_append, String.reduceToList, List.length_cons, List.length_nil]
    omega

theorem conv_lines (hd : IsIdent g.drvUp ∧ g.drvUp.length ≤ 500) {s : Sig} (h : ConvOk s) :
    convText s g.drvUp (convF s) (toSText s) (fromSText s) =
      (("// signal: @".toList ++ s.name) ++ ['\n']) ++ (("#define ".toList ++ convL2 g s) ++ ['\n']) ++
      (("#define ".toList ++ convL3 g s) ++ ['\n']) ++ (("#define ".toList ++ convL4 g s) ++ ['\n']) := by
  have h1 : (toSText s).length ≤ 4095 := toS_len h.o h.f (convKind s)
  have h2 : (fromSText s).length ≤ 4095 := fromS_len h.o h.f (convKind s)
  rw [convText_short hd.2 h.name.2 h.f h1 h2]
  unfold convL2 convL3 convL4 convBase toSText fromSText toSegs fromSegs macroStart
  cases convKind s <;> dsimp only <;> first | unfold toSFull fromSFull | unfold toSFactor fromSFactor | unfold toSOffset fromSOffset
  all_goals simp only [segText, Seg.text, String.reduceToList, List.append_assoc, List.cons_append, List.nil_append, List.append_nil]

theorem toLine_ppl (hd : IsIdent g.drvUp ∧ g.drvUp.length ≤ 500) {s : Sig} (h : ConvOk s) :
    PPL (("#define ".toList ++ convL3 g s) ++ ['\n']) ["#define ".toList ++ convL3 g s] := by
  have hb : PlainT ("#define ".toList ++ (convBase g s ++ "_toS".toList)) := (plain_lit (by decide)).append (plainT_word (isWord_ident (convBase_ident hd h "_toS" (by decide))))
  have pf := plain_const s.isDouble s.factor
  have po := plain_const s.isDouble s.offset
  have pt := plainT_word (typeSeg s.typeRo).1.2
  unfold convL3 toSegs
  cases convKind s with
  | full =>
    have := PPL.slash (a := "#define ".toList ++ (convBase g s ++ "_toS".toList) ++ "(x) ( (".toList ++ ctyText s.typeRo ++ ") (((x) - (".toList ++ convO s ++ ")) ".toList)
      (b := "(".toList ++ convF s ++ ")) )".toList)
      (((((hb.append (plain_lit (by decide))).append pt).append (plain_lit (by decide))).append po).append (plain_lit (by decide)))
      (((plain_lit (by decide)).append pf).append (plain_lit (by decide)))
    simpa only [segText, Seg.text, String.reduceToList, List.append_assoc, List.cons_append, List.nil_append, List.append_nil] using this
  | factor =>
    have := PPL.slash (a := "#define ".toList ++ (convBase g s ++ "_toS".toList) ++ "(x) ( (".toList ++ ctyText s.typeRo ++ ") ((x) ".toList)
      (b := "(".toList ++ convF s ++ ")) )".toList)
      (((hb.append (plain_lit (by decide))).append pt).append (plain_lit (by decide)))
      (((plain_lit (by decide)).append pf).append (plain_lit (by decide)))
    simpa only [segText, Seg.text, String.reduceToList, List.append_assoc, List.cons_append, List.nil_append, List.append_nil] using this
  | offset =>
    have := PPL.plain (a := "#define ".toList ++ (convBase g s ++ "_toS".toList) ++ "(x) ( (".toList ++ ctyText s.typeRo ++ ") ((x) - (".toList ++ convO s ++ ")) )".toList)
      (((((hb.append (plain_lit (by decide))).append pt).append (plain_lit (by decide))).append po).append (plain_lit (by decide)))
    simpa only [segText, Seg.text, String.reduceToList, List.append_assoc, List.cons_append, List.nil_append, List.append_nil] using this

theorem lex_parConst (dbl : Bool) (d : Dec) : lex (' ' :: ("(".toList ++ constText dbl d ++ ")".toList)) = par (constOf dbl d).toks := by
  have := lex_segs [.l " (", .e (constText dbl d) (constOf dbl d).toks, .l ")"] rfl ⟨fun x hx => lex_const _ _ hx, trivial⟩
  simp only [segText, Seg.text, List.append_nil] at this
  have e : ' ' :: ("(".toList ++ constText dbl d ++ ")".toList) = " (".toList ++ (constText dbl d ++ ")".toList) := rfl
  rw [e, this]
  rfl

theorem lineText_ends (a : Str) : lineText (a ++ ['\n']) = a ++ ['\n'] := by
  unfold lineText
  rw [List.getLast?_concat]
  exact if_neg (by decide)

/-- The conversion macros of a signal. -/
theorem conv_read (hd : IsIdent g.drvUp ∧ g.drvUp.length ≤ 500) {s : Sig} (h : ConvOk s) {t : Str} (ht : printPhysicalToRaw s g.drvUp = some t) :
    HP files D0 E [.append t] (convDefs g s) [] := by
  have e := printPhys_eq ht
  rw [conv_lines hd h] at e
  have hnw := isWord_ident h.name.1
  have hnp := (plainT_word hnw).parts
  have o : OL [.append t] [[' '], "#define ".toList ++ convL2 g s, "#define ".toList ++ convL3 g s, "#define ".toList ++ convL4 g s] := by
    refine ⟨t, ?_, ?_⟩
    · have := emits_append t
      rw [e, ← List.append_assoc] at this ⊢
      rwa [lineText_ends] at this
    · rw [e]
      refine PPL.append (k := [[' '], "#define ".toList ++ convL2 g s, "#define ".toList ++ convL3 g s]) (PPL.append (k := [[' '], "#define ".toList ++ convL2 g s]) (PPL.append (k := [[' ']]) ?_ ?_) (toLine_ppl hd h)) ?_
      · have := PPL.comment (a := []) (c := " signal: @".toList ++ s.name) plainT_nil
          (by
            intro hm
            rcases List.mem_append.1 hm with hm | hm
            · exact absurd hm (by decide)
            · exact hnp.1 hm)
          (by
            rw [List.getLast?_append]
            cases hx : s.name.getLast? with
            | none => decide
            | some y =>
              rw [← hx]
              rw [hx]
              have := hnp.2
              rw [hx] at this
              exact this)
        exact this
      · refine PPL.plain ((plain_lit (by decide)).append ?_)
        exact (plainT_word (isWord_ident (convBase_ident hd h "_CovFactor" (by decide)))).append
          (PlainT.append (a := [' ']) (by decide) (PlainT.append (a := "(".toList ++ convF s) (PlainT.append (plain_lit (by decide)) (plain_const s.isDouble s.factor)) (plain_lit (by decide))))
      · refine PPL.plain ((plain_lit (by decide)).append ?_)
        obtain ⟨w, _, p, q, _⟩ := fromSegs_ok s
        exact (plainT_word (isWord_ident (convBase_ident hd h "_fromS" (by decide)))).append
          (PlainT.append (a := ['(']) (by decide) (plain_segs p w q))
  refine HL.hp o ?_
  have d2 : defOf (' ' :: convL2 g s) = some (convBase g s ++ "_CovFactor".toList, .obj (par (constOf s.isDouble s.factor).toks)) := by
    unfold convL2
    rw [defOf_obj (convBase_ident hd h "_CovFactor" (by decide)) (by intro c q e; injection e with e1 e2; subst e1; decide)]
    unfold convF
    rw [lex_parConst]
  have d3 : defOf (' ' :: convL3 g s) = some (convBase g s ++ "_toS".toList, .fn ["x".toList] (toToks s [.word "x".toList])) := by
    obtain ⟨w, b, c⟩ := toSegs_ok s
    exact defOf_fn (convBase_ident hd h "_toS" (by decide)) (by rw [lex_segs _ b w]; exact c) rfl
  have d4 : defOf (' ' :: convL4 g s) = some (convBase g s ++ "_fromS".toList, .fn ["x".toList] (fromToks s [.word "x".toList])) := by
    obtain ⟨w, b, _, _, c⟩ := fromSegs_ok s
    exact defOf_fn (convBase_ident hd h "_fromS" (by decide)) (by rw [lex_segs _ b w]; exact c) rfl
  exact (HL.quiet (ls := [[' ']]) fun c => Run.space c).append ((HL.define d2).append ((HL.define d3).append (HL.define d4)))

end Verif
