import Verif.Proofs.HeaderRead
/-
The generated header of the monitor functions, read by the preprocessor and the C parser.
-/
namespace Verif
open Spec

variable {files : List (Str × Str)} {D D0 E : Defs} {g : GenDesc} {m : Msg}

/-! ### Block comments -/

theorem uncomment_block (t r : Str) (h : (t.zip t.tail).all (fun p => !(p.1 == '*' && p.2 == '/')) = true) (hl : t.getLast? ≠ some '*') :
    uncomment .block (t ++ '*' :: '/' :: r) = uncomment .code r := by
  induction t with
  | nil => rfl
  | cons c t ih =>
    cases t with
    | nil =>
      have hc : c ≠ '*' := fun e => hl (by rw [e]; rfl)
      show uncomment .block (c :: '*' :: '/' :: r) = _
      rw [uncomment, if_neg (fun e => hc e.1)]
      rfl
    | cons d t =>
      have h1 : (!(c == '*' && d == '/')) = true ∧ ((d :: t).zip t).all (fun p => !(p.1 == '*' && p.2 == '/')) = true := by
        simpa only [List.tail_cons, List.zip_cons_cons, List.all_cons, Bool.and_eq_true] using h
      have h2 : ¬ (c = '*' ∧ d = '/') := by
        intro e
        have := h1.1
        rw [e.1, e.2] at this
        revert this
        decide
      show uncomment .block (c :: d :: (t ++ '*' :: '/' :: r)) = _
      rw [uncomment, if_neg h2]
      exact ih h1.2 (by simpa using hl)

theorem unsplice_lit (t r : Str) (h : '\\' ∉ t) : unsplice (t ++ r) = t ++ unsplice r := by
  induction t with
  | nil => rfl
  | cons c t ih =>
    have hc : c ≠ '\\' := fun e => h (by rw [e]; simp)
    rw [List.cons_append, unsplice_cons hc, ih (fun e => h (by simp [e]))]
    rfl

theorem PPL.blockComment {t : Str} (hb : '\\' ∉ t) (h : (t.zip t.tail).all (fun p => !(p.1 == '*' && p.2 == '/')) = true) (hl : t.getLast? ≠ some '*') :
    PPL ('/' :: '*' :: (t ++ "*/\n".toList)) [[' ']] := by
  intro rest
  unfold ppLines
  have e1 : '/' :: '*' :: (t ++ "*/\n".toList) ++ rest = ('/' :: '*' :: (t ++ "*/\n".toList)) ++ rest := rfl
  have hn : '\\' ∉ '/' :: '*' :: (t ++ "*/\n".toList) := by
    simp [hb]
  rw [unsplice_lit _ _ hn]
  have e2 : '/' :: '*' :: (t ++ "*/\n".toList) ++ unsplice rest = '/' :: '*' :: (t ++ '*' :: '/' :: '\n' :: unsplice rest) := by simp
  rw [e2]
  have e3 : uncomment .code ('/' :: '*' :: (t ++ '*' :: '/' :: '\n' :: unsplice rest)) = ' ' :: uncomment .block (t ++ '*' :: '/' :: '\n' :: unsplice rest) := rfl
  rw [e3, uncomment_block _ _ h hl, uncomment_nl]
  rfl

/-! ### Macros with parameters -/

theorem HP.fn {n t : Str} (l : List Seg) {inside body : List Tok} {ps : List Str} (hn : IsIdent n) (hl : n.length ≤ 1200) (hw : SegsW l) (ht : TextsPlain l)
    (hS : SegsShort 1100 l) (hlen : segLen 1100 l ≤ 5000) (hc : closeArgs 0 (segToks l) = some (inside, body)) (hp : paramNames inside = some ps)
    (e : t = "#define ".toList ++ (n ++ '(' :: segText l)) (hpl : litsPlain l = true := by rfl) (hb : segsB l = true := by rfl) :
    HP files D0 E [.appendF t] [⟨false, n, .fn ps body⟩] [] := by
  subst e
  have hp1 : PlainT (n ++ '(' :: segText l) :=
    (plainT_word (isWord_ident hn)).append (PlainT.append (a := ['(']) (by decide) (plain_segs hpl hw ht))
  have hlen2 : (n ++ '(' :: segText l).length ≤ 9000 := by
    have := length_segs hS
    simp only [List.length_append, List.length_cons]
    omega
  refine HP.define (ol_plain ((plain_lit (by decide)).append hp1) (length_lit_append _ (by decide) hlen2 (by omega))) ?_
  refine defOf_fn hn ?_ hp
  rw [lex_segs l hb hw]
  exact hc

/-! ### Monitor functions -/

/-- Name of the macro that calls the monitor function of a message. -/
def fmonMac (g : GenDesc) (n : Str) : Str := "FMon_".toList ++ n ++ "_".toList ++ g.drvLow
/-- Name of the monitor function of a message. -/
def fmonFn (g : GenDesc) (mono : Bool) (n : Str) : Str :=
  if mono then "_FMon_MONO_".toList ++ g.drvLow else "_FMon_".toList ++ n ++ "_".toList ++ g.drvLow
/-- Name of the macro for one monitor function. -/
def monoName (g : GenDesc) : Str := g.drvUp ++ "_USE_MONO_FMON".toList

/-- `f((x), (y))` -/
def fmonBody (f : Str) : List Tok := .word f :: par (par [.word "x".toList] ++ .p [','] :: par [.word "y".toList])

def fmonDef (g : GenDesc) (mono : Bool) (m : Msg) : DefE := ⟨false, fmonMac g m.name, .fn ["x".toList, "y".toList] (fmonBody (fmonFn g mono m.name))⟩

def fmonParams : List Param := [⟨"FrameMonitor_t".toList, true, "_mon".toList⟩, ⟨"uint32_t".toList, false, "msgid".toList⟩]
def fmonInside : List Tok :=
  [.word "FrameMonitor_t".toList, .p ['*'], .word "_mon".toList, .p [','], .word "uint32_t".toList, .word "msgid".toList]

theorem isIdent_lit {s : String} {b : Str} (hs : IsIdent s.toList) (hb : IsIdent b) : IsIdent (s.toList ++ b) := isIdent_word hs (isWord_ident hb)

theorem isIdent_und (s : String) {a b : Str} (hs : IsIdent s.toList) (ha : IsIdent a) (hb : IsIdent b) : IsIdent (s.toList ++ a ++ "_".toList ++ b) := by
  refine isIdent_word (isIdent_word (isIdent_lit hs ha) ?_) (isWord_ident hb)
  intro c hc
  revert c
  decide

theorem fmonMac_ident (hd : IsIdent g.drvLow ∧ g.drvLow.length ≤ 500) {n : Str} (hn : IsIdent n ∧ n.length ≤ 500) :
    IsIdent (fmonMac g n) ∧ (fmonMac g n).length ≤ 1100 := by
  refine ⟨isIdent_und "FMon_" (by decide) hn.1 hd.1, ?_⟩
  have := hn.2
  have := hd.2
  unfold fmonMac
  simp only [List.length_append, String.reduceToList, List.length_cons, List.length_nil]
  omega

theorem fmonFn_ident (hd : IsIdent g.drvLow ∧ g.drvLow.length ≤ 500) {n : Str} (hn : IsIdent n ∧ n.length ≤ 500) (mono : Bool) :
    IsIdent (fmonFn g mono n) ∧ (fmonFn g mono n).length ≤ 1100 := by
  have := hn.2
  have := hd.2
  unfold fmonFn
  cases mono with
  | true =>
    rw [if_pos rfl]
    refine ⟨isIdent_lit (s := "_FMon_MONO_") (by decide) hd.1, ?_⟩
    simp only [List.length_append, String.reduceToList, List.length_cons, List.length_nil]
    omega
  | false =>
    rw [if_neg Bool.false_ne_true]
    refine ⟨isIdent_und "_FMon_" (by decide) hn.1 hd.1, ?_⟩
    simp only [List.length_append, String.reduceToList, List.length_cons, List.length_nil]
    omega

theorem fmonDef_read (hd : IsIdent g.drvLow ∧ g.drvLow.length ≤ 500) (hn : IsIdent m.name ∧ m.name.length ≤ 500) (mono : Bool) {t : Str}
    (e : t = "#define ".toList ++ (fmonMac g m.name ++ ("(x, y) ".toList ++ (fmonFn g mono m.name ++ "((x), (y))".toList)))) :
    HP files D0 E [.appendF t] [fmonDef g mono m] [] := by
  have h1 := fmonMac_ident hd hn
  have h2 := fmonFn_ident hd hn mono
  refine HP.fn (inside := [.word "x".toList, .p [','], .word "y".toList]) [.l "x, y) ", .w (fmonFn g mono m.name), .l "((x), (y))"] h1.1 (by have := h1.2; omega)
    ⟨words_of_ident h2.1, trivial⟩ trivial ⟨h2.2, trivial⟩ (by seg_len) rfl rfl ?_
  rw [e]
  simp only [segText, Seg.text, String.reduceToList, List.append_assoc, List.cons_append, List.nil_append, List.append_nil]

theorem fmonProto_read {f t : Str} (h2 : IsIdent f ∧ f.length ≤ 1100) (hB : Base D) (hf : D.lookup f = none)
    (e : t = "void ".toList ++ (f ++ "(FrameMonitor_t* _mon, uint32_t msgid);".toList)) :
    GItems files [.appendF t] D D [.proto "void".toList f fmonParams] := by
  refine GItems.proto (inside := fmonInside) (fun r => rfl) rfl ?_
  exact Gen.lineT [.l "void ", .w f, .l "(FrameMonitor_t* _mon, uint32_t msgid);"]
    (by rw [e]; simp only [segText, Seg.text, List.append_nil]) ⟨words_of_ident h2.1, trivial⟩ trivial ⟨h2.2, trivial⟩ (by seg_len)
    ((hB.lit [] "void ").append ((ExpP.name hf).append (hB.lit [] "(FrameMonitor_t* _mon, uint32_t msgid);"))) rfl rfl

theorem base_nil : Base [] := ⟨fun _ _ => rfl, fun _ _ => rfl⟩

theorem HP.skip1 {a : List WOp} {d : DefE} (h : HP files [] (addAll [] [d]) a [d] []) : GSkip files a :=
  HP.skip h ⟨fun _ => rfl, trivial⟩

theorem GSkip.flatMap {α : Type} {L : List α} {f : α → List WOp} (h : ∀ x ∈ L, GSkip files (f x)) : GSkip files (L.flatMap f) := by
  induction L with
  | nil => exact GSkip.nil
  | cons x r ih => exact (h x (by simp)).append (ih fun y hy => h y (by simp [hy]))

/-- What is needed to read the header of the monitor functions. -/
structure FmonOk (g : GenDesc) (E : Defs) (mono : Bool) (m : Msg) : Prop where
  name : IsIdent m.name ∧ m.name.length ≤ 500
  fn : E.lookup (fmonFn g mono m.name) = none

/-- Macros of the header of the monitor functions. -/
def fmonDefs (g : GenDesc) (mono : Bool) (msgs : List Msg) : List DefE :=
  [⟨false, g.verhigh ++ "_FMON".toList, .obj (par [.word (decStr g.hiver ++ "U".toList)])⟩,
   ⟨false, g.verlow ++ "_FMON".toList, .obj (par [.word (decStr g.lowver ++ "U".toList)])⟩] ++ msgs.map (fmonDef g mono)

/-- Prototypes of the monitor functions. -/
def fmonItems (g : GenDesc) (mono : Bool) (msgs : List Msg) : List Spec.Item :=
  if mono then [.proto "void".toList (fmonFn g true []) fmonParams]
  else msgs.map fun m => .proto "void".toList (fmonFn g false m.name) fmonParams

theorem gen_block {s : String} {t : Str} (e : s.toList = '/' :: '*' :: (t ++ "*/".toList)) (hlen : t.length ≤ 9000) (hb : '\\' ∉ t)
    (h : (t.zip t.tail).all (fun p => !(p.1 == '*' && p.2 == '/')) = true) (hl : t.getLast? ≠ some '*') (D : Defs) : Gen files [opLine s] D D [] := by
  refine Gen.silent ⟨'/' :: '*' :: (t ++ "*/\n".toList), ?_, PPL.blockComment hb h hl⟩ Run.space
  unfold opLine
  have := emits_appendF s.toList
  rw [printLoc_short (by rw [e]; simp; omega), lineText_add, e] at this
  · have e2 : '/' :: '*' :: (t ++ "*/".toList) ++ ['\n'] = '/' :: '*' :: (t ++ "*/\n".toList) := by simp
    rw [e2] at this
    rw [e]
    exact this
  · rw [e]
    have e2 : '/' :: '*' :: (t ++ "*/".toList) = ('/' :: '*' :: (t ++ ['*'])) ++ ['/'] := by simp
    rw [e2, List.getLast?_concat]
    decide

/-- The text is a block comment. -/
def blockOk (l : Str) : Bool :=
  let t := (l.drop 2).take (l.length - 4)
  decide (l = '/' :: '*' :: (t ++ ['*', '/']) ∧ t.length ≤ 9000 ∧ '\\' ∉ t ∧ (t.zip t.tail).all (fun p => !(p.1 == '*' && p.2 == '/')) = true ∧
    t.getLast? ≠ some '*')

theorem gen_blockOk {s : String} (h : blockOk s.toList = true) (D : Defs) : Gen files [opLine s] D D [] := by
  unfold blockOk at h
  obtain ⟨h1, h2, h3, h4, h5⟩ := of_decide_eq_true h
  exact gen_block h1 h2 h3 h4 h5 D

theorem fmonBlock (D : Defs) : Gen files [opLine "/*\nThis file contains the prototypes of all the functions that will be called\nfrom each Unpack_*name* function to detect DBC related errors\nIt is the user responsibility to defined these functions in the\nseparated .c file. If it won't be done the linkage error will happen\n*/"] D D [] :=
  gen_blockOk (by decide +kernel) D

theorem verFmon {n : Str} (hn : IsIdent n ∧ n.length ≤ 1100) {v : Nat} (hv : v < 2 ^ 64) {t : Str}
    (e : t = "#define ".toList ++ n ++ "_FMON (".toList ++ decStr v ++ "U)".toList) :
    HP files D0 E [.appendF t] [⟨false, n ++ "_FMON".toList, .obj (par [.word (decStr v ++ "U".toList)])⟩] [] := by
  refine HP.num (isIdent_word hn.1 (by decide)) ?_ (numW_decStrU _).word (decStr_len64 hv) ?_
  · have := hn.2
    rw [List.length_append]
    simp only [String.reduceToList, List.length_cons, List.length_nil]
    omega
  · rw [e]
    simp only [List.append_assoc]
    rfl

theorem HP.map {α : Type} {L : List α} {f : α → WOp} {ds : α → DefE} (h : ∀ x ∈ L, HP files D0 E [f x] [ds x] []) :
    HP files D0 E (L.map f) (L.map ds) [] := by
  have := HP.flatMap (f := fun x => [f x]) (ds := fun x => [ds x]) (is := fun _ => []) h
  refine ((this.eqD ?_).eqI ?_).eqO ?_
  · exact (List.map_eq_flatMap ..).symm
  · simp
  · exact (List.map_eq_flatMap ..).symm

theorem HP.mapI {α : Type} {L : List α} {f : α → WOp} {is : α → Spec.Item} (h : ∀ x ∈ L, HP files D0 E [f x] [] [is x]) :
    HP files D0 E (L.map f) [] (L.map is) := by
  have := HP.flatMap (f := fun x => [f x]) (ds := fun x => []) (is := fun x => [is x]) h
  refine ((this.eqD ?_).eqI ?_).eqO ?_
  · simp
  · exact (List.map_eq_flatMap ..).symm
  · exact (List.map_eq_flatMap ..).symm

theorem GSkip.map {α : Type} {L : List α} {f : α → WOp} (h : ∀ x ∈ L, GSkip files [f x]) : GSkip files (L.map f) := by
  rw [List.map_eq_flatMap]
  exact GSkip.flatMap h

/-- The header of the monitor functions: one function for all messages. -/
def fmonMono (g : GenDesc) (msgs : List Msg) : List WOp :=
  [opEmpty, .appendF ("void _FMon_MONO_".toList ++ g.drvLow ++ "(FrameMonitor_t* _mon, uint32_t msgid);".toList), opEmpty] ++
    msgs.map (fun m => .appendF ("#define FMon_".toList ++ m.name ++ "_".toList ++ g.drvLow ++ "(x, y) _FMon_MONO_".toList ++ g.drvLow ++ "((x), (y))".toList)) ++ [opEmpty]
/-- The header of the monitor functions: one function per message. -/
def fmonEach (g : GenDesc) (msgs : List Msg) : List WOp :=
  [opEmpty] ++
    msgs.map (fun m => .appendF ("void _FMon_".toList ++ m.name ++ "_".toList ++ g.drvLow ++ "(FrameMonitor_t* _mon, uint32_t msgid);".toList)) ++
    [opEmpty] ++ msgs.map (fun m => .appendF ("#define FMon_".toList ++ m.name ++ "_".toList ++ g.drvLow ++ "(x, y) _FMon_".toList ++ m.name ++ "_".toList ++ g.drvLow ++ "((x), (y))".toList)) ++
    [opEmpty]
/-- The header of the monitor functions behind the monitor struct. -/
def fmonCond (g : GenDesc) (msgs : List Msg) : List WOp :=
  [opIfdef (monoName g)] ++ fmonMono g msgs ++ [opLine "#else"] ++ fmonEach g msgs ++ [opLine "#endif"]

theorem fmonCond_parts (hl : IsIdent g.drvLow ∧ g.drvLow.length ≤ 500) {msgs : List Msg} (hn : ∀ m ∈ msgs, IsIdent m.name ∧ m.name.length ≤ 500) :
    (GSkip files (fmonMono g msgs) ∧ GSkip files (fmonEach g msgs)) ∧
    (∀ (D0 E : Defs), Base E → E.lookup (fmonFn g true []) = none → HP files D0 E (fmonMono g msgs) (msgs.map (fmonDef g true)) (fmonItems g true msgs)) ∧
    ∀ (D0 E : Defs), Base E → (∀ m ∈ msgs, E.lookup (fmonFn g false m.name) = none) → HP files D0 E (fmonEach g msgs) (msgs.map (fmonDef g false)) (fmonItems g false msgs) := by
  have hmi : fmonFn g true [] = "_FMon_MONO_".toList ++ g.drvLow := if_pos rfl
  have h0i : IsIdent (fmonFn g true []) ∧ (fmonFn g true []).length ≤ 1100 := by
    rw [hmi]
    refine ⟨isIdent_lit (s := "_FMon_MONO_") (by decide) hl.1, ?_⟩
    have := hl.2
    simp only [List.length_append, String.reduceToList, List.length_cons, List.length_nil]
    omega
  have d1 : ∀ {D0 E : Defs}, ∀ m ∈ msgs, HP files D0 E [.appendF ("#define FMon_".toList ++ m.name ++ "_".toList ++ g.drvLow ++ "(x, y) _FMon_MONO_".toList ++ g.drvLow ++ "((x), (y))".toList)]
      [fmonDef g true m] [] := fun m hmm => fmonDef_read hl (hn m hmm) true (by
    unfold fmonMac fmonFn
    rw [if_pos rfl]
    simp only [String.reduceToList, List.append_assoc, List.cons_append, List.nil_append])
  have d2 : ∀ {D0 E : Defs}, ∀ m ∈ msgs, HP files D0 E [.appendF ("#define FMon_".toList ++ m.name ++ "_".toList ++ g.drvLow ++ "(x, y) _FMon_".toList ++ m.name ++ "_".toList ++ g.drvLow ++ "((x), (y))".toList)]
      [fmonDef g false m] [] := fun m hmm => fmonDef_read hl (hn m hmm) false (by
    unfold fmonMac fmonFn
    rw [if_neg Bool.false_ne_true]
    simp only [String.reduceToList, List.append_assoc, List.cons_append, List.nil_append])
  have p1 : ∀ {D : Defs}, Base D → D.lookup (fmonFn g true []) = none →
      GItems files [.appendF ("void _FMon_MONO_".toList ++ g.drvLow ++ "(FrameMonitor_t* _mon, uint32_t msgid);".toList)] D D
      [.proto "void".toList (fmonFn g true []) fmonParams] := fun hB hl => fmonProto_read h0i hB hl (by
    rw [hmi]
    simp only [String.reduceToList, List.append_assoc, List.cons_append, List.nil_append])
  have p2 : ∀ {D : Defs}, Base D → ∀ m ∈ msgs, D.lookup (fmonFn g false m.name) = none →
      GItems files [.appendF ("void _FMon_".toList ++ m.name ++ "_".toList ++ g.drvLow ++ "(FrameMonitor_t* _mon, uint32_t msgid);".toList)] D D
      [.proto "void".toList (fmonFn g false m.name) fmonParams] := fun hB m hmm hq => fmonProto_read (fmonFn_ident hl (hn m hmm) false) hB hq (by
    unfold fmonFn
    rw [if_neg Bool.false_ne_true]
    simp only [String.reduceToList, List.append_assoc, List.cons_append, List.nil_append])
  have s1 : GSkip files (fmonMono g msgs) :=
    GSkip.append (GSkip.append (GSkip.append (a := [opEmpty]) (Gen.empty (D := [])).skip (GSkip.append (p1 base_nil rfl).skip (Gen.empty (D := [])).skip))
      (GSkip.map fun m hmm => HP.skip1 (d1 m hmm))) (Gen.empty (D := [])).skip
  have s2 : GSkip files (fmonEach g msgs) :=
    GSkip.append (GSkip.append (GSkip.append (GSkip.append (Gen.empty (D := [])).skip (GSkip.map fun m hmm => (p2 base_nil m hmm rfl).skip)) (Gen.empty (D := [])).skip)
      (GSkip.map fun m hmm => HP.skip1 (d2 m hmm))) (Gen.empty (D := [])).skip
  refine ⟨⟨s1, s2⟩, fun D0 E hB h0 => ?_, fun D0 E hB hm2 => ?_⟩
  · have q1 : HP files D0 E [.appendF ("void _FMon_MONO_".toList ++ g.drvLow ++ "(FrameMonitor_t* _mon, uint32_t msgid);".toList)] []
        [.proto "void".toList (fmonFn g true []) fmonParams] := HP.items fun D _ s => p1 (s.base hB) (s.none h0)
    have q2 : HP files D0 E [opEmpty] [] [] := HP.quiet fun _ _ _ => Gen.empty
    have := ((q2.append (q1.append q2)).append (HP.map fun m hmm => d1 (D0 := D0) (E := E) m hmm)).append q2
    refine (this.eqD ?_).eqI ?_
    · simp
    · rfl
  · have q2 : HP files D0 E [opEmpty] [] [] := HP.quiet fun _ _ _ => Gen.empty
    have q1 : HP files D0 E (msgs.map (fun m => .appendF ("void _FMon_".toList ++ m.name ++ "_".toList ++ g.drvLow ++ "(FrameMonitor_t* _mon, uint32_t msgid);".toList))) []
        (fmonItems g false msgs) := HP.mapI fun m hmm => HP.items fun D _ s => p2 (s.base hB) m hmm (s.none (hm2 m hmm))
    have := (((q2.append q1).append q2).append (HP.map fun m hmm => d2 (D0 := D0) (E := E) m hmm)).append q2
    refine (this.eqD ?_).eqI ?_
    · simp
    · simp

theorem fmonCond_skip (hu : IsIdent g.drvUp ∧ g.drvUp.length ≤ 500) (hl : IsIdent g.drvLow ∧ g.drvLow.length ≤ 500) {msgs : List Msg} (hn : ∀ m ∈ msgs, IsIdent m.name ∧ m.name.length ≤ 500) :
    GSkip files (fmonCond g msgs) := by
  have hmo : IsIdent (monoName g) ∧ (monoName g).length ≤ 1000 := drvWord hu "_USE_MONO_FMON" (by decide) (by decide)
  obtain ⟨⟨s1, s2⟩, -⟩ := fmonCond_parts (files := files) hl hn
  exact GSkip.ifdefElse (words_of_ident hmo.1) (by have := hmo.2; omega) closeOp_plain s1 s2

/-- The switch between one function and a function per message. -/
theorem HP.mono {a b : List WOp} {y : WOp} (hd : HeadOk g files D0 E) (hy : CloseOp files y) (ha : GSkip files a) (hb : GSkip files b) {ds : Bool → List DefE} {l : Bool → List Spec.Item}
    (h1 : (E.lookup (monoName g)).isSome = true → HP files D0 E a (ds true) (l true)) (h2 : (E.lookup (monoName g)).isSome = false → HP files D0 E b (ds false) (l false)) :
    HP files D0 E ([opIfdef (monoName g)] ++ a ++ [opLine "#else"] ++ b ++ [y]) (ds (E.lookup (monoName g)).isSome) (l (E.lookup (monoName g)).isSome) := by
  have hmo : IsIdent (monoName g) ∧ (monoName g).length ≤ 1000 := drvWord hd.drvUp "_USE_MONO_FMON" (by decide) (by decide)
  have hmm : (D0.lookup (monoName g)).isSome = true ∨ E.lookup (monoName g) = none := hd.mono
  rcases hmm with hx | hx
  · by_cases hs : Sub D0 E
    · have hy2 : (E.lookup (monoName g)).isSome = true := hs.isSome hx
      have h1 := h1 hy2
      rw [hy2]
      exact HP.elseT (words_of_ident hmo.1) (by have := hmo.2; omega) hx hy h1 hb
    · intro D t1 t2 _
      exact absurd (t1.trans ((Sub.addAll D _).trans t2)) hs
  · have h2 := h2 (by rw [hx]; rfl)
    rw [hx]
    exact HP.elseF (words_of_ident hmo.1) (by have := hmo.2; omega) hx hy ha h2

theorem fmonCond_read (hd : HeadOk g files D0 E) {msgs : List Msg} (hm : ∀ m ∈ msgs, FmonOk g E (E.lookup (monoName g)).isSome m) (h0 : E.lookup (fmonFn g true []) = none) :
    HP files D0 E (fmonCond g msgs) (msgs.map (fmonDef g (E.lookup (monoName g)).isSome)) (fmonItems g (E.lookup (monoName g)).isSome msgs) := by
  obtain ⟨⟨s1, s2⟩, q1, q2⟩ := fmonCond_parts (files := files) hd.drvLow fun m h => (hm m h).name
  refine HP.mono (ds := fun b => msgs.map (fmonDef g b)) (l := fun b => fmonItems g b msgs) hd closeOp_plain s1 s2 (fun _ => q1 D0 E hd.base h0) fun h => q2 D0 E hd.base fun m hmm => ?_
  have := (hm m hmm).fn
  rw [h] at this
  exact this

/-- The start of the header of the monitor functions. -/
def fmonHeadA (g : GenDesc) : List WOp :=
  [.appendText g.commonInfo, .appendText g.driverInfo, opLine "#pragma once", opEmpty, opLine "#ifdef __cplusplus\nextern \"C\" {\n#endif", opEmpty, opLine "// DBC file version",
   .appendF ("#define ".toList ++ g.verhigh ++ "_FMON (".toList ++ decStr g.hiver ++ "U)".toList), .appendF ("#define ".toList ++ g.verlow ++ "_FMON (".toList ++ decStr g.lowver ++ "U)".toList), opEmpty]

/-- Versions in the header of the monitor functions. -/
def fmonVerDefs (g : GenDesc) : List DefE :=
  [⟨false, g.verhigh ++ "_FMON".toList, .obj (par [.word (decStr g.hiver ++ "U".toList)])⟩,
   ⟨false, g.verlow ++ "_FMON".toList, .obj (par [.word (decStr g.lowver ++ "U".toList)])⟩]

theorem fmonDefs_eq (g : GenDesc) (mono : Bool) (msgs : List Msg) : fmonDefs g mono msgs = fmonVerDefs g ++ msgs.map (fmonDef g mono) := rfl

theorem fmonHeadA_read {D1 : Defs} {files1 : List (Str × Str)} (hd : HeadOk g files1 D1 E) : HP files D0 E (fmonHeadA g) (fmonVerDefs g) [] := by
  have hcpp : HP files D0 E [opLine "#ifdef __cplusplus\nextern \"C\" {\n#endif"] [] [] := HP.quiet fun D _ s => gen_cppOpen (s.none hd.cpp)
  have q2 : HP files D0 E [opEmpty] [] [] := HP.quiet fun _ _ _ => Gen.empty
  have := HP.pre (fun D => Gen.commentText hd.common) <| HP.pre (fun D => Gen.commentText hd.driver) <| HP.pre gen_pragma <| HP.pre (fun D => Gen.empty) <|
    hcpp.append <| HP.pre (fun D => Gen.empty) <| HP.pre (gen_cmt "// DBC file version" (by decide)) <|
    (verFmon (files := files) (D0 := D0) (E := E) hd.verhigh hd.ver.1 rfl).append <| (verFmon (files := files) (D0 := D0) (E := E) hd.verlow hd.ver.2 rfl).append q2
  exact this

/-- Behind the monitor struct. -/
def fmonRest (g : GenDesc) (msgs : List Msg) : List WOp :=
  opLine "/*\nThis file contains the prototypes of all the functions that will be called\nfrom each Unpack_*name* function to detect DBC related errors\nIt is the user responsibility to defined these functions in the\nseparated .c file. If it won't be done the linkage error will happen\n*/" ::
  opEmpty :: (fmonCond g msgs ++ [opEmpty])

theorem fmonRest_read (hd : HeadOk g files D0 E) {msgs : List Msg} (hm : ∀ m ∈ msgs, FmonOk g E (E.lookup (monoName g)).isSome m) (h0 : E.lookup (fmonFn g true []) = none) :
    HP files D0 E (fmonRest g msgs) (msgs.map (fmonDef g (E.lookup (monoName g)).isSome)) (fmonItems g (E.lookup (monoName g)).isSome msgs) := by
  have q2 : HP files D0 E [opEmpty] [] [] := HP.quiet fun _ _ _ => Gen.empty
  have := HP.pre fmonBlock <| HP.pre (fun D => Gen.empty) <| (fmonCond_read hd hm h0).append q2
  exact (this.eqD (by simp)).eqI (by simp)

theorem fmonRest_skip (hu : IsIdent g.drvUp ∧ g.drvUp.length ≤ 500) (hl : IsIdent g.drvLow ∧ g.drvLow.length ≤ 500) {msgs : List Msg} (hn : ∀ m ∈ msgs, IsIdent m.name ∧ m.name.length ≤ 500) :
    GSkip files (fmonRest g msgs) :=
  GSkip.append (a := [_]) (fmonBlock []).skip (GSkip.append (a := [_]) (Gen.empty (D := [])).skip ((fmonCond_skip hu hl hn).append (Gen.empty (D := [])).skip))

/-- The end of the header. -/
def fmonHeadB : List WOp := [opEmpty, opLine "#ifdef __cplusplus\n}\n#endif"]

theorem fmonHeadB_read (h : E.lookup "__cplusplus".toList = none) : HP files D0 E fmonHeadB [] [] :=
  HP.pre (fun D => Gen.empty) (HP.quiet fun D _ s => gen_cppClose (s.none h))

theorem fmonHeader_eq (g : GenDesc) (msgs : List Msg) : fmonHeaderOps g msgs =
    fmonHeadA g ++ ([configIncOp g] ++ ([opEmpty] ++ (([opIfdef g.usemon] ++ ([opEmpty] ++ ([opLine "#include \"canmonitorutil.h\""] ++ fmonRest g msgs)) ++ [opEndif g.usemon]) ++ fmonHeadB))) := by
  unfold fmonHeaderOps fmonHeadA fmonRest fmonCond fmonMono fmonEach fmonHeadB monoName opIfdef configIncOp
  simp only [List.append_assoc, List.cons_append, List.nil_append]

theorem fmonHeader_read (hd : HeadOk g files D0 E) {msgs : List Msg} (hmon : (D0.lookup g.usemon).isSome = true)
    (hm : ∀ m ∈ msgs, FmonOk g E (E.lookup (monoName g)).isSome m) (h0 : E.lookup (fmonFn g true []) = none) :
    HP files D0 E (fmonHeaderOps g msgs) (fmonDefs g (E.lookup (monoName g)).isSome msgs) (fmonItems g (E.lookup (monoName g)).isSome msgs) := by
  have hw := hd.flagW .useMon
  have hinc : HP files D0 E [opLine "#include \"canmonitorutil.h\""] [] [] := HP.quiet fun D s1 s2 =>
    gen_include (files := files) (n := "canmonitorutil.h".toList) (by decide) (by decide) (hd.monutil (s2.isSome (s1.isSome hmon))) D
  have q2 : HP files D0 E [opEmpty] [] [] := HP.quiet fun _ _ _ => Gen.empty
  have hin := HP.ifdefT (files := files) hw.1 (by have := hw.2; omega) hmon (closeOp_comment hw.1 (by have := hw.2; omega)) (q2.append (hinc.append (fmonRest_read hd hm h0)))
  have := (fmonHeadA_read hd).append (HP.pre (configInc_read hd) (q2.append (hin.append (fmonHeadB_read hd.cpp))))
  rw [fmonHeader_eq]
  refine (this.eqD ?_).eqI ?_
  · rw [fmonDefs_eq]
    simp
  · simp

end Verif
