import Verif.Proofs.FmonRead
import Verif.Proofs.FixedText
/-
The beginning of the generated source file, read by the preprocessor: the headers it includes, the version
check, the hooks, the sign extension helper.
-/
namespace Verif
open Spec

variable {files : List (Str × Str)} {D D0 D1 E : Defs} {g : GenDesc} {m : Msg}

/-! ### Included files -/

theorem OL.ppl {ops : List WOp} {ls : List Str} (h : OL ops ls) : PPL (opsText ops) ls := by
  obtain ⟨t, e, p⟩ := h
  rw [e.text]
  exact p

theorem GItems.include {ops : List WOp} {l : List Spec.Item} {D' : Defs} {n : Str} (h : GItems files ops D D' l) (hn : PlainT n) (hl : n.length ≤ 4000)
    (hf : files.lookup n = some (opsText ops)) : GItems files [.appendF ("#include \"".toList ++ n ++ "\"".toList)] D D' l := by
  obtain ⟨us, ⟨ls, o, r⟩, p⟩ := h
  exact ⟨us, ⟨_, ol_include hn hl, fun out => Run.includeFile (includeOf_quote n) hf o.ppl (r out)⟩, p⟩

theorem HP.include {ops : List WOp} {ds : List DefE} {l : List Spec.Item} {n : Str} (h : HP files D0 E ops ds l) (hn : PlainT n) (hl : n.length ≤ 4000)
    (hf : files.lookup n = some (opsText ops)) : HP files D0 E [.appendF ("#include \"".toList ++ n ++ "\"".toList)] ds l :=
  fun D s1 s2 hfr => (h D s1 s2 hfr).include hn hl hf

theorem skip_include {n : Str} (hn : PlainT n) (hl : n.length ≤ 4000) : GSkip files [.appendF ("#include \"".toList ++ n ++ "\"".toList)] := by
  refine ⟨_, ol_include hn hl, fun f d st hs => ?_⟩
  rw [List.foldl_cons, List.foldl_nil]
  unfold ppStep
  rw [includeOf_quote]
  simp [hs]

/-! ### The version check -/

theorem ppLine_if {l rest : Str} (h : IsDir l "if".toList rest) (f : Nat) (st : PP) :
    ppLine f st l = if st.live then (match ifCond f st.defs rest with | some c => st.push c | none => { st with fail := true }) else st.push false := by
  obtain ⟨r, h1, h2⟩ := h
  unfold ppLine
  rw [h1]
  simp only [h2]
  rw [if_neg (by decide), if_neg (by decide), if_pos trivial]
  rfl

theorem ifLine_if {l rest : Str} {us : List Tok} {e : PExpr} {v : Int} {c : Core} (h : IsDir l "if".toList rest) (hx : Exp c.defs [] (lex rest) us)
    (hp : PA topLevel us e) (hv : ppEval e = some v) : IfLine files l c (decide (v ≠ 0)) := by
  refine ⟨fun f d st hs => ⟨false, ?_⟩, ?_⟩
  · rw [ppStep_dir h (by decide), ppLine_if h, hs]
    rfl
  · obtain ⟨F, hF⟩ := hx
    obtain ⟨G, hG⟩ := hp [] (fun _ _ h => by cases h) (fun _ _ _ _ h => by cases h)
    refine ⟨max F G, fun f hf d _ fr hl => ?_⟩
    rw [ppStep_dir h (by decide), ppLine_if h, hl, if_pos rfl]
    have e1 : ifCond f (mkPP fr c).defs rest = some (decide (v ≠ 0)) := by
      unfold ifCond
      have : expand f (mkPP fr c).defs [] (lex rest) = some us := hF f (by omega)
      rw [this]
      dsimp only
      rw [List.append_nil] at hG
      rw [parseGo_mono hG f (by omega)]
      dsimp only
      rw [hv]
      rfl
    rw [e1]

/-- Expression of the version check: the versions of the header and of the source file. -/
def verExpr (a a' b b' : Str) : PExpr := .bin ['|', '|'] (.bin ['!', '='] (.num a) (.num a')) (.bin ['!', '='] (.num b) (.num b'))

theorem parNum {a : Str} (ha : inNumber a = true) : PPst (par [.word a]) (.num a) := by
  have := PPst.parenWord (isType_num ha)
  unfold atom at this
  rw [atom_num ha] at this
  exact this

theorem ne_parse {a a' : Str} (ha : inNumber a = true) (ha' : inNumber a' = true) :
    PPst (par (par [.word a] ++ .p ['!', '='] :: par [.word a'])) (.bin ['!', '='] (.num a) (.num a')) := by
  have := PA.bin (k := 4) (op := ['!', '=']) rfl rfl ((parNum ha).at0.mono (Nat.zero_le 4)) ((parNum ha').at0.mono (Nat.zero_le 4))
  exact PPst.paren rfl (this.mono (l := topLevel) (by decide))

/-- Tokens of the version check after macro replacement. -/
def verToks (a a' b b' : Str) : List Tok :=
  par (par [.word a] ++ .p ['!', '='] :: par [.word a']) ++ .p ['|', '|'] :: par (par [.word b] ++ .p ['!', '='] :: par [.word b'])

theorem ver_parse {a a' b b' : Str} (ha : inNumber a = true) (ha' : inNumber a' = true) (hb : inNumber b = true) (hb' : inNumber b' = true) :
    PA topLevel (verToks a a' b b') (verExpr a a' b b') :=
  (PA.bin (k := 9) (op := ['|', '|']) rfl rfl ((ne_parse ha ha').at0.mono (Nat.zero_le 9)) ((ne_parse hb hb').at0.mono (Nat.zero_le 9))).mono (by decide)

theorem ver_eval {a a' b b' : Str} {x x' y y' : CVal} (ha : litOf a = some x) (ha' : litOf a' = some x') (hb : litOf b = some y) (hb' : litOf b' = some y') :
    ppEval (verExpr a a' b b') = some (if x.val = x'.val ∧ y.val = y'.val then 0 else 1) := by
  unfold verExpr
  rw [ppEval, ppEval, ppEval, ppEval, ppEval, ppEval, ppEval, ha, ha', hb, hb']
  by_cases h1 : x.val = x'.val <;> by_cases h2 : y.val = y'.val <;> simp [h1, h2]

theorem ver_expand (hB : Base D) {vh vl a a' b b' : Str} (h1 : D.lookup vh = some (.obj (par [.word a]))) (h2 : D.lookup vl = some (.obj (par [.word b])))
    (ha : inNumber a = true) (ha' : inNumber a' = true) (hb : inNumber b = true) (hb' : inNumber b' = true) :
    ExpP D [] (par (.word vh :: .p ['!', '='] :: par [.word a']) ++ .p ['|', '|'] :: par (.word vl :: .p ['!', '='] :: par [.word b'])) (verToks a a' b b') := by
  have n1 : ∀ {w : Str}, inNumber w = true → ExpP D [] (par [.word w]) (par [.word w]) := fun hw => ExpP.par (ExpP.name (hB.num _ hw))
  have q1 : ∀ {n w w' : Str}, D.lookup n = some (.obj (par [.word w])) → inNumber w = true → inNumber w' = true →
      ExpP D [] (par (.word n :: .p ['!', '='] :: par [.word w'])) (par (par [.word w] ++ .p ['!', '='] :: par [.word w'])) := fun hn hw hw' =>
    ExpP.par ((ExpP.numObj hB hn hw).append ((ExpP.punct ['!', '=']).append (n1 hw')))
  exact (q1 h1 ha ha').append ((ExpP.punct ['|', '|']).append (q1 h2 hb hb'))

theorem isDir_if (n : Str) : IsDir ("#if ".toList ++ n) "if".toList (' ' :: n) := ⟨"if ".toList ++ n, rfl, rfl⟩
theorem isDir_error (n : Str) : IsDir ("#error ".toList ++ n) "error".toList (' ' :: n) := ⟨"error ".toList ++ n, rfl, rfl⟩

/-- The text of the version check behind `#if`. -/
def verSegs (g : GenDesc) (hi lo : Nat) : List Seg :=
  [.l " (", .w g.verhigh, .l " != (", .w (decStr hi ++ "U".toList), .l ")) || (", .w g.verlow, .l " != (", .w (decStr lo ++ "U".toList), .l "))"]

theorem versionCheck_eq (hi lo : Nat) : versionCheck g hi lo = "#if".toList ++ segText (verSegs g hi lo) := by
  unfold versionCheck verSegs
  simp only [segText, Seg.text, String.reduceToList, List.append_assoc, List.cons_append, List.nil_append, List.append_nil]

/-- Result of the version check of a source file: the condition of its `#if` line. -/
theorem versionCheck_line (hB : Base D) {hi lo hi' lo' : Nat} (hv : IsWord g.verhigh ∧ g.verhigh.length ≤ 1100) (hl : IsWord g.verlow ∧ g.verlow.length ≤ 1100)
    (h1 : D.lookup g.verhigh = some (.obj (par [.word (decStr hi ++ "U".toList)]))) (h2 : D.lookup g.verlow = some (.obj (par [.word (decStr lo ++ "U".toList)])))
    (b1 : hi < 2 ^ 32) (b2 : lo < 2 ^ 32) (b3 : hi' < 2 ^ 32) (b4 : lo' < 2 ^ 32) :
    OL [.appendF (versionCheck g hi' lo')] [versionCheck g hi' lo'] ∧
    ∀ out, IfLine files (versionCheck g hi' lo') ⟨D, out, false⟩ (decide (¬ (hi = hi' ∧ lo = lo'))) := by
  have n1 := numW_decStrU hi
  have n2 := numW_decStrU lo
  have n3 := numW_decStrU hi'
  have n4 := numW_decStrU lo'
  have l3 : (decStr hi' ++ "U".toList).length ≤ 1000 := decStr_len64 (by omega)
  have l4 : (decStr lo' ++ "U".toList).length ≤ 1000 := decStr_len64 (by omega)
  have hw : SegsW (verSegs g hi' lo') := ⟨hv.1, n3.word, hl.1, n4.word, trivial⟩
  have hs : SegsShort 1100 (verSegs g hi' lo') := ⟨hv.2, by omega, hl.2, by omega, trivial⟩
  constructor
  · rw [versionCheck_eq]
    refine ol_plain ((plain_lit (by decide)).append (plain_segs rfl hw trivial)) (length_lit_append (k := 9000) _ (by decide) ?_ (by omega))
    refine Nat.le_trans (length_segs hs) ?_
    unfold verSegs
    seg_len
  · intro out
    have hd : IsDir (versionCheck g hi' lo') "if".toList (segText (verSegs g hi' lo')) := by
      rw [versionCheck_eq]
      exact isDir_if _
    have hx := ver_expand hB h1 h2 n1.1 n3.1 n2.1 n4.1
    have := ifLine_if (files := files) (c := ⟨D, out, false⟩) hd (by rw [lex_segs _ rfl hw]; exact hx.exp) (ver_parse n1.1 n3.1 n2.1 n4.1)
      (ver_eval (litOf_decStrU b1) (litOf_decStrU b3) (litOf_decStrU b2) (litOf_decStrU b4))
    have e : decide ((if ((hi : Nat) : Int) = ((hi' : Nat) : Int) ∧ ((lo : Nat) : Int) = ((lo' : Nat) : Int) then (0 : Int) else 1) ≠ 0) = decide (¬ (hi = hi' ∧ lo = lo')) := by
      by_cases h : hi = hi' ∧ lo = lo'
      · rw [h.1, h.2]
        simp
      · have : ¬ (((hi : Nat) : Int) = ((hi' : Nat) : Int) ∧ ((lo : Nat) : Int) = ((lo' : Nat) : Int)) := by omega
        rw [if_neg this]
        simp [h]
    rw [e] at this
    exact this

theorem gen_versionSame (hB : Base D) {hi lo : Nat} (hv : IsWord g.verhigh ∧ g.verhigh.length ≤ 1100) (hl : IsWord g.verlow ∧ g.verlow.length ≤ 1100)
    (h1 : D.lookup g.verhigh = some (.obj (par [.word (decStr hi ++ "U".toList)]))) (h2 : D.lookup g.verlow = some (.obj (par [.word (decStr lo ++ "U".toList)])))
    (b1 : hi < 2 ^ 32) (b2 : lo < 2 ^ 32) (hd : IsIdent g.drvUp ∧ g.drvUp.length ≤ 500) :
    Gen files [.appendF (versionCheck g hi lo), .appendF ("#error The ".toList ++ g.drvUp ++ " dbc source files have different versions".toList), opLine "#endif"] D D [] := by
  obtain ⟨o, i⟩ := versionCheck_line (files := files) (hi' := hi) (lo' := lo) hB hv hl h1 h2 b1 b2 b1 b2
  have o2 : OL [.appendF ("#error The ".toList ++ g.drvUp ++ " dbc source files have different versions".toList)]
      ["#error The ".toList ++ g.drvUp ++ " dbc source files have different versions".toList] := by
    refine ol_plain (((plain_lit (by decide)).append (plainT_word (isWord_ident hd.1))).append (plain_lit (by decide))) ?_
    have := hd.2
    simp only [List.length_append, String.reduceToList, List.length_cons, List.length_nil]
    omega
  have s2 : Skips files ["#error The ".toList ++ g.drvUp ++ " dbc source files have different versions".toList] :=
    Skips.dir (isDir_error ("The ".toList ++ g.drvUp ++ " dbc source files have different versions".toList)) (by decide) (by decide) (by decide) (by decide) (by decide)
  refine ⟨[versionCheck g hi lo] ++ (["#error The ".toList ++ g.drvUp ++ " dbc source files have different versions".toList] ++ ["#endif".toList]), ?_, fun out => ?_⟩
  · exact o.append (o2.append ol_endif)
  · rw [List.append_nil]
    have hi := i out
    rw [decide_eq_false (by simp)] at hi
    exact Run.ifSkip hi endLine_plain s2

/-! ### Hooks -/

def tickDef : DefE := ⟨true, "GetSystemTick".toList, .fn [] (tickBody .zero)⟩
def hashDef : DefE := ⟨true, "GetFrameHash".toList, .fn hashParams (hashToks .zero (hashParams.map fun p => [.word p]))⟩

theorem hp_tick : HP files D0 E [opLine "#ifndef GetSystemTick", opLine "#define GetSystemTick() (0u)", opLine "#endif"] [tickDef] [] :=
  HP.guarded (files := files) (D0 := D0) (E := E) (c := []) (n := "GetSystemTick".toList) (t := "GetSystemTick() (0u)".toList) ⟨by decide, by decide⟩ (by decide) (fun _ => Gen.nil)
    (ol_plain (t := "#define GetSystemTick() (0u)".toList) (plain_lit (by decide)) (by decide)) (by decide) closeOp_plain

theorem hp_hash : HP files D0 E [opLine "#ifndef GetFrameHash", opLine "#define GetFrameHash(a,b,c,d,e) (0u)", opLine "#endif"] [hashDef] [] :=
  HP.guarded (files := files) (D0 := D0) (E := E) (c := []) (n := "GetFrameHash".toList) (t := "GetFrameHash(a,b,c,d,e) (0u)".toList) ⟨by decide, by decide⟩ (by decide) (fun _ => Gen.nil)
    (ol_plain (t := "#define GetFrameHash(a,b,c,d,e) (0u)".toList) (plain_lit (by decide)) (by decide)) (by decide) closeOp_plain

/-- Macros of the source file behind the main header. -/
def tailDefs (g : GenDesc) (mon mono : Bool) (msgs : List Msg) : List DefE := (if mon then fmonDefs g mono msgs else []) ++ [tickDef, hashDef]

/-- Declarations of the source file between the main header and the functions of the messages. -/
def tailItems (g : GenDesc) (mon mono : Bool) (msgs : List Msg) : List Spec.Item := (if mon then fmonItems g mono msgs else []) ++ [.func extFunc]

theorem HeadOk.mono' (h : HeadOk g files D0 E) (s : Sub D0 D1) : HeadOk g files D1 E :=
  ⟨h.base, h.common, h.driver, h.drvUp, h.drvLow, h.drvOrig, h.verhigh, h.verlow, h.ver, fun f => (h.flag f).imp (fun x => s.isSome x) id, h.flagW,
    h.mono.imp (fun x => s.isSome x) id, h.cpp, h.stdint, h.config, h.monutil⟩

/-- The two generated headers are found under their names. -/
structure FilesOk (g : GenDesc) (files : List (Str × Str)) (hops fops : List WOp) : Prop where
  header : files.lookup (g.drvLow ++ ".h".toList) = some (opsText hops)
  fmon : files.lookup (g.drvLow ++ "-fmon.h".toList) = some (opsText fops)

/-- The comment above the include of the monitor functions. -/
def monCmtOp : WOp := opLine "// Function prototypes to be called each time CAN frame is unpacked\n// FMon function may detect RC, CRC or DLC violation\n"

theorem monCmt_read (D : Defs) : Gen files [monCmtOp] D D [] := by
  have h1 := gen_cmt (files := files) "// Function prototypes to be called each time CAN frame is unpacked" (by decide) D
  have h2 := gen_cmt (files := files) "// FMon function may detect RC, CRC or DLC violation" (by decide) D
  have e : "// Function prototypes to be called each time CAN frame is unpacked\n// FMon function may detect RC, CRC or DLC violation\n".toList =
    "// Function prototypes to be called each time CAN frame is unpacked".toList ++ '\n' :: ("// FMon function may detect RC, CRC or DLC violation".toList ++ ['\n']) := by
    decide +kernel
  unfold monCmtOp opLine
  rw [e]
  exact Gen.nl h1 (Gen.nlEnd h2 (by decide) (by decide)) (by decide) (by decide) (by decide +kernel)

/-- The monitor functions in the source file. -/
def monPart (g : GenDesc) : List WOp :=
  [opIfdef g.usemon] ++ (monCmtOp :: ([.appendF ("#include \"".toList ++ (g.drvLow ++ "-fmon.h".toList) ++ "\"".toList)] ++ [opEmpty])) ++ [opEndif g.usemon]

/-- The source file behind the monitor functions. -/
def sourceTail : List WOp :=
  .appendF [] :: opLine "// This macro guard for the case when you need to enable" :: opLine "// using diag monitors but there is no necessity in proper" ::
  opLine "// SysTick provider. For providing one you need define macro" :: opLine "// before this line - in dbccodeconf.h" :: .appendF [] ::
  ([opLine "#ifndef GetSystemTick", opLine "#define GetSystemTick() (0u)", opLine "#endif"] ++ (.appendF [] :: opLine "// This macro guard is for the case when you want to build" ::
  opLine "// app with enabled optoin auto CSM, but don't yet have" :: opLine "// proper getframehash implementation" :: .appendF [] ::
  ([opLine "#ifndef GetFrameHash", opLine "#define GetFrameHash(a,b,c,d,e) (0u)", opLine "#endif"] ++ [opEmpty, .appendF extSigText])))

theorem sourceTail_read (hB : Base E) : HP files D0 E sourceTail [tickDef, hashDef] [.func extFunc] := by
  have hext : HP files D0 E [.appendF extSigText] [] [.func extFunc] := HP.items fun D _ s => ext_read (s.base hB)
  have := HP.pre (fun D => Gen.appendNil) <|
    HP.pre (gen_cmt "// This macro guard for the case when you need to enable" (by decide)) <|
    HP.pre (gen_cmt "// using diag monitors but there is no necessity in proper" (by decide)) <|
    HP.pre (gen_cmt "// SysTick provider. For providing one you need define macro" (by decide)) <|
    HP.pre (gen_cmt "// before this line - in dbccodeconf.h" (by decide)) <| HP.pre (fun D => Gen.appendNil) <| (hp_tick (files := files) (D0 := D0) (E := E)).append <|
    HP.pre (fun D => Gen.appendNil) <| HP.pre (gen_cmt "// This macro guard is for the case when you want to build" (by decide)) <|
    HP.pre (gen_cmt "// app with enabled optoin auto CSM, but don't yet have" (by decide)) <|
    HP.pre (gen_cmt "// proper getframehash implementation" (by decide)) <| HP.pre (fun D => Gen.appendNil) <| hp_hash.append <| HP.pre (fun D => Gen.empty) hext
  exact this

/-- The check of the versions. -/
def verCheck (g : GenDesc) : List WOp :=
  [.appendF (versionCheck g g.hiver g.lowver), .appendF ("#error The ".toList ++ g.drvUp ++ " dbc source files have different versions".toList), opLine "#endif"]

theorem sourceStart_eq (g : GenDesc) : sourceStartOps g = [.appendText g.commonInfo, .appendText g.driverInfo] ++
    ([.appendF ("#include \"".toList ++ (g.drvLow ++ ".h".toList) ++ "\"".toList)] ++ ((.lines 2 :: opLine "// DBC file version" :: (verCheck g ++ [opEmpty])) ++ (monPart g ++ sourceTail))) := by
  have e : ∀ a : Str, ∀ s : String, "#include \"".toList ++ (a ++ s.toList) ++ "\"".toList = "#include \"".toList ++ a ++ (s.toList ++ "\"".toList) := by
    intro a s
    simp only [List.append_assoc]
  unfold monPart
  rw [e, e]
  rfl

theorem hp_monPart (hd : HeadOk g files D0 E) {msgs : List Msg} {hops : List WOp} (hF : FilesOk g files hops (fmonHeaderOps g msgs)) {mon : Bool}
    (hmon : mon = (E.lookup g.usemon).isSome) (hs : Sub D0 E)
    (hm : mon = true → (∀ m ∈ msgs, FmonOk g E (E.lookup (monoName g)).isSome m) ∧ E.lookup (fmonFn g true []) = none) :
    HP files D0 E (monPart g)
     (if mon then fmonDefs g (E.lookup (monoName g)).isSome msgs else []) (if mon then fmonItems g (E.lookup (monoName g)).isSome msgs else []) := by
  have hw : IsWord g.usemon ∧ g.usemon.length ≤ 1100 := hd.flagW .useMon
  have hc := monCmt_read (files := files)
  have hp := plain_low hd (s := "-fmon.h") (by decide) (by decide)
  have q2 : HP files D0 E [opEmpty] [] [] := HP.quiet fun _ _ _ => Gen.empty
  cases mon with
  | true =>
    rw [if_pos rfl, if_pos rfl]
    have h0 : (D0.lookup g.usemon).isSome = true := by
      rcases hd.flag .useMon with h | h
      · exact h
      · have h : E.lookup g.usemon = none := h
        rw [h] at hmon
        cases hmon
    have hf := (fmonHeader_read (msgs := msgs) hd h0 (hm rfl).1 (hm rfl).2).include hp.1 hp.2 hF.fmon
    have := HP.ifdefT (files := files) hw.1 (by have := hw.2; omega) h0 (closeOp_comment hw.1 (by have := hw.2; omega)) (HP.pre hc (hf.append q2))
    refine (this.eqD ?_).eqI ?_
    · simp
    · simp
  | false =>
    have h0 : E.lookup g.usemon = none := by
      cases h : E.lookup g.usemon with
      | none => rfl
      | some d => rw [h] at hmon; cases hmon
    rw [if_neg Bool.false_ne_true, if_neg Bool.false_ne_true]
    exact HP.ifdefF (files := files) hw.1 (by have := hw.2; omega) h0 (closeOp_comment hw.1 (by have := hw.2; omega))
      (GSkip.append (a := [_]) (hc []).skip (GSkip.append (a := [_]) (skip_include hp.1 hp.2) (Gen.empty (D := [])).skip))

/-- The source file up to the functions of the messages. -/
theorem sourceStart_read (hd : HeadOk g files D0 E) {maxDlc : Nat} (hx : maxDlc < 2 ^ 64) {msgs : List Msg} (hm : ∀ m ∈ msgs, HdrMsg g E m) {hops : List WOp}
    (ho : mainHeaderOps g maxDlc msgs = some hops) (hF : FilesOk g files hops (fmonHeaderOps g msgs)) {mon mono : Bool}
    (hmon : mon = (E.lookup g.usemon).isSome) (hmono : mono = (E.lookup (monoName g)).isSome)
    (hfm : mon = true → (∀ m ∈ msgs, FmonOk g E mono m) ∧ E.lookup (fmonFn g true []) = none)
    (hE : E = addAll D0 (headerDefs g maxDlc msgs ++ tailDefs g mon mono msgs)) (hf : Fresh D0 (headerDefs g maxDlc msgs ++ tailDefs g mon mono msgs))
    (hv : g.hiver < 2 ^ 32 ∧ g.lowver < 2 ^ 32) :
    GItems files (sourceStartOps g) D0 E (headerItems g (fun f => (E.lookup (flagName g f)).isSome) msgs ++ tailItems g mon mono msgs) := by
  subst hmono
  rw [addAll_append] at hE
  rw [fresh_append] at hf
  have s01 : Sub D0 (addAll D0 (headerDefs g maxDlc msgs)) := Sub.addAll _ _
  have s1E : Sub (addAll D0 (headerDefs g maxDlc msgs)) E := by
    rw [hE]
    exact Sub.addAll _ _
  have h1 : GItems files _ D0 (addAll D0 (headerDefs g maxDlc msgs)) _ := header_read hd hx hm ho D0 (Sub.refl _) s1E hf.1
  have l1 : (addAll D0 (headerDefs g maxDlc msgs)).lookup g.verhigh = some (.obj (par [.word (decStr g.hiver ++ "U".toList)])) :=
    strict_lookup hf.1 (e := ⟨false, g.verhigh, .obj (par [.word (decStr g.hiver ++ "U".toList)])⟩) (by unfold headerDefs startDefs; simp) rfl
  have l2 : (addAll D0 (headerDefs g maxDlc msgs)).lookup g.verlow = some (.obj (par [.word (decStr g.lowver ++ "U".toList)])) :=
    strict_lookup hf.1 (e := ⟨false, g.verlow, .obj (par [.word (decStr g.lowver ++ "U".toList)])⟩) (by unfold headerDefs startDefs; simp) rfl
  revert h1 l1 l2 s01 s1E hE hf
  generalize addAll D0 (headerDefs g maxDlc msgs) = D1
  intro hE hf s01 s1E h1 l1 l2
  have hd1 := hd.mono' s01
  have hp := plain_low hd (s := ".h") (by decide) (by decide)
  have hi := h1.include hp.1 hp.2 hF.header
  have p1 := (GItems.silent (files := files) (D := D0) (Gen.commentText hd.common)).cons ((GItems.silent (Gen.commentText hd.driver)).cons hi)
  have p2 := gen_versionSame (files := files) (s1E.base hd.base) ⟨words_of_ident hd.verhigh.1, hd.verhigh.2⟩ ⟨words_of_ident hd.verlow.1, hd.verlow.2⟩ l1 l2 hv.1 hv.2 hd.drvUp
  have p2 : GItems files (.lines 2 :: opLine "// DBC file version" :: (verCheck g ++ [opEmpty])) D1 D1 [] :=
    (GItems.silent (Gen.lines 2)).cons ((GItems.silent (gen_cmt (files := files) "// DBC file version" (by decide) D1)).cons ((GItems.silent p2).append (GItems.silent Gen.empty)))
  have hmp := hp_monPart hd1 hF hmon s1E hfm
  have p3 : HP files D1 E _ _ _ := hmp.append (sourceTail_read hd.base)
  have p3 := p3 D1 (Sub.refl _) (by
    have : addAll D1 (tailDefs g mon (E.lookup (monoName g)).isSome msgs) = E := hE.symm
    unfold tailDefs at this
    rw [this]
    exact Sub.refl _) hf.2
  have eE : E = addAll D1 ((if mon then fmonDefs g (E.lookup (monoName g)).isSome msgs else []) ++ [tickDef, hashDef]) := hE
  rw [← eE] at p3
  have p4 := p1.append (p2.append p3)
  rw [sourceStart_eq]
  exact p4.eq (by
    unfold tailItems
    simp only [List.nil_append])

end Verif
