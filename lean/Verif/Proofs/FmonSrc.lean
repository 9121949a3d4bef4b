import Verif.Proofs.DirDriver
import Verif.Proofs.CallRun
/-
The generated source file of the monitor functions, read by the preprocessor and the C parser.
-/
namespace Verif
open Spec

variable {files : List (Str × Str)} {D D0 E : Defs} {g : GenDesc} {m : Msg} {msgs : List Msg}

/-! ### One function -/

/-- `(void)w;` -/
def voidOf (w : String) : CStm := .expr (.cast "void".toList (.id w.toList))

/-- A monitor function. -/
def fmonFunc (f : Str) : Func := ⟨"void".toList, f, fmonParams, seqs [voidOf "_mon", voidOf "msgid"] .skip⟩

def voidToks (w : String) : List Tok := [.p ['('], .word "void".toList, .p [')'], .word w.toList, .p [';']]

theorem void_seq (w : String) (h : atom w.toList = .id w.toList) : PSeq (voidToks w) [voidOf w] := by
  have := PSeq.one rfl (PStm.expr rfl ((PA.cast (w := "void".toList) (by decide) (PPst.word w.toList).at0).mono (l := topLevel) (by decide)))
  rw [h] at this
  exact this

theorem gen_voidMon (hB : Base D) : Gen files [opLine "  (void)_mon;"] D D (voidToks "_mon") :=
  Gen.lineT [.l "  (void)_mon;"] (by seg_eq) trivial trivial trivial (by seg_len) ((hB.lit [] _).append ExpP.nil) rfl rfl

theorem gen_voidId (hB : Base D) : Gen files [opLine "  (void)msgid;"] D D (voidToks "msgid") :=
  Gen.lineT [.l "  (void)msgid;"] (by seg_eq) trivial trivial trivial (by seg_len) ((hB.lit [] _).append ExpP.nil) rfl rfl

/-- Head of a monitor function. -/
def fmonSig (f : Str) : Str := "void ".toList ++ (f ++ "(FrameMonitor_t* _mon, uint32_t msgid)".toList)

theorem fmonSig_read {f : Str} (h2 : IsIdent f ∧ f.length ≤ 1100) (hB : Base D) (hf : D.lookup f = none) :
    Gen files [.appendF (fmonSig f)] D D (.word "void".toList :: .word f :: .p ['('] :: (fmonInside ++ [.p [')']])) :=
  Gen.lineT [.l "void ", .w f, .l "(FrameMonitor_t* _mon, uint32_t msgid)"]
    (by unfold fmonSig; simp only [segText, Seg.text, List.append_nil]) ⟨words_of_ident h2.1, trivial⟩ trivial ⟨h2.2, trivial⟩ (by seg_len)
    ((hB.lit [] "void ").append ((ExpP.name hf).append (hB.lit [] "(FrameMonitor_t* _mon, uint32_t msgid)"))) rfl rfl

theorem fmonSig_nl {f : Str} (h2 : IsIdent f ∧ f.length ≤ 1100) : '\n' ∉ fmonSig f ∧ (fmonSig f).length ≤ 1200 := by
  have e : fmonSig f = segText [.l "void ", .w f, .l "(FrameMonitor_t* _mon, uint32_t msgid)"] := by
    unfold fmonSig; simp only [segText, Seg.text, List.append_nil]
  refine ⟨?_, ?_⟩
  · rw [e]
    exact (plain_segs rfl (show SegsW [.l "void ", .w f, .l "(FrameMonitor_t* _mon, uint32_t msgid)"] from ⟨words_of_ident h2.1, trivial⟩) trivial).parts.1
  · have := h2.2
    unfold fmonSig
    simp only [List.length_append, String.reduceToList, List.length_cons, List.length_nil]
    omega

/-- The tokens of a monitor function. -/
def fmonToks (f : Str) : List Tok :=
  .word "void".toList :: .word f :: .p ['('] :: (fmonInside ++ .p [')'] :: .p ['{'] :: (voidToks "_mon" ++ voidToks "msgid" ++ [.p ['}']]))

theorem fmonToks_parse (f : Str) : PItems (fmonToks f) [.func (fmonFunc f)] :=
  PItems.func (fun _ => rfl) rfl ((void_seq "_mon" (by decide)).append (void_seq "msgid" (by decide)))

/-- The function written line by line. -/
theorem fmonLines_read {f : Str} (h2 : IsIdent f ∧ f.length ≤ 1100) (hB : Base D) (hf : D.lookup f = none) :
    GItems files [.appendF (fmonSig f), opLine "{", opLine "  (void)_mon;", opLine "  (void)msgid;", opLine "}"] D D [.func (fmonFunc f)] := by
  refine ⟨_, ?_, fmonToks_parse f⟩
  have := Gen.cons (fmonSig_read (files := files) h2 hB hf) (Gen.cons gen_open (Gen.cons (gen_voidMon hB) (Gen.cons (gen_voidId hB) gen_close)))
  exact this

/-- The function written at once. -/
def fmonText (f : Str) : Str := fmonSig f ++ '\n' :: ("{".toList ++ '\n' :: ("  (void)_mon;".toList ++ '\n' :: ("  (void)msgid;".toList ++ '\n' :: ("}".toList ++ '\n' :: "\n".toList))))

theorem gen_nlOnly : Gen files [.appendF "\n".toList] D D [] := by
  have := Gen.nlEnd (Gen.appendNil (files := files) (D := D)) (by simp) (by simp)
  exact this

theorem fmonText_read {f : Str} (h2 : IsIdent f ∧ f.length ≤ 1100) (hB : Base D) (hf : D.lookup f = none) : GItems files [.appendF (fmonText f)] D D [.func (fmonFunc f)] := by
  refine ⟨_, ?_, fmonToks_parse f⟩
  obtain ⟨n1, n2⟩ := fmonSig_nl h2
  have := Gen.nl (fmonSig_read (files := files) h2 hB hf) (Gen.nl (b := "  (void)_mon;".toList ++ '\n' :: ("  (void)msgid;".toList ++ '\n' :: ("}".toList ++ '\n' :: "\n".toList))) gen_open
    (Gen.nl (gen_voidMon hB) (Gen.nl (gen_voidId hB) (Gen.nl gen_close gen_nlOnly (by decide) (by decide) (by decide)) (by decide) (by decide) (by decide)) (by decide) (by decide) (by decide))
    (by decide) (by decide) (by decide)) n1 (by decide) (by
      rw [List.length_append, List.length_cons]
      have : ("{".toList ++ '\n' :: ("  (void)_mon;".toList ++ '\n' :: ("  (void)msgid;".toList ++ '\n' :: ("}".toList ++ '\n' :: "\n".toList)))).length ≤ 100 := by decide
      omega)
  exact this

/-! ### The functions -/

/-- One function for all messages. -/
def srcMono (g : GenDesc) : List WOp :=
  [opEmpty] ++ [.appendF (fmonSig (fmonFn g true [])), opLine "{", opLine "  (void)_mon;", opLine "  (void)msgid;", opLine "}"] ++ [opEmpty]

/-- A function per message. -/
def srcEach (g : GenDesc) (msgs : List Msg) : List WOp := [opEmpty] ++ msgs.map (fun m => .appendF (fmonText (fmonFn g false m.name)))

theorem mono_ident (hl : IsIdent g.drvLow ∧ g.drvLow.length ≤ 500) : IsIdent (fmonFn g true []) ∧ (fmonFn g true []).length ≤ 1100 := by
  refine ⟨isIdent_lit (s := "_FMon_MONO_") (by decide) hl.1, ?_⟩
  have := hl.2
  show ("_FMon_MONO_".toList ++ g.drvLow).length ≤ 1100
  simp only [List.length_append, String.reduceToList, List.length_cons, List.length_nil]
  omega

theorem srcMono_read (hl : IsIdent g.drvLow ∧ g.drvLow.length ≤ 500) (hB : Base D) (hf : D.lookup (fmonFn g true []) = none) :
    GItems files (srcMono g) D D [.func (fmonFunc (fmonFn g true []))] :=
  ((GItems.silent Gen.empty).append (fmonLines_read (mono_ident hl) hB hf)).append (GItems.silent Gen.empty)

theorem srcEach_read (hl : IsIdent g.drvLow ∧ g.drvLow.length ≤ 500) (hB : Base D) (hn : ∀ m ∈ msgs, IsIdent m.name ∧ m.name.length ≤ 500)
    (hf : ∀ m ∈ msgs, D.lookup (fmonFn g false m.name) = none) : GItems files (srcEach g msgs) D D (msgs.map fun m => .func (fmonFunc (fmonFn g false m.name))) := by
  refine GItems.append (k := []) (GItems.silent Gen.empty) ?_
  induction msgs with
  | nil => exact GItems.nil
  | cons m r ih =>
    exact (fmonText_read (fmonFn_ident hl (hn m (by simp)) false) hB (hf m (by simp))).cons (ih (fun x h => hn x (by simp [h])) fun x h => hf x (by simp [h]))

/-- Comment in front of the functions. -/
def srcCmtOp : WOp := opLine "/*\nPut the monitor function content here, keep in mind -\nnext generation will completely clear all manually added code (!)\n*/\n\n"

/-- The text of the comment. -/
def srcCmtT : Str := "\nPut the monitor function content here, keep in mind -\nnext generation will completely clear all manually added code (!)\n".toList

theorem srcCmt_read (D : Defs) : Gen files [srcCmtOp] D D [] := by
  refine Gen.silent ⟨'/' :: '*' :: (srcCmtT ++ "*/\n".toList) ++ ['\n'], ?_, ?_⟩ (ls := [[' ']] ++ [[]]) fun c => (Run.space c).append (Run.empty c)
  · have := emits_appendF ('/' :: '*' :: (srcCmtT ++ "*/\n".toList) ++ ['\n'])
    rw [printLoc_short (by decide +kernel), lineText_end] at this
    have e : srcCmtOp = .appendF ('/' :: '*' :: (srcCmtT ++ "*/\n".toList) ++ ['\n']) := congrArg WOp.appendF (by decide +kernel)
    rw [e]
    exact this
  · exact (PPL.blockComment (t := srcCmtT) (by decide +kernel) (by decide +kernel) (by decide +kernel)).append PPL.blank

/-- The part of the source file under the switch. -/
def fmonBodyOps (g : GenDesc) (msgs : List Msg) : List WOp :=
  opEmpty :: srcCmtOp :: ([opIfdef (monoName g)] ++ srcMono g ++ [opLine "#else"] ++ srcEach g msgs ++ [opEndif (monoName g)] ++ [opEmpty])

theorem fmonSource_eq (g : GenDesc) (msgs : List Msg) : fmonSourceOps g msgs =
    [.appendText g.commonInfo, .appendText g.driverInfo] ++ ([.appendF ("#include \"".toList ++ (g.drvLow ++ "-fmon.h".toList) ++ "\"".toList)] ++ ([opEmpty] ++
      ([opIfdef g.usemon] ++ fmonBodyOps g msgs ++ [opEndif g.usemon]))) := by
  have e1 : "void _FMon_MONO_".toList ++ g.drvLow ++ "(FrameMonitor_t* _mon, uint32_t msgid)".toList = fmonSig (fmonFn g true []) := by
    unfold fmonSig fmonFn
    rw [if_pos rfl]
    simp only [String.reduceToList, List.cons_append, List.nil_append]
  have e2 : ∀ m : Msg, "void _FMon_".toList ++ m.name ++ "_".toList ++ g.drvLow ++ "(FrameMonitor_t* _mon, uint32_t msgid)\n{\n  (void)_mon;\n  (void)msgid;\n}\n\n".toList = fmonText (fmonFn g false m.name) := by
    intro m
    unfold fmonText fmonSig fmonFn
    rw [if_neg Bool.false_ne_true]
    simp only [String.reduceToList, List.append_assoc, List.cons_append, List.nil_append]
  have e3 : "#include \"".toList ++ g.drvLow ++ "-fmon.h\"".toList = "#include \"".toList ++ (g.drvLow ++ "-fmon.h".toList) ++ "\"".toList := by
    simp only [String.reduceToList, List.append_assoc, List.cons_append, List.nil_append]
  unfold fmonSourceOps fmonBodyOps srcMono srcEach
  rw [e1, e3]
  simp only [e2]
  have e4 : opIfdef (monoName g) = .appendF ("#ifdef ".toList ++ g.drvUp ++ "_USE_MONO_FMON".toList) := by
    unfold opIfdef monoName
    rw [List.append_assoc]
  have e5 : opEndif (monoName g) = .appendF ("#endif // ".toList ++ g.drvUp ++ "_USE_MONO_FMON".toList) := by
    unfold opEndif monoName
    rw [List.append_assoc]
  rw [e4, e5]
  simp only [List.append_assoc, List.cons_append, List.nil_append]
  rfl

theorem fmonBody_skip (hu : IsIdent g.drvUp ∧ g.drvUp.length ≤ 500) (hl : IsIdent g.drvLow ∧ g.drvLow.length ≤ 500) (hn : ∀ m ∈ msgs, IsIdent m.name ∧ m.name.length ≤ 500) :
    GSkip files (fmonBodyOps g msgs) := by
  have hmo : IsIdent (monoName g) ∧ (monoName g).length ≤ 1000 := drvWord hu "_USE_MONO_FMON" (by decide) (by decide)
  have hw := words_of_ident hmo.1
  have hl9 : (monoName g).length ≤ 9000 := by have := hmo.2; omega
  exact GSkip.append (a := [_]) (Gen.empty (D := [])).skip (GSkip.append (a := [_]) (srcCmt_read []).skip
    ((GSkip.ifdefElse hw hl9 (closeOp_comment hw hl9) (srcMono_read hl base_nil rfl).skip (srcEach_read hl base_nil hn fun _ _ => rfl).skip).append (Gen.empty (D := [])).skip))

/-- The monitor functions. -/
def fmonFuncs (g : GenDesc) (mono : Bool) (msgs : List Msg) : List Spec.Item := (fmonNames g mono msgs).map fun n => .func (fmonFunc n)

theorem fmonBody_read (hd : HeadOk g files D0 E) (hm : ∀ m ∈ msgs, FmonOk g E (E.lookup (monoName g)).isSome m) (h0 : E.lookup (fmonFn g true []) = none) :
    HP files D0 E (fmonBodyOps g msgs) [] (fmonFuncs g (E.lookup (monoName g)).isSome msgs) := by
  have hmo : IsIdent (monoName g) ∧ (monoName g).length ≤ 1000 := drvWord hd.drvUp "_USE_MONO_FMON" (by decide) (by decide)
  have hw := words_of_ident hmo.1
  have hl9 : (monoName g).length ≤ 9000 := by have := hmo.2; omega
  have hn : ∀ m ∈ msgs, IsIdent m.name ∧ m.name.length ≤ 500 := fun m h => (hm m h).name
  have q2 : HP files D0 E [opEmpty] [] [] := HP.quiet fun _ _ _ => Gen.empty
  have := HP.mono (y := opEndif (monoName g)) (ds := fun _ => []) (l := fun b => fmonFuncs g b msgs) hd (closeOp_comment hw hl9) (srcMono_read hd.drvLow base_nil rfl).skip
    (srcEach_read hd.drvLow base_nil hn fun _ _ => rfl).skip
    (fun _ => HP.items fun D _ s => srcMono_read hd.drvLow (s.base hd.base) (s.none h0))
    (fun h => HP.items fun D _ s => by
      refine (srcEach_read hd.drvLow (s.base hd.base) hn fun m hmm => s.none ?_).eq ?_
      · have := (hm m hmm).fn
        rw [h] at this
        exact this
      · unfold fmonFuncs fmonNames
        rw [if_neg Bool.false_ne_true, List.map_map]
        rfl)
  have := HP.pre (fun D => Gen.empty) <| HP.pre srcCmt_read <| this.append q2
  exact (this.eqD (by simp)).eqI (by simp)

/-! ### What a monitor function does -/

section Run
variable {φ : Type} {env : Env φ} {k : Nat}

theorem exec_void {w : String} {st : CSt φ} {t : Ty} {v : V φ} (h : st.loc.lookup w.toList = some (t, some v)) : Spec.exec k env (voidOf w) st = some (st, none) := by
  have hvt : tyOf env.ext64 "void".toList = some .void := by cases env.ext64 <;> rfl
  have e : runE env (.cast "void".toList (.id w.toList)) st = some st := by
    refine runE_of_evalE (v := .unit) ?_
    rw [evalE_cast, evalE_id h, hvt]
    cases v <;> rfl
  unfold voidOf
  rw [Spec.exec, e]
  rfl

end Run

end Verif
