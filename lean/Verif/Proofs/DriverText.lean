import Verif.Proofs.UnitCall
import Verif.Props.StructText
import Verif.Proofs.SourceInfo
/-
From a driver name, a message list and the macros of the user to the conditions of the reading theorems.
-/
namespace Verif
open Spec

/-! ### Names -/

theorem lower_letter {c : Char} (h : IsLetter c ∨ IsDigit c) : (IsLetter c → IsLetter (lowerChar c)) ∧ (IsLetter (lowerChar c) ∨ IsDigit (lowerChar c)) := by
  have key : ∀ n : Fin 128, (IsLetter (Char.ofNat n) ∨ IsDigit (Char.ofNat n)) →
      (IsLetter (Char.ofNat n) → IsLetter (lowerChar (Char.ofNat n))) ∧ (IsLetter (lowerChar (Char.ofNat n)) ∨ IsDigit (lowerChar (Char.ofNat n))) := by
    unfold IsLetter IsDigit
    decide +kernel
  have hc : c.toNat < 128 := by
    rcases h with h | h
    · unfold IsLetter at h; omega
    · unfold IsDigit at h; omega
  have := key ⟨c.toNat, hc⟩
  rw [Char.ofNat_toNat] at this
  exact this h

theorem upper_letter {c : Char} (h : IsLetter c ∨ IsDigit c) : (IsLetter c → IsLetter (upperChar c)) ∧ (IsLetter (upperChar c) ∨ IsDigit (upperChar c)) := by
  have key : ∀ n : Fin 128, (IsLetter (Char.ofNat n) ∨ IsDigit (Char.ofNat n)) →
      (IsLetter (Char.ofNat n) → IsLetter (upperChar (Char.ofNat n))) ∧ (IsLetter (upperChar (Char.ofNat n)) ∨ IsDigit (upperChar (Char.ofNat n))) := by
    unfold IsLetter IsDigit
    decide +kernel
  have hc : c.toNat < 128 := by
    rcases h with h | h
    · unfold IsLetter at h; omega
    · unfold IsDigit at h; omega
  have := key ⟨c.toNat, hc⟩
  rw [Char.ofNat_toNat] at this
  exact this h

theorem ident_map {f : Char → Char} (hf : ∀ c, IsLetter c ∨ IsDigit c → (IsLetter c → IsLetter (f c)) ∧ (IsLetter (f c) ∨ IsDigit (f c))) {s : Str} (h : IsIdent s) :
    IsIdent (s.map f) := by
  cases s with
  | nil => exact h
  | cons c r =>
    refine ⟨(hf c (.inl h.1)).1 h.1, fun x hx => ?_⟩
    obtain ⟨y, hy, rfl⟩ := List.mem_map.1 hx
    exact (hf y (h.2 y hy)).2

theorem lower_ident {s : Str} (h : IsIdent s) : IsIdent (strLower s) := ident_map (fun _ => lower_letter) h
theorem upper_ident {s : Str} (h : IsIdent s) : IsIdent (strUpper s) := ident_map (fun _ => upper_letter) h

/-! ### The driver -/

/-- The descriptor of a driver. -/
def driverDesc (drv : Str) (file : Source) (hi lo : Nat) : GenDesc := configureGen drv (sourceInfo file) (driverSrcInfo file.name) hi lo

theorem tmpb_short {t : Str} (h : t.length ≤ 1023) : tmpb t = t := List.take_of_length_le h

theorem strUpper_length (s : Str) : (strUpper s).length = s.length := List.length_map _
theorem strLower_length (s : Str) : (strLower s).length = s.length := List.length_map _

section
variable {drv : Str} {file : Source} {hi lo : Nat}

theorem desc_flag (h : drv.length ≤ 400) (f : Flag) : ∃ s : String, flagName (driverDesc drv file hi lo) f = strUpper drv ++ s.toList ∧ s.toList.length ≤ 100 ∧
    (∀ c ∈ s.toList, isWordCh c = true) := by
  have hl := strUpper_length drv
  have key : ∀ s : String, s.toList.length ≤ 100 → tmpb (strUpper drv ++ s.toList) = strUpper drv ++ s.toList := fun s hs =>
    tmpb_short (by rw [List.length_append, hl]; omega)
  cases f with
  | useBits => exact ⟨"_USE_BITS_SIGNAL", key _ (by decide), by decide, by decide⟩
  | useCanStruct => exact ⟨"_USE_CANSTRUCT", key _ (by decide), by decide, by decide⟩
  | useSigFloat => exact ⟨"_USE_SIGFLOAT", key _ (by decide), by decide, by decide⟩
  | useMon => exact ⟨"_USE_DIAG_MONITORS", key _ (by decide), by decide, by decide⟩
  | autoRoll => exact ⟨"_AUTO_ROLL", key _ (by decide), by decide, by decide⟩
  | autoCsm => exact ⟨"_AUTO_CSM", key _ (by decide), by decide, by decide⟩

theorem lit_ident {a b : String} (ha : IsIdent a.toList) (hb : ∀ c ∈ b.toList, isWordCh c = true) (hl : a.toList.length + b.toList.length ≤ 100) (hd : IsIdent drv ∧ drv.length ≤ 400) :
    IsIdent (tmpb (a.toList ++ strUpper drv ++ b.toList)) ∧ (tmpb (a.toList ++ strUpper drv ++ b.toList)).length ≤ 1100 := by
  have e : (a.toList ++ strUpper drv ++ b.toList).length ≤ 600 := by
    simp only [List.length_append, strUpper_length]
    omega
  rw [tmpb_short (by omega)]
  exact ⟨isIdent_word (isIdent_lit ha (upper_ident hd.1)) hb, by omega⟩

end

/-- Macros of the user and of the generated files. -/
def macroTable (g : GenDesc) (maxDlc : Nat) (msgs : List Msg) (D0 : Defs) : Defs :=
  addAll D0 (headerDefs g maxDlc msgs ++ tailDefs g (D0.lookup g.usemon).isSome (D0.lookup (monoName g)).isSome msgs)

/-- The configuration the macros of the user select. -/
def cfgOf (g : GenDesc) (D0 : Defs) (ext64 : Bool) (maxV initV : Nat) : Cfg :=
  { flag := fun f => (D0.lookup (flagName g f)).isSome, ext64 := ext64, maxDlc := maxV, initByte := initV }

/-- What macros stand for. -/
def lookOf (g : GenDesc) (D0 : Defs) (msgs : List Msg) (tick hash : Hook) (maxW initW : Str) : Look :=
  { frame := (D0.lookup g.usestruct).isSome, tick := tick, hash := hash, fmon := fmonFn g (D0.lookup (monoName g)).isSome,
    mac := fun n => (driverMacros msgs).lookup n, maxW := maxW, initW := initW }

/-- Texts, numbers and names of a message that is not empty. -/
structure FrameOk (g : GenDesc) (E : Defs) (flag : Flag → Bool) (m : Msg) : Prop where
  sig : ∀ s ∈ m.signals, ConvOk s ∧ ValsText s
  struct : StructOk E m
  members : ((structMembers flag m).map (·.1)).Nodup
  unpack : E.lookup (unpackName g m) = none
  pack : E.lookup (packName g m) = none
  type : E.lookup (typeName m) = none
  src : SrcMsg E m
  print : ∃ xs tb, Printed m xs tb
  roll : ¬ Spec.RollTooLong m
  call : CallMsg m

/-- Conditions under which the files of a driver are read as C: names are identifiers, no name the
files use is a macro, no macro is defined twice, nothing is too long. -/
structure DriverRd (drv : Str) (file : Source) (hi lo maxDlc : Nat) (msgs : List Msg) (D0 : Defs) (tick hash : Hook) (maxW initW : Str) : Prop where
  drvId : IsIdent drv ∧ drv.length ≤ 400
  headers : strLower drv ≠ "stdint".toList ∧ strLower drv ≠ "canmonitorutil".toList
  fileT : SourceOk file
  ver : hi < 2 ^ 32 ∧ lo < 2 ^ 32
  max : maxDlc < 2 ^ 64
  fresh : Fresh D0 (headerDefs (driverDesc drv file hi lo) maxDlc msgs ++
    tailDefs (driverDesc drv file hi lo) (D0.lookup (driverDesc drv file hi lo).usemon).isSome (D0.lookup (monoName (driverDesc drv file hi lo))).isSome msgs)
  num : ∀ w, inNumber w = true → (macroTable (driverDesc drv file hi lo) maxDlc msgs D0).lookup w = none
  code : ∀ w ∈ "__cplusplus".toList :: codeWords, (macroTable (driverDesc drv file hi lo) maxDlc msgs D0).lookup w = none
  flag : ∀ f, (D0.lookup (flagName (driverDesc drv file hi lo) f)).isSome = true ∨ (macroTable (driverDesc drv file hi lo) maxDlc msgs D0).lookup (flagName (driverDesc drv file hi lo) f) = none
  mono : (D0.lookup (monoName (driverDesc drv file hi lo))).isSome = true ∨ (macroTable (driverDesc drv file hi lo) maxDlc msgs D0).lookup (monoName (driverDesc drv file hi lo)) = none
  user : UserOk (driverDesc drv file hi lo) (macroTable (driverDesc drv file hi lo) maxDlc msgs D0) (lookOf (driverDesc drv file hi lo) D0 msgs tick hash maxW initW)
  fmon : (D0.lookup (driverDesc drv file hi lo).usemon).isSome = true →
    (∀ m ∈ msgs, (macroTable (driverDesc drv file hi lo) maxDlc msgs D0).lookup (fmonFn (driverDesc drv file hi lo) (D0.lookup (monoName (driverDesc drv file hi lo))).isSome m.name) = none) ∧
    (macroTable (driverDesc drv file hi lo) maxDlc msgs D0).lookup (fmonFn (driverDesc drv file hi lo) true []) = none
  text : ∀ m ∈ msgs, MsgText m
  frame : ∀ m ∈ msgs, m.frameNotEmpty = true →
    FrameOk (driverDesc drv file hi lo) (macroTable (driverDesc drv file hi lo) maxDlc msgs D0) (fun f => (D0.lookup (flagName (driverDesc drv file hi lo) f)).isSome) m

/-- Conditions under which the files of a driver compile: in addition nothing is defined twice. -/
structure DriverOk (drv : Str) (file : Source) (hi lo maxDlc : Nat) (msgs : List Msg) (D0 : Defs) (tick hash : Hook) (maxW initW : Str) : Prop
    extends DriverRd drv file hi lo maxDlc msgs D0 tick hash maxW initW where
  names : (definedNames (driverDesc drv file hi lo) msgs).Nodup

variable {drv : Str} {file : Source} {hi lo maxDlc : Nat} {msgs : List Msg} {D0 : Defs} {tick hash : Hook} {maxW initW : Str}

theorem files_lookup {g : GenDesc} {hops : List WOp} (n : Str) (h1 : n ≠ g.drvLow ++ ".h".toList) (h2 : n ≠ g.drvLow ++ "-fmon.h".toList) :
    (genFiles g hops msgs).lookup n = none := by
  unfold genFiles
  rw [List.lookup_cons, List.lookup_cons]
  have e1 : (n == g.drvLow ++ ".h".toList) = false := by simpa using h1
  have e2 : (n == g.drvLow ++ "-fmon.h".toList) = false := by simpa using h2
  rw [e1, e2]
  rfl

theorem DriverRd.unit (h : DriverRd drv file hi lo maxDlc msgs D0 tick hash maxW initW) (hops : List WOp) (ext64 : Bool) (maxV initV : Nat) :
    UnitRd (driverDesc drv file hi lo) maxDlc msgs (genFiles (driverDesc drv file hi lo) hops msgs) D0 (macroTable (driverDesc drv file hi lo) maxDlc msgs D0)
      (D0.lookup (monoName (driverDesc drv file hi lo))).isSome (cfgOf (driverDesc drv file hi lo) D0 ext64 maxV initV)
      (lookOf (driverDesc drv file hi lo) D0 msgs tick hash maxW initW) := by
  have hflag : ∀ f, (D0.lookup (flagName (driverDesc drv file hi lo) f)).isSome = ((macroTable (driverDesc drv file hi lo) maxDlc msgs D0).lookup (flagName (driverDesc drv file hi lo) f)).isSome := by
    intro f
    rcases h.flag f with q | q
    · rw [q]; exact (Sub.isSome (Sub.addAll D0 _) q).symm
    · rw [Sub.none (Sub.addAll D0 _) q, q]
  have hmono : (D0.lookup (monoName (driverDesc drv file hi lo))).isSome = ((macroTable (driverDesc drv file hi lo) maxDlc msgs D0).lookup (monoName (driverDesc drv file hi lo))).isSome := by
    rcases h.mono with q | q
    · rw [q]; exact (Sub.isSome (Sub.addAll D0 _) q).symm
    · rw [Sub.none (Sub.addAll D0 _) q, q]
  have hl : (strLower drv).length ≤ 400 := by rw [strLower_length]; exact h.drvId.2
  have hu : (strUpper drv).length ≤ 400 := by rw [strUpper_length]; exact h.drvId.2
  have hO : IsIdent (driverDesc drv file hi lo).drvOrig ∧ (driverDesc drv file hi lo).drvOrig.length ≤ 500 := ⟨h.drvId.1, Nat.le_trans h.drvId.2 (by omega)⟩
  have hlow : (driverDesc drv file hi lo).drvLow = strLower drv := rfl
  refine
    { table := rfl, fresh := h.fresh, head := ?_, flag := hflag, monoE := hmono, fmon := ?_, max := h.max, ver := h.ver, hdr := ?_, src := fun m hm hne => (h.frame m hm hne).src,
      user := h.user, look := ⟨hflag .useCanStruct, rfl, fun _ => rfl⟩, print := fun m hm hne => (h.frame m hm hne).print }
  · refine
      { base := ⟨h.num, fun w hw => h.code w (List.mem_cons_of_mem _ hw)⟩, common := common_comment h.fileT, driver := driver_comment h.fileT.1.1 h.fileT.1.2,
        drvUp := ⟨upper_ident h.drvId.1, Nat.le_trans hu (by omega)⟩, drvLow := ⟨lower_ident h.drvId.1, Nat.le_trans hl (by omega)⟩, drvOrig := hO,
        verhigh := lit_ident (a := "VER_") (b := "_MAJ") (by decide) (by decide) (by decide) h.drvId, verlow := lit_ident (a := "VER_") (b := "_MIN") (by decide) (by decide) (by decide) h.drvId,
        ver := ⟨Nat.lt_trans h.ver.1 (by decide), Nat.lt_trans h.ver.2 (by decide)⟩, flag := h.flag, flagW := ?_, mono := h.mono, cpp := h.code _ List.mem_cons_self, stdint := ?_, config := ?_, monutil := ?_ }
    · intro f
      obtain ⟨s, e, l, w⟩ := desc_flag (file := file) (hi := hi) (lo := lo) h.drvId.2 f
      rw [e]
      exact ⟨words_of_ident (isIdent_word (upper_ident h.drvId.1) w), by rw [List.length_append]; omega⟩
    · refine files_lookup _ ?_ ?_
      · intro e
        refine h.headers.1 ?_
        have e : "stdint".toList ++ ".h".toList = strLower drv ++ ".h".toList := e
        exact (List.append_cancel_right e).symm
      · intro e
        have e : "stdin".toList ++ "t.h".toList = (strLower drv ++ "-fmo".toList) ++ "n.h".toList := by
          rw [List.append_assoc]; exact e
        have := congrArg List.reverse e
        simp [List.reverse_append] at this
    · refine files_lookup _ ?_ ?_
      · intro e
        exact absurd (List.append_cancel_left e) (by decide)
      · intro e
        exact absurd (List.append_cancel_left e) (by decide)
    · intro _
      refine files_lookup _ ?_ ?_
      · intro e
        refine h.headers.2 ?_
        have e : "canmonitorutil".toList ++ ".h".toList = strLower drv ++ ".h".toList := e
        exact (List.append_cancel_right e).symm
      · intro e
        have e : "canmonitorutil".toList ++ ".h".toList = (strLower drv ++ "-fmon".toList) ++ ".h".toList := by
          rw [List.append_assoc]; exact e
        have := congrArg List.reverse (List.append_cancel_right e)
        simp [List.reverse_append] at this
  · intro q
    obtain ⟨q1, q2⟩ := h.fmon q
    exact ⟨fun m hm => ⟨(h.text m hm).name, q1 m hm⟩, q2⟩
  · intro m hm
    refine ⟨h.text m hm, fun hne => (h.frame m hm hne).sig, fun hne => (h.frame m hm hne).struct, fun hne => ?_, fun hne => ?_⟩
    · have := (h.frame m hm hne).members
      rw [show (fun f => ((macroTable (driverDesc drv file hi lo) maxDlc msgs D0).lookup (flagName (driverDesc drv file hi lo) f)).isSome) =
        fun f => (D0.lookup (flagName (driverDesc drv file hi lo) f)).isSome from funext fun f => (hflag f).symm]
      exact this
    · have := h.frame m hm hne
      exact ⟨hO, this.unpack, this.pack, this.type⟩

theorem DriverOk.unit (h : DriverOk drv file hi lo maxDlc msgs D0 tick hash maxW initW) (hops : List WOp) (ext64 : Bool) (maxV initV : Nat) :
    UnitGood (driverDesc drv file hi lo) maxDlc msgs (genFiles (driverDesc drv file hi lo) hops msgs) D0 (macroTable (driverDesc drv file hi lo) maxDlc msgs D0)
      (D0.lookup (monoName (driverDesc drv file hi lo))).isSome (cfgOf (driverDesc drv file hi lo) D0 ext64 maxV initV)
      (lookOf (driverDesc drv file hi lo) D0 msgs tick hash maxW initW) := ⟨h.toDriverRd.unit hops ext64 maxV initV, h.names⟩

theorem DriverRd.header (h : DriverRd drv file hi lo maxDlc msgs D0 tick hash maxW initW) : ∃ hops, mainHeaderOps (driverDesc drv file hi lo) maxDlc msgs = some hops := by
  cases hh : mainHeaderOps (driverDesc drv file hi lo) maxDlc msgs with
  | some x => exact ⟨x, rfl⟩
  | none =>
    obtain ⟨m, hm, hne, q⟩ := (C41_exact _ _ _).1 hh
    have hf := h.frame m hm hne
    rcases q with q | ⟨s, hs, q1, q2, q3⟩
    · exact absurd q hf.roll
    · have := hf.call.consts s hs q1 q2
      omega

theorem files_ok (g : GenDesc) (hops : List WOp) (msgs : List Msg) : FilesOk g (genFiles g hops msgs) hops (fmonHeaderOps g msgs) := by
  refine ⟨?_, ?_⟩
  · unfold genFiles
    rw [List.lookup_cons]
    simp
  · unfold genFiles
    rw [List.lookup_cons, List.lookup_cons]
    have e : (g.drvLow ++ "-fmon.h".toList == g.drvLow ++ ".h".toList) = false := by
      rw [beq_eq_false_iff_ne]
      intro e
      exact absurd (List.append_cancel_left e) (by decide)
    rw [e]
    simp

end Verif
