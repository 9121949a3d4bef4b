import Verif.Props.EndToEnd
import Verif.Proofs.Stated
/-
C59: from the text of the DBC file to the bits of the payload.
-/
namespace Verif
open Spec

/-! ### C59 -/

variable {φ : Type} {drv : Str} {file : Source} {D0 : Defs} {tick hash : Hook} {maxW initW : Str}

/-- State before a call of a function of message `d` in a compiled unit: struct members hold values of their
types, the buffer holds the bytes of a frame, nothing has been written or called. -/
structure Spec.StartIn (is : List Spec.Item) (d : MsgDesc) (cst : CSt φ) : Prop where
  fld : ∀ ms, structOf is (d.name ++ "_t".toList) = some ms → ∀ n t w, (n, MTy.int t w) ∈ ms → t.conv (cst.fld n) = cst.fld n
  mon : ∀ e ∈ monMembers, 0 ≤ cst.mon e.1
  dat : IsPayload cst.dat
  len : d.dlc ≤ cst.dat.length
  out : cst.out = fun _ => none
  calls : cst.calls = []

/-- What a call of Unpack has to do with a message of the file: id returned, payload untouched, and in every
member the value the DBC file defines. -/
def Spec.Unpacked (d : MsgDesc) (cst : CSt φ) (r : CSt φ × V φ) : Prop :=
  r.2 = .i ⟨.u32, (d.id : Nat)⟩ ∧ r.1.dat = cst.dat ∧
  ∀ s ∈ d.sigs, (s.len ≤ 32 ∨ bitPos s.intel s.start s.len 0 % 8 = 0) → r.1.fld s.member =
    if s.signed then signedOf s.len (rawValue s.intel s.start s.len cst.dat) else (rawValue s.intel s.start s.len cst.dat : Nat)

/-- What a call of Pack has to do: id returned, length and kind of the id passed out, the first `dlc` bytes hold exactly the bits of the members at
the places the DBC file defines (and of the initial byte), the others are untouched. -/
def Spec.Packed (maxV initV : Nat) (N : OutNames) (d : MsgDesc) (cst : CSt φ) (r : CSt φ × V φ) : Prop :=
  r.2 = .i ⟨.u32, (d.id : Nat)⟩ ∧ r.1.out N.len = some (d.dlc : Int) ∧ r.1.out N.ide = some (if d.ext then 1 else 0) ∧ r.1.dat.length = cst.dat.length ∧ IsPayload r.1.dat ∧
  (d.dlc ≤ maxV → ∀ p, (p < 8 * d.dlc → (payloadBit r.1.dat p = true ↔ initV.testBit (p % 8) = true ∨
      ∃ s ∈ d.sigs, ∃ k, k < s.len ∧ bitPos s.intel s.start s.len k = p ∧ intBit (r.1.fld s.member) k = true)) ∧
    (8 * d.dlc ≤ p → payloadBit r.1.dat p = payloadBit cst.dat p))

/-- A member Pack sets itself: the rolling counter or the checksum of the message, if this is switched on. -/
def Spec.AutoMember (flag : Flag → Bool) (srt : List Msg) (d : MsgDesc) (n : Str) : Prop :=
  ∃ m ∈ srt, m.msgId = d.id ∧ ((flag .autoRoll = true ∧ ∃ s, m.sigAt m.rollSig = some s ∧ n = s.name) ∨ (flag .autoCsm = true ∧ ∃ s, m.sigAt m.csmSig = some s ∧ n = s.name))

theorem driver_structs {hi lo maxDlc : Nat} {msgs : List Msg} (h : DriverOk drv file hi lo maxDlc msgs D0 tick hash maxW initW) {hops sops : List WOp} {is : List Spec.Item}
    (ho : mainHeaderOps (driverDesc drv file hi lo) maxDlc msgs = some hops) (hs : mainSourceOps (driverDesc drv file hi lo) msgs = some sops) {F : Nat}
    (hc : ∀ f, F ≤ f → compile f (genFiles (driverDesc drv file hi lo) hops msgs) D0 (opsText sops) = some is) {m : Msg} (hm : m ∈ msgs) (hne : m.frameNotEmpty = true) :
    structOf is (typeName m) = some (structMembers (fun f => (D0.lookup (flagName (driverDesc drv file hi lo) f)).isSome) m) := by
  have hU := h.unit hops false 0 0
  obtain ⟨sops', ls, h1, h2, h3, F', h4⟩ := unit_compile hU ho (files_ok _ _ _)
  rw [hs] at h1
  cases h1
  have e := (hc (max F F') (Nat.le_max_left _ _)).symm.trans (h4 (max F F') (Nat.le_max_right _ _))
  injection e with e
  subst e
  have hnd : ((unitItems (driverDesc drv file hi lo) (cfgOf (driverDesc drv file hi lo) D0 false 0 0).flag (D0.lookup (monoName (driverDesc drv file hi lo))).isSome msgs ls).flatMap Item.defines).Nodup := by
    rw [unit_defines h2 h3]
    exact h.names
  exact structOf_mem hnd (struct_mem (g := driverDesc drv file hi lo) (cfg := cfgOf (driverDesc drv file hi lo) D0 false 0 0) (ls := ls) hm hne)

/-- What the functions of a unit do with the messages a file states, if they do what the model does. -/
theorem runs_stated {P : Platform} (hs : SortsByStart P) (hc : P.charMax = 127) (hoob : ∀ v, P.oob = some v → 2 ^ 32 ≤ CTy.toU .u64 v)
    {text : Str} {out : DbcList} (h : trimDbcText P text = .ok out) {srt : List Msg} (hp : SortedBy srt out.msgs) (hD : DriverOk drv file out.verHi out.verLow out.maxDlc srt D0 tick hash maxW initW)
    {cfg : Cfg} {K : Look} {mono : Bool} {is : List Spec.Item} (hfl : cfg.flag = fun f => (D0.lookup (flagName (driverDesc drv file out.verHi out.verLow) f)).isSome)
    (h4 : RunsModel φ (driverDesc drv file out.verHi out.verLow) srt mono cfg K is)
    (hstr : ∀ m ∈ srt, m.frameNotEmpty = true → structOf is (typeName m) = some (structMembers cfg.flag m))
    (T : Target φ) (hashF : List Nat → Nat → Nat → Str → Nat → Nat) (now : Nat) (hT : TargetOk (driverDesc drv file out.verHi out.verLow) srt mono cfg K T hashF now)
    (d : MsgDesc) (hst : Stated (fileLines P text) d) (hd : MsgDescOk d) (hne : d.sigs ≠ []) (hsg : ∀ s ∈ d.sigs, s.signed = true → s.len ≤ 32)
    (hph : cfg.flag .useSigFloat = false ∨ ∀ s ∈ d.sigs, s.plain) (hcs : d.dlc ≤ 8 ∨ ∀ m ∈ srt, m.msgId = d.id → m.csmSig = none)
    (cst : CSt φ) (hsc : StartIn is d cst) (f : Nat) (hf : 256 ≤ f) :
    (∀ v : CVal, ∃ r, callUnit f T is ("Unpack_".toList ++ d.name ++ "_".toList ++ drv) (unpackArgs v) cst = some r ∧ Unpacked d cst r) ∧
    (∀ N : OutNames, (cfg.flag .useCanStruct = true → N.len = "DLC".toList ∧ N.ide = "IDE".toList) →
      (∀ s ∈ d.sigs, InSigRange s.signed s.len (cst.fld s.member)) →
      ∃ r, callUnit f T is ("Pack_".toList ++ d.name ++ "_".toList ++ drv) (packArgs (cfg.flag .useCanStruct) N) cst = some r ∧ Packed cfg.maxDlc cfg.initByte N d cst r ∧
        ∀ n, ¬ AutoMember cfg.flag srt d n → r.1.fld n = cst.fld n) := by
  obtain ⟨m, hm, n1, n2, n3, n0, n4, -, ss, hF, hperm⟩ := stated_message hs h hd hst
  have hm0 := hm
  replace hm := hp.1.mem_iff.2 hm
  obtain ⟨d1, d2⟩ := desc_signals hF hperm
  have hok : MsgOk m := by
    refine ⟨by rw [n3]; exact hd.dlc.2, fun s hsm => ?_⟩
    obtain ⟨e, he, q⟩ := d2 s hsm
    have hx := hd.sigs e he
    refine ⟨by rw [q.len]; exact hx.pos, by rw [q.len]; exact hx.len, ?_⟩
    unfold Sig.fits Sig.intel
    rw [q.intel, q.start, q.len, n3]
    exact hx.fits
  obtain ⟨c1, c2⟩ := C50_generator_conditions P hs hc hoob text out h m hm0 hok
  have hgood : MsgGood cfg m := by
    refine ⟨hok, c1, fun s hsm q => ?_, fun s hsa => ?_, ?_, ?_⟩
    · obtain ⟨e, he, qe⟩ := d2 s hsm
      rw [qe.len]
      exact hsg e he (qe.signed.symm.trans q)
    · rcases hcs with q | q
      · exact c2 (by rw [n3]; exact q) s hsa
      · rw [q m hm n2] at hsa
        cases hsa
    · rcases hph with q | q
      · exact Or.inl q
      · refine Or.inr fun s hsm => ?_
        obtain ⟨e, he, qe⟩ := d2 s hsm
        exact qe.simple.2 (q e he)
    · obtain ⟨-, v, -, hv⟩ := hT.init
      have e : CTy.u8.conv v.val = v.val % 256 := rfl
      rw [e] at hv
      omega
  have hstart : Start cfg.flag m cst := by
    refine ⟨fun n t w q => hsc.fld _ ?_ n t w q, hsc.mon, hsc.dat, by rw [n3]; exact hsc.len, hsc.out, hsc.calls⟩
    have := hstr m hm (n4 hne)
    unfold typeName at this
    rw [n1] at this
    exact this
  obtain ⟨u, p⟩ := runs_done hD hfl h4 T hashF now hT m hm (n4 hne) hgood cst hstart f hf
  have eu : unpackName (driverDesc drv file out.verHi out.verLow) m = "Unpack_".toList ++ d.name ++ "_".toList ++ drv := by unfold unpackName; rw [n1]; rfl
  have ep : packName (driverDesc drv file out.verHi out.verLow) m = "Pack_".toList ++ d.name ++ "_".toList ++ drv := by unfold packName; rw [n1]; rfl
  constructor
  · intro v
    obtain ⟨r, r1, r2, r3, r4⟩ := u v
    rw [eu] at r1
    refine ⟨r, r1, by rw [← n2]; exact r2, r3, fun e he ha => ?_⟩
    obtain ⟨s, hsm, q⟩ := d1 e he
    have := r4 s hsm (by unfold Sig.aligned Sig.pos Sig.intel; rw [q.len, q.intel, q.start]; exact ha)
    rw [q.name, q.signed, q.len, q.intel, q.start] at this
    exact this
  · intro N hN hr
    obtain ⟨r, r1, r2, r3, r4, r5, r6, ⟨o1, o2, -⟩, r7⟩ := p N hN (fun s hsa => by
      have hsm : s ∈ m.signals := by
        unfold Msg.sigAt at hsa
        cases hq : m.rollSig with
        | none => rw [hq] at hsa; cases hsa
        | some i => rw [hq] at hsa; exact List.mem_of_getElem? hsa
      obtain ⟨e, he, q⟩ := d2 s hsm
      rw [q.signed, q.len, q.name]
      exact hr e he)
    rw [ep] at r1
    refine ⟨r, r1, ⟨by rw [← n2]; exact r2, by rw [o1, n3], by rw [o2, n0], r5, r6, fun hmax p => ⟨fun hp => ?_, fun hp => ?_⟩⟩, fun n hn => ?_⟩
    · rw [r3 (by rw [n3]; exact hmax) p (by rw [n3]; exact hp)]
      refine or_congr Iff.rfl ⟨?_, ?_⟩
      · rintro ⟨s, hsm, k, hk, hb, hi⟩
        obtain ⟨e, he, q⟩ := d2 s hsm
        rw [q.len] at hk
        rw [q.intel, q.start, q.len] at hb
        rw [q.name] at hi
        exact ⟨e, he, k, hk, hb, hi⟩
      · rintro ⟨e, he, k, hk, hb, hi⟩
        obtain ⟨s, hsm, q⟩ := d1 e he
        rw [← q.len] at hk
        rw [← q.intel, ← q.start, ← q.len] at hb
        rw [← q.name] at hi
        exact ⟨s, hsm, k, hk, hb, hi⟩
    · exact r4 (by rw [n3]; exact hmax) p (by rw [n3]; exact hp)
    · exact r7 n (fun q s hs e => hn ⟨m, hm, n2, .inl ⟨q, s, hs, e⟩⟩) (fun q s hs e => hn ⟨m, hm, n2, .inr ⟨q, s, hs, e⟩⟩)

/-- **C59**, from the text of the DBC file to the bits: for every file text that the scanner gets through
(hosts as in C12, any sort of the signals by start bit), every driver name and every set of user macros that
can be read (C54), the *text* of the generated files compiles; and for every message the file states, in the
compiled unit `Unpack_M_drv` and `Pack_M_drv` are defined on all states and payloads, and read and write the
bits the signal lines of the file define.  `srt` are the parsed messages sorted by id, as `CiMainGenerator::Generate` prints them
(c-main-generator.cpp:46-50).  The statement mentions neither the parsed list of messages nor the
model of the generated functions, except in the conditions.

Full statement: also with physical values (`USE_SIGFLOAT` and scaled signals), signed signals over 32 bits
and checksums in frames over 8 bytes.  Missing: floating point; the other two are wrong in general (C03, C50). -/
theorem C59_pipeline_partial (P : Platform) (hs : SortsByStart P) (hc : P.charMax = 127) (hoob : ∀ v, P.oob = some v → 2 ^ 32 ≤ CTy.toU .u64 v)
    (text : Str) (out : DbcList) (h : trimDbcText P text = .ok out) (srt : List Msg) (hp : SortedBy srt out.msgs)
    (hD : DriverOk drv file out.verHi out.verLow out.maxDlc srt D0 tick hash maxW initW) (ext64 : Bool) (maxV initV : Nat) :
    let g := driverDesc drv file out.verHi out.verLow
    let cfg := cfgOf g D0 ext64 maxV initV
    let K := lookOf g D0 srt tick hash maxW initW
    ∃ hops sops is, mainHeaderOps g out.maxDlc srt = some hops ∧ mainSourceOps g srt = some sops ∧
      (∃ F, ∀ f, F ≤ f → compile f (genFiles g hops srt) D0 (opsText sops) = some is) ∧
      ∀ (T : Target φ) (hashF : List Nat → Nat → Nat → Str → Nat → Nat) (now : Nat),
        TargetOk g srt (D0.lookup (monoName g)).isSome cfg K T hashF now →
        ∀ d, Stated (fileLines P text) d → MsgDescOk d → d.sigs ≠ [] → (∀ s ∈ d.sigs, s.signed = true → s.len ≤ 32) →
        (cfg.flag .useSigFloat = false ∨ ∀ s ∈ d.sigs, s.plain) →
        (d.dlc ≤ 8 ∨ ∀ m ∈ srt, m.msgId = d.id → m.csmSig = none) →
        ∀ cst : CSt φ, StartIn is d cst → ∀ f, 256 ≤ f →
          (∀ v : CVal, ∃ r, callUnit f T is ("Unpack_".toList ++ d.name ++ "_".toList ++ drv) (unpackArgs v) cst = some r ∧ Unpacked d cst r) ∧
          (∀ N : OutNames, (cfg.flag .useCanStruct = true → N.len = "DLC".toList ∧ N.ide = "IDE".toList) →
            (∀ s ∈ d.sigs, InSigRange s.signed s.len (cst.fld s.member)) →
            ∃ r, callUnit f T is ("Pack_".toList ++ d.name ++ "_".toList ++ drv) (packArgs (cfg.flag .useCanStruct) N) cst = some r ∧ Packed maxV initV N d cst r ∧
              ∀ n, ¬ AutoMember cfg.flag srt d n → r.1.fld n = cst.fld n) := by
  intro g cfg K
  obtain ⟨hops, sops, is, h1, h2, ⟨F, h3⟩, h4⟩ := C54_model_partial (φ := φ) hD ext64 maxV initV
  exact ⟨hops, sops, is, h1, h2, ⟨F, h3⟩, fun T hashF now hT d hst hd hne hsg hph hcs cst hsc f hf =>
    runs_stated hs hc hoob h hp hD rfl h4 (fun m hm hne => driver_structs hD h1 h2 h3 hm hne) T hashF now hT d hst hd hne hsg hph hcs cst hsc f hf⟩

/-! ### Example: a file with two messages, comments, tags and a value table -/

/-- Checks `NoSigLine`. -/
def noSigB : Str → Bool
  | [] => true
  | x :: r => (!(r.head? == some ':' && isWs x && r.tail.head?.any isWs) || decide (r.tail.tail.count '"' < 2)) && noSigB r

theorem noSigB_sound {l : Str} (h : noSigB l = true) : NoSigLine l := by
  induction l with
  | nil => intro a x z b e; simp at e
  | cons c l ih =>
    rw [noSigB, Bool.and_eq_true] at h
    intro a x z b e hx hz
    cases a with
    | nil =>
      rw [List.nil_append] at e
      injection e with e1 e2
      subst e1 e2
      have h1 := h.1
      simp only [List.head?_cons, List.tail_cons, Option.any_some, beq_self_eq_true, (isWs_blank c).2 hx, (isWs_blank z).2 hz, Bool.and_self, Bool.not_true, Bool.false_or] at h1
      exact of_decide_eq_true h1
    | cons y a =>
      rw [List.cons_append] at e
      injection e with e1 e2
      exact ih h.2 a x z b e2 hx hz

namespace Fix

def pipeText : Str := ("VERSION \"2.7\"\n\nBU_: ECU Dash\n\n" ++
  "BO_ 2147484672 Motor: 8 ECU\n SG_ Cnt : 0|4@1+ (1,0) [0|15] \"\" Dash\n SG_ Torque : 19|12@0- (1,0) [-2048|2047] \"Nm\" Dash\n" ++
  " SG_ Crc : 56|8@1+ (1,0) [0|255] \"\" Dash\n\nBO_ 100 Gear: 2 ECU\n SG_ Ratio : 0|10@1+ (2,-40) [0|1] \"\" Dash\n\n" ++
  "CM_ SG_ 2147484672 Torque \"negative : braking\";\nCM_ SG_ 2147484672 Crc \"<Checksum:XOR8:1>\";\nCM_ SG_ 2147484672 Cnt \"<RollingCounter>\";\n" ++
  "VAL_ 100 Ratio 1023 \"error\" ;\n").toList

def sd (name : String) (start len : Nat) (intel signed : Bool) (min max : Int) (unit : String) : SigDesc :=
  { name := name.toList, mux := .plain, start := start, len := len, intel := intel, signed := signed, factor := ⟨false, 1, []⟩, offset := ⟨false, 0, []⟩,
    min := ⟨decide (min < 0), min.natAbs, []⟩, max := ⟨false, max.natAbs, []⟩, unit := unit.toList, recs := ["Dash".toList] }

def motor : MsgDesc :=
  { id := 1024, ext := true, name := "Motor".toList, dlc := 8, tx := "ECU".toList,
    sigs := [sd "Cnt" 0 4 true false 0 15 "", sd "Torque" 19 12 false true (-2048) 2047 "Nm", sd "Crc" 56 8 true false 0 255 ""] }

/-- What the scanner makes of the text (`pipeOk`). -/
def pipeOut : DbcList :=
  { msgs := [
      { name := "Motor".toList, dlc := 8, msgId := 1024, isExt := true, tranS := ["ECU".toList], recS := ["Dash".toList]
        signals := [
          { name := "Cnt".toList, startBit := 0, lengthBit := 4, isSimple := true, maxValue := ⟨15, 0⟩, recS := ["Dash".toList], commentText := "<RollingCounter>".toList },
          { name := "Torque".toList, unit := "Nm".toList, startBit := 19, lengthBit := 12, isSimple := true, order := .motorolla, signed := true, typeRo := .i16, typePhys := .i16
            minValue := ⟨-2048, 0⟩, maxValue := ⟨2047, 0⟩, recS := ["Dash".toList], commentText := "negative : braking".toList },
          { name := "Crc".toList, startBit := 56, lengthBit := 8, isSimple := true, maxValue := ⟨255, 0⟩, recS := ["Dash".toList], commentText := "<Checksum:XOR8:1>".toList }]
        frameNotEmpty := true, rollSig := some 0, csmSig := some 2, csmMethod := "XOR8".toList, csmOp := 1 },
      { name := "Gear".toList, dlc := 2, msgId := 100, tranS := ["ECU".toList], recS := ["Dash".toList]
        signals := [
          { name := "Ratio_ro".toList, nameFloat := "Ratio_phys".toList, startBit := 0, lengthBit := 10, factor := ⟨2, 0⟩, offset := ⟨-40, 0⟩, typeRo := .u16, typePhys := .i16
            maxValue := ⟨1, 0⟩, recS := ["Dash".toList] }]
        hasPhys := true, frameNotEmpty := true }]
    maxDlc := 8, verHi := 2, verLow := 7 }

theorem pipeOk : trimDbcText platIns pipeText = .ok pipeOut := by decide +kernel

/-- The messages in the order in which the generator prints them. -/
def pipeMsgs : List Msg := pipeOut.msgs.reverse

theorem pipeSorted : SortedBy pipeMsgs pipeOut.msgs := ⟨List.reverse_perm _, by decide +kernel⟩

theorem pipeDrv : DriverOk "drv".toList "my.dbc".toList pipeOut.verHi pipeOut.verLow pipeOut.maxDlc pipeMsgs userMax (.call "GetTick".toList) (.call "GetHash".toList) "8U".toList "0U".toList :=
  driverB_sound (by decide +kernel)

theorem motorStated : Stated (fileLines platIns pipeText) motor := by
  refine ⟨(fileLines platIns pipeText).take 4, (fileLines platIns pipeText).drop 8, by decide +kernel, fun l hl => noSigB_sound ?_⟩
  revert l
  decide +kernel

theorem motorOk : MsgDescOk motor := by
  have hl : ∀ s ∈ motor.sigs, LineOk s := by
    intro s hs
    have hu : ∀ u ∈ [[], "Nm".toList], Verif.UnitOk u := by
      intro u hu
      simp only [List.mem_cons, List.not_mem_nil, or_false] at hu
      have hc : ∀ u : Str, '"' ∉ u → ':' ∉ u → Verif.UnitOk u := fun u h1 h2 => ⟨h1, fun a x z b e => absurd (by rw [e]; simp) h2⟩
      rcases hu with rfl | rfl
      · exact hc _ (by decide) (by decide)
      · exact hc _ (by decide) (by decide)
    have hr : ["Dash".toList] ≠ [] ∧ ∀ r ∈ ["Dash".toList], IsWordStr r := ⟨by decide, fun r hr => by rw [List.mem_singleton.1 hr]; exact ⟨by decide, by decide⟩⟩
    simp only [motor, List.mem_cons, List.not_mem_nil, or_false] at hs
    rcases hs with rfl | rfl | rfl
    · exact ⟨⟨by decide, by decide⟩, by unfold LitsOk; decide, hu _ (by decide), hr⟩
    · exact ⟨⟨by decide, by decide⟩, by unfold LitsOk; decide, hu _ (by decide), hr⟩
    · exact ⟨⟨by decide, by decide⟩, by unfold LitsOk; decide, hu _ (by decide), hr⟩
  refine ⟨by decide, by decide, by decide, by decide, fun s hs => ?_⟩
  have h := hl s hs
  simp only [motor, List.mem_cons, List.not_mem_nil, or_false] at hs
  rcases hs with rfl | rfl | rfl
  · exact ⟨h, by decide, by decide, by decide, by decide, by decide, by unfold Fits; decide⟩
  · exact ⟨h, by decide, by decide, by decide, by decide, by decide, by unfold Fits; decide⟩
  · exact ⟨h, by decide, by decide, by decide, by decide, by decide, by unfold Fits; decide⟩

def pipeG : GenDesc := driverDesc "drv".toList "my.dbc".toList pipeOut.verHi pipeOut.verLow
def pipeCfg : Cfg := cfgOf pipeG userMax true 8 0
def pipeLook : Look := lookOf pipeG userMax pipeMsgs (.call "GetTick".toList) (.call "GetHash".toList) "8U".toList "0U".toList

def pipeHash (d : List Nat) (_ _ : Nat) (_ : Str) (_ : Nat) : Nat := (d.take 7).foldl (· + ·) 0

theorem pipeKinds : ∀ m ∈ pipeMsgs, (m.sigAt m.csmSig).isSome = true → m.csmMethod = "XOR8".toList ∧ m.csmOp = 1 := by decide +kernel

theorem pipeMax : pipeLook.maxW = "8U".toList ∧ pipeCfg.maxDlc = 8 := ⟨rfl, rfl⟩
theorem pipeInit : pipeLook.initW = "0U".toList ∧ pipeCfg.initByte = 0 := ⟨rfl, rfl⟩

theorem pipeTarget : TargetOk pipeG pipeMsgs false pipeCfg pipeLook target pipeHash 77 := by
  refine ⟨rfl, ?_, ?_, ?_, ?_, ?_⟩
  · exact ⟨fun _ _ => some (.i ⟨.u32, 77⟩), by unfold target; dsimp only; rw [if_neg (by decide), if_pos rfl], fun _ => ⟨⟨.u32, 77⟩, rfl, by decide⟩⟩
  · intro _ m hm hne x hx
    have hk := pipeKinds m hm (by rw [hx]; rfl)
    rw [hk.1, hk.2]
    refine ⟨by decide +kernel, 1, fun _ d => some (.i ⟨.u8, ((d.take 7).foldl (· + ·) 0 % 256 : Nat)⟩), by decide, by unfold target; dsimp only; rw [if_pos rfl],
      fun d => ⟨_, rfl, ?_⟩⟩
    exact u8_conv_mod _
  · intro _ m hm _
    revert m
    decide +kernel
  · rw [pipeMax.1, pipeMax.2]
    exact ⟨by decide, ⟨.u32, 8⟩, by decide, rfl, by decide⟩
  · rw [pipeInit.1, pipeInit.2]
    exact ⟨by decide, ⟨.u32, 0⟩, by decide, rfl⟩

end Fix

/-- The whole way for the example: the compiled text of the generated driver finds 0xB and -16 in a frame. -/
example : ∃ hops sops is, mainHeaderOps Fix.pipeG Fix.pipeOut.maxDlc Fix.pipeMsgs = some hops ∧ mainSourceOps Fix.pipeG Fix.pipeMsgs = some sops ∧
    (∃ F, ∀ f, F ≤ f → compile f (genFiles Fix.pipeG hops Fix.pipeMsgs) Fix.userMax (opsText sops) = some is) ∧
    ∃ r, callUnit 256 Fix.target is "Unpack_Motor_drv".toList (unpackArgs ⟨.u8, 8⟩) { Fix.cst0 with dat := [0xAB, 0, 0x0F, 0xF0, 0, 0, 0, 0] } = some r ∧
      r.1.fld "Cnt".toList = 0xB ∧ r.1.fld "Torque".toList = -16 := by
  obtain ⟨hops, sops, is, h1, h2, h3, h4⟩ := C59_pipeline_partial (φ := Unit) platIns platIns_sorts rfl (fun v e => by cases e) Fix.pipeText Fix.pipeOut Fix.pipeOk Fix.pipeMsgs Fix.pipeSorted Fix.pipeDrv true 8 0
  refine ⟨hops, sops, is, h1, h2, h3, ?_⟩
  have hst : StartIn is Fix.motor { Fix.cst0 with dat := [0xAB, 0, 0x0F, 0xF0, 0, 0, 0, 0] } := by
    refine ⟨fun _ _ n t w _ => ?_, fun _ _ => Int.le_refl _, ?_, by decide, rfl, rfl⟩
    · cases t <;> rfl
    · intro b hb
      revert b
      decide
  obtain ⟨r, r1, r2⟩ := (h4 Fix.target Fix.pipeHash 77 Fix.pipeTarget Fix.motor Fix.motorStated Fix.motorOk (by decide) (by decide) (Or.inr (by decide)) (Or.inl (by decide)) _ hst 256
    (Nat.le_refl _)).1 ⟨.u8, 8⟩
  refine ⟨r, r1, ?_, ?_⟩
  · have := r2.2.2 (Fix.sd "Cnt" 0 4 true false 0 15 "") (by decide) (Or.inl (by decide))
    exact this.trans (by decide +kernel)
  · have := r2.2.2 (Fix.sd "Torque" 19 12 false true (-2048) 2047 "Nm") (by decide) (Or.inl (by decide))
    exact this.trans (by decide +kernel)

end Verif
