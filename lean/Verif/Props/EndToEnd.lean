import Verif.Props.Unit
import Verif.Props.Unpack
import Verif.Props.Pack
/-
C55: the bits of the DBC layout and the members of the struct, for the compiled text of the generated files.
-/
namespace Verif
open Spec

variable {φ : Type} {drv : Str} {file : Source} {hi lo maxDlc : Nat} {msgs : List Msg} {D0 : Defs} {tick hash : Hook} {maxW initW : Str}

/-- State before a call: the members of struct and monitor hold values of their types, the buffer holds
bytes, nothing has been written or called. -/
structure Spec.Start (flag : Flag → Bool) (m : Msg) (cst : CSt φ) : Prop where
  fld : ∀ n t w, (n, MTy.int t w) ∈ structMembers flag m → t.conv (cst.fld n) = cst.fld n
  mon : ∀ d ∈ monMembers, 0 ≤ cst.mon d.1
  dat : IsPayload cst.dat
  len : m.dlc ≤ cst.dat.length
  out : cst.out = fun _ => none
  calls : cst.calls = []

/-- Conditions on a message under which Unpack and Pack are defined on all inputs. -/
structure Spec.MsgGood (cfg : Cfg) (m : Msg) : Prop where
  layout : MsgOk m
  type : ∀ s ∈ m.signals, s.TypeOk
  signed : ∀ s ∈ m.signals, s.signed = true → s.lengthBit ≤ 32
  csm : ∀ s, m.sigAt m.csmSig = some s → s.isSimple = true ∧ s.inByte
  phys : NoPhys cfg m
  init : cfg.initByte < 256

/-- The state of the model that corresponds to a state before a call. -/
def startSt (cst : CSt φ) : St φ :=
  let n := fun s : String => (cst.mon s.toList).toNat
  { fld := cst.fld, flt := cst.flt, dat := cst.dat,
    mon := ⟨n "last_cycle", n "timeout_cycle", n "frame_cnt", n "roll_error", n "csm_error", n "cycle_error", n "dlc_error"⟩ }

theorem start_obs {flag : Flag → Bool} {m : Msg} {cst : CSt φ} (h : Start flag m cst) (K : Look) (N : OutNames) : Obs K N (startSt cst) cst := by
  have hm : ∀ d ∈ monMembers, cst.mon d.1 = ((cst.mon d.1).toNat : Int) := fun d hd => (Int.toNat_of_nonneg (h.mon d hd)).symm
  refine ⟨rfl, rfl, rfl, ⟨?_, ?_, ?_, ?_, ?_, ?_, ?_⟩, ?_, ?_, ?_, h.calls⟩
  · exact hm ("last_cycle".toList, .u32, none) (by decide)
  · exact hm ("timeout_cycle".toList, .u32, none) (by decide)
  · exact hm ("frame_cnt".toList, .u32, none) (by decide)
  · exact hm ("roll_error".toList, .u32, some 1) (by decide)
  · exact hm ("csm_error".toList, .u32, some 1) (by decide)
  · exact hm ("cycle_error".toList, .u32, some 1) (by decide)
  · exact hm ("dlc_error".toList, .u32, some 1) (by decide)
  · rw [h.out]; rfl
  · rw [h.out]; rfl
  · rw [h.out]; rfl

theorem start_typed {cfg : Cfg} {m : Msg} {cst : CSt φ} (h : Start cfg.flag m cst) (fl : FloatOps φ) (hashF : List Nat → Nat → Nat → Str → Nat → Nat) (now dlcArg : Nat) :
    Typed (mkCtx cfg msgs m fl hashF now dlcArg) (startSt cst) := fun n d hd => h.fld n d.ty d.width (decls_mem hd)

/-- What a call of Unpack has to do with message `m`. -/
def Spec.UnpackDone (m : Msg) (cst : CSt φ) (r : CSt φ × V φ) : Prop :=
  r.2 = .i ⟨.u32, (m.msgId : Nat)⟩ ∧ r.1.dat = cst.dat ∧
  ∀ s ∈ m.signals, s.aligned → r.1.fld s.name =
    if s.signed then signedOf s.lengthBit (rawValue (s.order == .intel) s.startBit s.lengthBit cst.dat)
    else (rawValue (s.order == .intel) s.startBit s.lengthBit cst.dat : Nat)

/-- What a call of Pack has to do with message `m`: the buffer holds the members at the positions of the DBC, length and kind of the id (and with the
struct of the frame, the id) are passed out, members other than rolling counter and checksum are kept. -/
def Spec.PackDone (cfg : Cfg) (m : Msg) (N : OutNames) (cst : CSt φ) (r : CSt φ × V φ) : Prop :=
  r.2 = .i ⟨.u32, (m.msgId : Nat)⟩ ∧
  (m.dlc ≤ cfg.maxDlc → ∀ p, p < 8 * m.dlc → (payloadBit r.1.dat p = true ↔ cfg.initByte.testBit (p % 8) = true ∨
    ∃ s ∈ m.signals, ∃ k, k < s.lengthBit ∧ bitPos (s.order == .intel) s.startBit s.lengthBit k = p ∧ intBit (r.1.fld s.name) k = true)) ∧
  (m.dlc ≤ cfg.maxDlc → ∀ p, 8 * m.dlc ≤ p → payloadBit r.1.dat p = payloadBit cst.dat p) ∧ r.1.dat.length = cst.dat.length ∧ IsPayload r.1.dat ∧
  (r.1.out N.len = some (m.dlc : Int) ∧ r.1.out N.ide = some (if m.isExt then 1 else 0) ∧ (cfg.flag .useCanStruct = true → r.1.out "MsgId".toList = some ((m.msgId % 2 ^ 32 : Nat) : Int))) ∧
  ∀ n, (cfg.flag .autoRoll = true → ∀ s, m.sigAt m.rollSig = some s → n ≠ s.name) →
    (cfg.flag .autoCsm = true → ∀ s, m.sigAt m.csmSig = some s → n ≠ s.name) → r.1.fld n = cst.fld n

/-- A call of `Unpack_M` or `Pack_M` of the unit does what the model of the functions does. -/
def RunsModel (φ : Type) (g : GenDesc) (msgs : List Msg) (mono : Bool) (cfg : Cfg) (K : Look) (is : List Spec.Item) : Prop :=
  ∀ (T : Target φ) (hashF : List Nat → Nat → Nat → Str → Nat → Nat) (now : Nat), TargetOk g msgs mono cfg K T hashF now →
    ∀ m ∈ msgs, m.frameNotEmpty = true → ∀ (dlcArg : Nat) (v : CVal), dlcArg < 256 → CTy.u8.conv v.val = (dlcArg : Nat) →
    ∀ (N : OutNames), (cfg.flag .useCanStruct = true → N.len = "DLC".toList ∧ N.ide = "IDE".toList) →
    ∀ (st : St φ) (cst : CSt φ), Obs K N st cst → Typed (mkCtx cfg msgs m (fltOps T.F) hashF now dlcArg) st → ∀ f, 256 ≤ f →
      Same K N m.msgId (runUnpack (mkCtx cfg msgs m (fltOps T.F) hashF now dlcArg) m st) (callUnit f T is (unpackName g m) (unpackArgs v) cst) ∧
      Same K N m.msgId (runPack (mkCtx cfg msgs m (fltOps T.F) hashF now dlcArg) m st)
        (callUnit f T is (packName g m) (packArgs (cfg.flag .useCanStruct) N) cst)

theorem pack_outs {cfg : Cfg} {K : Look} {N : OutNames} {m : Msg} {st : St φ} {cst : CSt φ} (hm : MsgOk m) (q : Obs K N st cst) (h1 : st.outDlc = some (m.dlc % 256))
    (h2 : st.outIde = some (m.ide % 256)) (h3 : cfg.flag .useCanStruct = true → st.outId = some (m.msgId % 2 ^ 32)) :
    cst.out N.len = some (m.dlc : Int) ∧ cst.out N.ide = some (if m.isExt then 1 else 0) ∧
      (cfg.flag .useCanStruct = true → cst.out "MsgId".toList = some ((m.msgId % 2 ^ 32 : Nat) : Int)) := by
  refine ⟨?_, ?_, fun hq => ?_⟩
  · rw [q.outDlc, h1, Nat.mod_eq_of_lt (by have := hm.1; omega)]
    rfl
  · rw [q.outIde, h2]
    unfold Msg.ide
    cases m.isExt <;> rfl
  · rw [q.outId, h3 hq]
    rfl

/-- What the functions of a unit do that does what the model does. -/
theorem runs_done {g : GenDesc} {cfg : Cfg} {K : Look} {mono : Bool} {is : List Spec.Item} (h : DriverOk drv file hi lo maxDlc msgs D0 tick hash maxW initW)
    (hfl : cfg.flag = fun f => (D0.lookup (flagName (driverDesc drv file hi lo) f)).isSome) (h4 : RunsModel φ g msgs mono cfg K is)
    (T : Target φ) (hashF : List Nat → Nat → Nat → Str → Nat → Nat) (now : Nat) (hT : TargetOk g msgs mono cfg K T hashF now)
    (m : Msg) (hm : m ∈ msgs) (hne : m.frameNotEmpty = true) (hg : MsgGood cfg m) (cst : CSt φ) (hs : Start cfg.flag m cst) (f : Nat) (hf : 256 ≤ f) :
    (∀ v : CVal, ∃ r, callUnit f T is (unpackName g m) (unpackArgs v) cst = some r ∧ UnpackDone m cst r) ∧
    (∀ N : OutNames, (cfg.flag .useCanStruct = true → N.len = "DLC".toList ∧ N.ide = "IDE".toList) →
      (∀ r, m.sigAt m.rollSig = some r → InSigRange r.signed r.lengthBit (cst.fld r.name)) →
      ∃ r, callUnit f T is (packName g m) (packArgs (cfg.flag .useCanStruct) N) cst = some r ∧ PackDone cfg m N cst r) := by
  have hfr := h.frame m hm hne
  have hro : RollOk m := by
    obtain ⟨xs, tb, hp⟩ := hfr.print
    exact hp.roll
  have hdec : ∀ dlcArg, (mkCtx cfg msgs m (fltOps T.F) hashF now dlcArg).declsOk = true := fun _ => decide_eq_true (decls_nodup (cfg := cfg) (by rw [hfl]; exact hfr.members))
  have hcs : CsmHyp cfg m := fun _ => hg.csm
  constructor
  · intro v
    have hvr : 0 ≤ CTy.u8.conv v.val ∧ CTy.u8.conv v.val < 256 := by
      show 0 ≤ v.val % 256 ∧ v.val % 256 < 256
      omega
    obtain ⟨d, hd⟩ := Int.eq_ofNat_of_zero_le hvr.1
    have hd2 : d < 256 := by omega
    obtain ⟨N⟩ : Nonempty { N : OutNames // N.len = "DLC".toList ∧ N.ide = "IDE".toList } :=
      ⟨⟨⟨"DLC".toList, "IDE".toList, by decide, by decide, by decide⟩, rfl, rfl⟩⟩
    have q := (h4 T hashF now hT m hm hne d v hd2 hd N.1 (fun _ => N.2) (startSt cst) cst (start_obs hs K N.1) (start_typed hs _ _ _ _) f hf).1
    obtain ⟨st', hst⟩ := C01_unpack_defined cfg msgs m (fltOps T.F) hashF now d (startSt cst) hg.layout hg.type (hdec d) hro hg.phys hg.signed hs.dat hs.len
    rw [hst] at q
    cases hr : callUnit f T is (unpackName g m) (unpackArgs v) cst with
    | none => rw [hr] at q; exact q.elim
    | some r =>
      rw [hr] at q
      obtain ⟨q1, q2, q3⟩ := q
      refine ⟨r, rfl, q3, ?_, ?_⟩
      · rw [q1.dat]
        exact (unpack_fields (c := mkCtx cfg msgs m (fltOps T.F) hashF now d) rfl hg.layout hs.dat hs.len hst).1
      · intro s hss ha
        rw [q1.fld]
        exact unpack_value (c := mkCtx cfg msgs m (fltOps T.F) hashF now d) rfl hg.layout hs.dat hs.len hst hss (hg.type s hss) ha
  · intro N hN hroll
    have q := (h4 T hashF now hT m hm hne 0 ⟨.u8, 0⟩ (by decide) rfl N hN (startSt cst) cst (start_obs hs K N) (start_typed hs _ _ _ _) f hf).2
    obtain ⟨st', hst⟩ := C05_pack_defined cfg msgs m (fltOps T.F) hashF now 0 (startSt cst) hg.layout hg.type hg.csm hg.init (hdec 0) hro hg.phys hs.dat hs.len hroll
    rw [hst] at q
    cases hr : callUnit f T is (packName g m) (packArgs (cfg.flag .useCanStruct) N) cst with
    | none => rw [hr] at q; exact q.elim
    | some r =>
      rw [hr] at q
      obtain ⟨q1, q2, q3⟩ := q
      obtain ⟨p1, p2, -, -, -, -, p3, p4, p5⟩ := pack_bits (c := mkCtx cfg msgs m (fltOps T.F) hashF now 0) rfl hg.layout hg.type hcs hg.init hs.dat hs.len hst
      refine ⟨r, rfl, q3, ?_, ?_, ?_, ?_, pack_outs hg.layout q1 p3 p4 p5, ?_⟩
      · intro hmax
        rw [q1.dat, q1.fld]
        exact (C05_pack_bits cfg msgs m (fltOps T.F) hashF now 0 (startSt cst) st' hg.layout hg.type hcs hg.init hmax hs.dat hs.len hst).1
      · intro hmax
        rw [q1.dat]
        exact (C05_pack_bits cfg msgs m (fltOps T.F) hashF now 0 (startSt cst) st' hg.layout hg.type hcs hg.init hmax hs.dat hs.len hst).2.1
      · rw [q1.dat]; exact p1
      · rw [q1.dat]; exact p2
      · intro n n1 n2
        rw [q1.fld]
        refine C05_fields_kept cfg msgs m (fltOps T.F) hashF now 0 (startSt cst) st' hg.layout hg.type hcs hg.init hs.dat hs.len hst n n1 n2 ?_
        intro hf t ht hts
        rcases hg.phys with hx | hx
        · rw [hx] at hf; cases hf
        · rw [hx t ht] at hts; cases hts

/-- **C55**.  For every driver and every set of user macros that can be read at all (C54): the *text* of the
generated files compiles, and in the compiled unit, for every message whose layout is in the payload, every
call of `Unpack_M` on every state and payload is defined and leaves the DBC values of the payload in the
members; every call of `Pack_M` is defined and leaves exactly the bits of the members in the buffer.  No part
of the statement refers to the model of the generated functions. -/
theorem C55_compiled_partial (h : DriverOk drv file hi lo maxDlc msgs D0 tick hash maxW initW) (ext64 : Bool) (maxV initV : Nat) :
    let g := driverDesc drv file hi lo
    let cfg := cfgOf g D0 ext64 maxV initV
    let K := lookOf g D0 msgs tick hash maxW initW
    ∃ hops sops is, mainHeaderOps g maxDlc msgs = some hops ∧ mainSourceOps g msgs = some sops ∧
      (∃ F, ∀ f, F ≤ f → compile f (genFiles g hops msgs) D0 (opsText sops) = some is) ∧
      ∀ (T : Target φ) (hashF : List Nat → Nat → Nat → Str → Nat → Nat) (now : Nat),
        TargetOk g msgs (D0.lookup (monoName g)).isSome cfg K T hashF now →
        ∀ m ∈ msgs, m.frameNotEmpty = true → MsgGood cfg m → ∀ (cst : CSt φ), Start cfg.flag m cst → ∀ f, 256 ≤ f →
          (∀ v : CVal, ∃ r, callUnit f T is (unpackName g m) (unpackArgs v) cst = some r ∧ UnpackDone m cst r) ∧
          (∀ N : OutNames, (cfg.flag .useCanStruct = true → N.len = "DLC".toList ∧ N.ide = "IDE".toList) →
            (∀ r, m.sigAt m.rollSig = some r → InSigRange r.signed r.lengthBit (cst.fld r.name)) →
            ∃ r, callUnit f T is (packName g m) (packArgs (cfg.flag .useCanStruct) N) cst = some r ∧ PackDone cfg m N cst r) := by
  intro g cfg K
  obtain ⟨hops, sops, is, h1, h2, h3, h4⟩ := C54_model_partial (φ := φ) h ext64 maxV initV
  exact ⟨hops, sops, is, h1, h2, h3, fun T hashF now hT m hm hne hg cst hs f hf => runs_done h rfl h4 T hashF now hT m hm hne hg cst hs f hf⟩

/-- **C55**, round trip: whatever Pack of one build leaves in the buffer, Unpack of another build (other
driver name, other macros) reads back.  With `C55_compiled_partial` on both sides. -/
theorem C55_round_trip_partial {cfg : Cfg} {m : Msg} {N : OutNames} {cst cst2 : CSt φ} {r r2 : CSt φ × V φ} (hm : MsgOk m) (hov : NoOverlap m) (hic : InitClear cfg m) (hmax : m.dlc ≤ cfg.maxDlc)
    (hp : PackDone cfg m N cst r) (hdat : cst2.dat = r.1.dat) (hu : UnpackDone m cst2 r2) {s : Sig} (hs : s ∈ m.signals) (ha : s.aligned)
    (hrange : InSigRange s.signed s.lengthBit (r.1.fld s.name)) : r2.1.fld s.name = r.1.fld s.name := by
  rw [hu.2.2 s hs ha, hdat]
  refine value_of_bits (hm.2 s hs).1 hrange fun k hk => ?_
  have hpk : s.pos k < 8 * m.dlc := (hm.2 s hs).2.2 k hk
  rw [Bool.eq_iff_iff, hp.2.1 hmax _ hpk, hic s hs k hk]
  simp only [Bool.false_eq_true, false_or]
  constructor
  · rintro ⟨t, ht, k', hk', hpos, hbit⟩
    have := overlap_eq hov hs ht hk hk' hpos.symm
    subst this
    have : k' = k := bitPos_inj hk' hk hpos
    subst this
    exact hbit
  · intro hbit
    exact ⟨s, hs, k, hk, rfl, hbit⟩

/-! Example: the driver of `Fix.drvMax`, and a target with a hash function and a clock. -/

namespace Fix

def flt0 : Flt Unit :=
  { lit := fun _ => (), neg := fun _ => (), add := fun _ _ => (), sub := fun _ _ => (), mul := fun _ _ => (), div := fun _ _ => (), ofInt := fun _ => (), toInt := fun _ _ => none }

def target : Target Unit :=
  { F := flt0, ext64 := true, const := fun n => if n = "XOR8".toList then some 1 else none,
    user := fun n =>
      if n = "GetHash".toList then some fun _ d => some (.i ⟨.u8, ((d.take 7).foldl (· + ·) 0 % 256 : Nat)⟩)
      else if n = "GetTick".toList then some fun _ _ => some (.i ⟨.u32, 77⟩)
      else none }

def drvG : GenDesc := driverDesc "drv".toList "my.dbc".toList 1 2
def drvCfg : Cfg := cfgOf drvG userMax true 8 0
def drvLook : Look := lookOf drvG userMax drvMsgs (.call "GetTick".toList) (.call "GetHash".toList) "8U".toList "0U".toList

theorem u8_conv_mod (n : Nat) : CTy.u8.conv ((n % 256 : Nat) : Int) = ((n % 256 : Nat) : Int) := by
  show ((n % 256 : Nat) : Int) % 256 = _
  omega

theorem targetMax : TargetOk drvG drvMsgs false drvCfg drvLook target Fix.hash 77 := by
  refine ⟨rfl, ?_, ?_, ?_, ?_, ?_⟩
  · exact ⟨fun _ _ => some (.i ⟨.u32, 77⟩), by unfold target; dsimp only; rw [if_neg (by decide), if_pos rfl], fun _ => ⟨⟨.u32, 77⟩, rfl, by decide⟩⟩
  · intro _ m hm hne x hx
    have hc : m = msgA := by
      simp only [drvMsgs, List.mem_cons, List.not_mem_nil, or_false] at hm
      rcases hm with rfl | rfl | rfl
      · rfl
      · cases hx
      · cases hx
    subst hc
    refine ⟨by decide +kernel, 1, fun _ d => some (.i ⟨.u8, ((d.take 7).foldl (· + ·) 0 % 256 : Nat)⟩), by decide, by unfold target; dsimp only; rw [if_pos rfl],
      fun d => ⟨_, rfl, ?_⟩⟩
    exact u8_conv_mod _
  · intro _ m hm _
    revert m
    decide +kernel
  · exact ⟨by decide, ⟨.u32, 8⟩, by decide, rfl, by decide⟩
  · exact ⟨by decide, ⟨.u32, 0⟩, by decide, rfl⟩

theorem msgAgood : MsgGood drvCfg msgA := by
  refine ⟨⟨by decide, ?_⟩, ?_, ?_, ?_, Or.inr ?_, by decide⟩
  · intro s hs
    simp only [msgA, List.mem_cons, List.not_mem_nil, or_false] at hs
    rcases hs with rfl | rfl | rfl | rfl <;> exact ⟨by decide, by decide, fits_of_all (by decide)⟩
  · intro s hs
    simp only [msgA, List.mem_cons, List.not_mem_nil, or_false] at hs
    rcases hs with rfl | rfl | rfl | rfl <;> exact ⟨by decide, by decide⟩
  · intro s hs
    simp only [msgA, List.mem_cons, List.not_mem_nil, or_false] at hs
    rcases hs with rfl | rfl | rfl | rfl <;> decide
  · intro s hs
    have : msgA.sigAt msgA.csmSig = some (phys sigC) := rfl
    rw [this] at hs
    cases hs
    exact ⟨rfl, csmIn⟩
  · intro s hs
    simp only [msgA, List.mem_cons, List.not_mem_nil, or_false] at hs
    rcases hs with rfl | rfl | rfl | rfl <;> rfl

def cst0 : CSt Unit := { fld := fun _ => 3, flt := fun _ => (), mon := fun _ => 0, dat := [0xAB, 0xCD, 3, 0, 0, 0, 0, 0x55] }

theorem start0 : Start drvCfg.flag msgA cst0 := by
  refine ⟨fun n t w _ => ?_, fun _ _ => Int.le_refl _, ?_, by decide, rfl, rfl⟩
  · cases t <;> rfl
  · intro b hb
    revert b
    decide

end Fix

/-- The compiled text of the example unpacks a frame: `Speed` is 0xCDA, `Angle` is -256. -/
example : ∃ hops sops is, mainHeaderOps Fix.drvG 8 Fix.drvMsgs = some hops ∧ mainSourceOps Fix.drvG Fix.drvMsgs = some sops ∧
    (∃ F, ∀ f, F ≤ f → compile f (genFiles Fix.drvG hops Fix.drvMsgs) Fix.userMax (opsText sops) = some is) ∧
    ∃ r, callUnit 256 Fix.target is "Unpack_MSG_drv".toList (unpackArgs ⟨.u8, 8⟩) Fix.cst0 = some r ∧ r.1.fld "Speed".toList = 0xCDA ∧ r.1.fld "Angle".toList = -256 := by
  obtain ⟨hops, sops, is, h1, h2, h3, h4⟩ := C55_compiled_partial (φ := Unit) Fix.drvMax true 8 0
  refine ⟨hops, sops, is, h1, h2, h3, ?_⟩
  obtain ⟨r, r1, r2⟩ := (h4 Fix.target Fix.hash 77 Fix.targetMax Fix.msgA (by decide) rfl Fix.msgAgood Fix.cst0 Fix.start0 256 (Nat.le_refl _)).1 ⟨.u8, 8⟩
  refine ⟨r, r1, ?_, ?_⟩
  · have := r2.2.2 (Fix.phys Fix.sigA) (by decide) (Or.inl (by decide))
    exact this.trans (by decide +kernel)
  · have := r2.2.2 (Fix.phys Fix.sigB) (by decide) (Or.inl (by decide))
    exact this.trans (by decide +kernel)

end Verif
