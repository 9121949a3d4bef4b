import Verif.Spec.DbcLayout
import Verif.Model.GenBody
/-
Vocabulary of the property statements: the layout specification applied to the descriptors, and
well-formedness conditions.
-/
namespace Verif
open Spec

/-- `order = Intel`. -/
def Sig.intel (s : Sig) : Bool := s.order == .intel

/-- Position of bit `k` of a signal. -/
def Sig.pos (s : Sig) (k : Nat) : Nat := bitPos s.intel s.startBit s.lengthBit k

/-- `Fits` for a signal. -/
def Sig.fits (s : Sig) (n : Nat) : Prop := Fits s.intel s.startBit s.lengthBit n

/-- The signals of a message are printable: 1..64 bits, inside the payload. -/
def PrintableSig (n : Nat) (s : Sig) : Prop :=
  0 < s.lengthBit ∧ s.lengthBit ≤ 64 ∧ s.fits n

/-- Messages whose signals all lie in the payload. -/
def MsgOk (m : Msg) : Prop := m.dlc ≤ 64 ∧ ∀ s ∈ m.signals, PrintableSig m.dlc s

/-- Raw value of a signal in a payload. -/
def Sig.raw (s : Sig) (d : List Nat) : Nat := rawValue s.intel s.startBit s.lengthBit d

/-- A layout for which the unpack expression is right. -/
def Sig.aligned (s : Sig) : Prop := s.lengthBit ≤ 32 ∨ s.pos 0 % 8 = 0

/-- The struct member of the signal can hold its raw values (see C12). -/
def Sig.TypeOk (s : Sig) : Prop :=
  s.typeRo.signed = s.signed ∧ s.lengthBit ≤ s.typeRo.bits

/-- Bit `p` of the payload is assigned to a signal, with value `z` for its field. -/
def SigBit (s : Sig) (z : Int) (p : Nat) : Prop :=
  ∃ k, k < s.lengthBit ∧ s.pos k = p ∧ intBit z k = true

/-- All bits of the signal are in one of the first eight payload bytes. -/
def Sig.inByte (s : Sig) : Prop := ∃ i, i < 8 ∧ ∀ k, k < s.lengthBit → s.pos k / 8 = i

/-- Condition on the checksum signal: simple, in one of the first eight bytes (the scanner checks
the single byte, src/parser/dbcscanner.cpp:219-225). -/
def CsmHyp (cfg : Cfg) (m : Msg) : Prop :=
  cfg.flag .autoCsm = true → ∀ s, m.sigAt m.csmSig = some s → s.isSimple = true ∧ s.inByte

/-- The rolling counter signal is narrow enough for its mask. -/
def RollOk (m : Msg) : Prop := ∀ r, m.sigAt m.rollSig = some r → r.lengthBit < 31

/-- No conversion macros are used. -/
def NoPhys (cfg : Cfg) (m : Msg) : Prop :=
  cfg.flag .useSigFloat = false ∨ ∀ s ∈ m.signals, s.isSimple = true

/-- Value of payload bit `p` before the signals are written. -/
def baseBit (cfg : Cfg) (dlc : Nat) (d : List Nat) (p : Nat) : Bool :=
  if p / 8 < min dlc cfg.maxDlc then cfg.initByte.testBit (p % 8) else payloadBit d p

/-- The member is written by the preparation code of Pack. -/
def PackWrites (cfg : Cfg) (m : Msg) (n : Str) : Prop :=
  (cfg.flag .autoRoll = true ∧ ∃ s, m.sigAt m.rollSig = some s ∧ n = s.name) ∨
  (cfg.flag .autoCsm = true ∧ ∃ s, m.sigAt m.csmSig = some s ∧ n = s.name) ∨
  (cfg.flag .useSigFloat = true ∧ ∃ s ∈ m.signals, s.isSimple = false ∧ n = s.name)

/-- No two signals of the message share a payload bit. -/
def NoOverlap (m : Msg) : Prop :=
  m.signals.Pairwise fun s t => ∀ j, j < s.lengthBit → ∀ k, k < t.lengthBit → s.pos j ≠ t.pos k

/-- The initial byte value has zeros on all signal bits. -/
def InitClear (cfg : Cfg) (m : Msg) : Prop :=
  ∀ s ∈ m.signals, ∀ k, k < s.lengthBit → cfg.initByte.testBit (s.pos k % 8) = false

/-- The payload indices an expression reads. -/
def CExpr.reads : CExpr → List Nat
  | .dat i => [i]
  | .fld _ => []
  | .mask _ => []
  | .band a b => a.reads ++ b.reads
  | .bor a b => a.reads ++ b.reads
  | .shr a _ => a.reads
  | .shl a _ => a.reads
  | .cast _ a => a.reads

end Verif
