import Verif.Base.Str
import Verif.Base.CInt
/-
Descriptors (src/types/*.h).
-/
namespace Verif

/-- `enum class BitLayout`, src/types/message.h:10-14. -/
inductive BitLayout where
  | intel | motorolla
  deriving DecidableEq, Repr, Inhabited

/-- `enum class MultiplexType`, src/types/message.h:16-21. -/
inductive MultiplexType where
  | none | master | mulValue
  deriving DecidableEq, Repr, Inhabited

/-- Model of the `double` fields that are read with `atof` (Factor, Offset, Min, Max):
the exact decimal `num / 10^scale`.  Simplification: the rounding of `atof` to binary64 is not
modelled; it is the identity for integers of magnitude up to 2^53, which is what the integer
properties use. -/
structure Dec where
  num : Int
  scale : Nat
  deriving DecidableEq, Repr, Inhabited

namespace Dec
/-- An integer as decimal. -/
def ofInt (z : Int) : Dec := ⟨z, 0⟩
/-- `d == z` for an integer literal `z`. -/
def eqInt (d : Dec) (z : Int) : Bool := d.num == z * 10 ^ d.scale
/-- C cast to an integer type: truncation towards zero (range is the caller's concern). -/
def trunc (d : Dec) : Int := Int.tdiv d.num (10 ^ d.scale)
end Dec

/-- `struct ValTable_t`, src/types/comment.h:37-45. -/
structure ValTable where
  sigName : Str := []
  vpairs : List (Str × Nat) := []
  deriving DecidableEq, Repr, Inhabited

/-- `SignalDescriptor_t`, src/types/message.h:36-94.  `RawOffset` and `SigToByte` are omitted:
they are never read.  `StartBit` is a `uint32_t`, `LengthBit` a `uint8_t`. -/
structure Sig where
  name : Str := []
  nameFloat : Str := []
  unit : Str := []
  startBit : Nat := 0
  lengthBit : Nat := 0
  isDouble : Bool := false
  isSimple : Bool := false
  factor : Dec := Dec.ofInt 1
  offset : Dec := Dec.ofInt 0
  order : BitLayout := .intel
  signed : Bool := false
  typeRo : CTy := .u8
  typePhys : CTy := .u8
  minValue : Dec := Dec.ofInt 0
  maxValue : Dec := Dec.ofInt 0
  recS : List Str := []
  valDefs : ValTable := {}
  commentText : Str := []
  valueText : Str := []
  multiplex : MultiplexType := .none
  deriving DecidableEq, Repr, Inhabited

/-- `MessageDescriptor_t`, src/types/message.h:96-150.  The pointers `RollSig` and `CsmSig` into
the `Signals` vector are indices. -/
structure Msg where
  name : Str := []
  dlc : Nat := 0
  msgId : Nat := 0
  isExt : Bool := false
  cycle : Nat := 0
  tranS : List Str := []
  recS : List Str := []
  signals : List Sig := []
  hasPhys : Bool := false
  frameNotEmpty : Bool := false
  rollSig : Option Nat := Option.none
  csmSig : Option Nat := Option.none
  csmMethod : Str := []
  csmOp : Nat := 0
  commentText : Str := []
  deriving DecidableEq, Repr, Inhabited

/-- `MsgsClassification`, src/types/message.h:152-160. -/
structure Groups where
  rx : List Nat := []
  tx : List Nat := []
  both : List Nat := []
  deriving DecidableEq, Repr, Inhabited

/-- `DbcMessageList_t`, src/types/message.h:168-176. -/
structure DbcList where
  msgs : List Msg := []
  maxDlc : Nat := 0
  verHi : Nat := 0
  verLow : Nat := 0
  deriving DecidableEq, Repr, Inhabited

end Verif
