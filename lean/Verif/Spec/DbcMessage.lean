import Verif.Spec.DbcStatements
import Verif.Spec.DbcFile
import Verif.Spec.DbcLayout
/-
Descriptions of whole messages, and what it means that a file states one.
-/
namespace Verif.Spec
open Verif

/-- What a file says about a message. -/
structure MsgDesc where
  id : Nat
  ext : Bool
  name : Str
  dlc : Nat
  tx : Str
  sigs : List SigDesc
  deriving DecidableEq, Repr

/-- The header line of a message. -/
def MsgDesc.header (d : MsgDesc) : Str := msgLine (fileId d.id d.ext) d.name d.dlc d.tx

/-- Factor and offset are written as whole numbers 1 and 0. -/
def SigDesc.plain (d : SigDesc) : Prop :=
  d.factor.frac = [] ∧ d.offset.frac = [] ∧ d.factor.value = Dec.ofInt 1 ∧ d.offset.value = Dec.ofInt 0

instance (d : SigDesc) : Decidable d.plain := inferInstanceAs (Decidable (_ ∧ _))

/-- The struct member with the raw value of a signal (README: scaled signals get the suffix `_ro`). -/
def SigDesc.member (d : SigDesc) : Str := if d.plain then d.name else d.name ++ "_ro".toList

/-- A line that cannot be a signal line: behind a colon between blanks there are not two quotes (the unit of
a signal is quoted). -/
def NoSigLine (l : Str) : Prop :=
  ∀ a x z b, l = a ++ x :: ':' :: z :: b → IsBlankC x → IsBlankC z → b.count '"' < 2

/-- The lines state the message: its header, directly followed by its signal lines, and up to the next
header there are no other signal lines. -/
def Stated (lines : List Str) (d : MsgDesc) : Prop :=
  ∃ pre post, lines = pre ++ d.header :: (d.sigs.map SigDesc.line ++ post) ∧
    ∀ l ∈ post.takeWhile (fun l => !IsHeader l), NoSigLine l

end Verif.Spec
