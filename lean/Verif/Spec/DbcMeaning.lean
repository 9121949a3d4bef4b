import Verif.Spec.DbcMessage
/-
The statements about messages and signals of a whole DBC file.
-/
namespace Verif.Spec
open Verif

/-- A statement about a message or a signal; `silent`: anything else. -/
inductive FileStmt where
  | silent
  | sigComment (id : Nat) (ext : Bool) (name text : Str)
  | msgComment (id : Nat) (ext : Bool) (text : Str)
  | cycle (id : Nat) (ext : Bool) (v : Nat)
  | values (id : Nat) (ext : Bool) (name : Str) (entries : List (Int × Str))
  deriving Repr

/-- The statement in one line, with what the format demands of its parts.  The last form of `silent` is that of the `CM_` in the list after `NS_` with all lines up to the end
of the next statement: what follows the first blank is not one of the words for a message or a signal. -/
def FileStmt.Text : FileStmt → Kw → Str → Prop
  | .silent, k, t =>
    (k = .comment ∧ ∃ c, '"' ∉ c ∧ t = "CM_ \"".toList ++ c ++ "\";".toList) ∨
    (k = .comment ∧ ∃ kind n c, IsWordStr kind ∧ kind ≠ "SG_".toList ∧ kind ≠ "BO_".toList ∧ IsWordStr n ∧ '"' ∉ c ∧
      t = "CM_ ".toList ++ kind ++ " ".toList ++ n ++ " \"".toList ++ c ++ "\";".toList) ∨
    (k = .attr ∧ ∃ a r, IsWordStr a ∧ a ≠ "GenMsgCycleTime".toList ∧ t = "BA_ \"".toList ++ a ++ "\" ".toList ++ r) ∨
    (k = .comment ∧ ∃ a w r, (∀ c ∈ a, c ≠ ' ' ∧ c ≠ '"') ∧ w ≠ [] ∧ (∀ c ∈ w, c ≠ ' ' ∧ c ≠ '"') ∧ w ≠ "SG_".toList ∧ w ≠ "BO_".toList ∧ t = a ++ ' ' :: (w ++ ' ' :: r))
  | .sigComment id ext n c, k, t => k = .comment ∧ id < 2 ^ 29 ∧ IsWordStr n ∧ '"' ∉ c ∧ c.getLast? ≠ some '\n' ∧ t = sigCommentText (fileId id ext) n c
  | .msgComment id ext c, k, t => k = .comment ∧ id < 2 ^ 29 ∧ '"' ∉ c ∧ c.getLast? ≠ some '\n' ∧ t = Spec.msgComment (fileId id ext) c
  | .cycle id ext v, k, t => k = .attr ∧ id < 2 ^ 29 ∧ v < 2 ^ 31 ∧ t = cycleLine (fileId id ext) v
  | .values id ext n es, k, t => k = .value ∧ id < 2 ^ 29 ∧ IsWordStr n ∧ (∀ e ∈ es, '"' ∉ e.2 ∧ -(2 ^ 63) ≤ e.1 ∧ e.1 < 2 ^ 63) ∧
      t = valText (fileId id ext) n es

/-- The lines of the file spell the statement; it may be spread over several lines. -/
def Spells (b : Block) (x : FileStmt) : Prop :=
  b.Ok ∧ match b with
  | .other _ => x = .silent
  | .stmt k f r => x.Text k (joinLines k f r)

/-- The id of the message a statement is about. -/
def FileStmt.about : FileStmt → Option Nat
  | .silent => none
  | .sigComment id _ _ _ => some id
  | .msgComment id _ _ => some id
  | .cycle id _ _ => some id
  | .values id _ _ _ => some id

/-- The signals a comment for `name` concerns: those whose member has the name, as it is or with the suffix of scaled signals. -/
def MsgDesc.named (d : MsgDesc) (name : Str) : List SigDesc :=
  d.sigs.filter fun s => s.member = name ∨ s.member = name ++ "_ro".toList

/-- Tagged as rolling counter. -/
def HasRoll (t : Str) : Prop := ∃ a b, t = a ++ (rollText ++ b)

/-- There is something like a checksum tag. -/
def HasCsm (t : Str) : Prop := ∃ a b c, t = a ++ '<' :: ("Checksum:".toList ++ b) ++ '>' :: c

/-- A signal that can hold a checksum: not scaled, unsigned, within one byte. -/
def SigDesc.Sums (s : SigDesc) : Prop := s.plain ∧ s.signed = false ∧ ∀ k, k < s.len → bitPos s.intel s.start s.len k / 8 = s.start / 8

/-- The statement makes a signal of the message the rolling counter. -/
def FileStmt.Counts (d : MsgDesc) : FileStmt → Prop
  | .sigComment id _ n t => id = d.id ∧ HasRoll t ∧ d.named n ≠ []
  | _ => False

/-- The statement has a checksum tag for a signal of the message that can hold one. -/
def FileStmt.Sums (d : MsgDesc) : FileStmt → Prop
  | .sigComment id _ n t => id = d.id ∧ HasCsm t ∧ ∃ s ∈ d.named n, s.Sums
  | _ => False

/-- The statement gives the message a cycle time. -/
def FileStmt.Times (d : MsgDesc) : FileStmt → Prop
  | .cycle id _ _ => id = d.id
  | _ => False

/-- The statement gives the message a comment. -/
def FileStmt.Comments (d : MsgDesc) : FileStmt → Prop
  | .msgComment id _ _ => id = d.id
  | _ => False

/-- The statement gives signal `s` of the message a comment. -/
def FileStmt.Describes (d : MsgDesc) (s : SigDesc) : FileStmt → Prop
  | .sigComment id _ n _ => id = d.id ∧ s ∈ d.named n
  | _ => False

/-- The statement gives signal `s` of the message a value table. -/
def FileStmt.Tables (d : MsgDesc) (s : SigDesc) : FileStmt → Prop
  | .values id _ n _ => id = d.id ∧ s.member = n
  | _ => False

/-- `x` is the last statement of its kind. -/
def IsLast (Q : FileStmt → Prop) (xs : List FileStmt) (x : FileStmt) : Prop :=
  ∃ pre post, xs = pre ++ x :: post ∧ ∀ y ∈ post, ¬ Q y

/-- No statement ends before one begins with `CM_`. -/
def CommentFirst (ls : List Str) : Prop := ∀ a l b, ls = a ++ l :: b → l.getLast? = some ';' → ∃ x ∈ a ++ [l], "CM_".toList <+: x

/-- A line that is no part of an attribute or value table and ends no statement. -/
def Plain (l : Str) : Prop := l.getLast? ≠ some ';' ∧ ¬ "BA_ ".toList <+: l ∧ ¬ "VAL_ ".toList <+: l

/-- The lines of a file (trimmed) end with the blocks `bs`.  The lines before them end no statement and begin no attribute or value table; if one of them begins with `CM_`
(as in the list of keywords after `NS_`), then a comment begins in the blocks before any statement ends. -/
def EndsIn (lines : List Str) (bs : List Block) : Prop :=
  ∃ pre, lines = pre ++ bs.flatMap Block.lines ∧ (∀ l ∈ pre, Plain l) ∧ ((∀ l ∈ pre, ¬ "CM_".toList <+: l) ∨ CommentFirst (bs.flatMap Block.lines))

end Verif.Spec
