import Verif.Spec.DbcText
/-
Statements of a DBC file about messages and signals, as the tools write them, and their meaning.
-/
namespace Verif.Spec
open Verif

/-- `BO_TX_BU_ id : node,node;` -/
def txLine (id : Nat) (nodes : List Str) : Str :=
  "BO_TX_BU_ ".toList ++ decStr id ++ " : ".toList ++ commaList nodes ++ ";".toList

/-- `BA_ "GenMsgCycleTime" BO_ id value;` -/
def cycleLine (id value : Nat) : Str :=
  "BA_ \"GenMsgCycleTime\" BO_ ".toList ++ decStr id ++ " ".toList ++ decStr value ++ ";".toList

/-- `CM_ BO_ id "text";` -/
def msgComment (id : Nat) (text : Str) : Str :=
  "CM_ BO_ ".toList ++ decStr id ++ " \"".toList ++ text ++ "\";".toList

/-- `CM_ SG_ id name "text";` -/
def sigCommentText (id : Nat) (name text : Str) : Str :=
  "CM_ SG_ ".toList ++ decStr id ++ " ".toList ++ name ++ " \"".toList ++ text ++ "\";".toList

/-- `<Checksum:method:option>`, the tag of a checksum signal (README). -/
def csmText (method : Str) (op : Nat) : Str := "<Checksum:".toList ++ method ++ ":".toList ++ decStr op ++ ">".toList

/-- `<RollingCounter>`, the tag of a rolling counter. -/
def rollText : Str := "<RollingCounter>".toList

/-- A whole number as it is written. -/
def intText (z : Int) : Str := (if z < 0 then ['-'] else []) ++ decStr z.natAbs

/-- Entry of a value table: the value and the quoted description. -/
def valEntry (e : Int × Str) : Str := " ".toList ++ intText e.1 ++ " \"".toList ++ e.2 ++ "\"".toList

/-- The listing of a value table in the generated comments: ` value : "description"`, one per line. -/
def valListing (entries : List (Int × Str)) : Str :=
  (entries.flatMap fun e => " ".toList ++ intText e.1 ++ " : \"".toList ++ e.2 ++ "\"\n".toList).dropLast

/-- `VAL_ id name value "description" value "description" ;` -/
def valText (id : Nat) (name : Str) (entries : List (Int × Str)) : Str :=
  "VAL_ ".toList ++ decStr id ++ " ".toList ++ name ++ entries.flatMap valEntry ++ " ;".toList

/-- The id of a frame as the statements write it: bit 31 marks extended ids. -/
def fileId (id : Nat) (ext : Bool) : Nat := if ext then id + 2 ^ 31 else id

/-- Changes the first message with an id, nothing if there is none. -/
def onFirst (id : Nat) (f : Msg → Msg) : List Msg → List Msg
  | [] => []
  | m :: ms => if m.msgId = id then f m :: ms else m :: onFirst id f ms

/-! ### Statements over several lines -/

/-- The statements of the second pass. -/
inductive Kw where
  | comment | attr | value
  deriving DecidableEq, Repr

/-- How a statement begins. -/
def Kw.text : Kw → Str
  | .comment => "CM_".toList
  | .attr => "BA_ ".toList
  | .value => "VAL_ ".toList

/-- What stands between two lines of a statement. -/
def Kw.sep : Kw → Str
  | .comment => ['\n']
  | .attr => []
  | .value => []

/-- A line that belongs to no statement, or a statement with its continuation lines. -/
inductive Block where
  | other (line : Str)
  | stmt (k : Kw) (first : Str) (rest : List Str)
  deriving Repr

/-- The lines of a block. -/
def Block.lines : Block → List Str
  | .other l => [l]
  | .stmt _ f r => f :: r

/-- The lines joined; empty lines are left out. -/
def joinLines (k : Kw) (first : Str) (rest : List Str) : Str :=
  first ++ rest.flatMap fun l => if l = [] then [] else k.sep ++ l

/-- Only the first line begins with a keyword, only the last line ends with a semicolon. -/
def Block.Ok : Block → Prop
  | .other l => ∀ k : Kw, ¬ k.text <+: l
  | .stmt k f r =>
    k.text <+: f ∧ (∀ l ∈ r, ∀ k : Kw, ¬ k.text <+: l) ∧
    ∃ init last, f :: r = init ++ [last] ∧ last.getLast? = some ';' ∧ ∀ l ∈ init, l.getLast? ≠ some ';'

/-! ### Versions -/

/-- A letter. -/
def IsAlphaC (c : Char) : Prop := (97 ≤ c.toNat ∧ c.toNat ≤ 122) ∨ (65 ≤ c.toNat ∧ c.toNat ≤ 90)

/-- A blank, tab, line feed, vertical tab, form feed or carriage return. -/
def IsBlankC (c : Char) : Prop := c = ' ' ∨ (9 ≤ c.toNat ∧ c.toNat ≤ 13)

/-- A line `word "a.b"` with its word and its two digit strings: letters, blanks, a quote or not,
digits, something without digits, digits, a quote or not. -/
def VersionShape (line word a b : Str) : Prop :=
  ∃ blanks q1 sep q2, line = word ++ blanks ++ q1 ++ a ++ sep ++ b ++ q2 ∧
    word ≠ [] ∧ (∀ c ∈ word, IsAlphaC c) ∧ (∀ c ∈ blanks, IsBlankC c) ∧ (q1 = [] ∨ q1 = ['"']) ∧
    a ≠ [] ∧ (∀ c ∈ a, IsDigit c) ∧ sep ≠ [] ∧ (∀ c ∈ sep, ¬ IsDigit c) ∧
    b ≠ [] ∧ (∀ c ∈ b, IsDigit c) ∧ (q2 = [] ∨ q2 = ['"'])

/-- Two words of letters that differ at most in the case of the letters (`k` in small letters). -/
def SameLetters : Str → Str → Prop
  | [], [] => True
  | c :: w, d :: k => (c = d ∨ (65 ≤ c.toNat ∧ c.toNat ≤ 90 ∧ c.toNat + 32 = d.toNat)) ∧ SameLetters w k
  | _, _ => False

/-- A line that states the version `a.b`: its word is `version` in letters of any case. -/
def StatesVersion (line : Str) (a b : Nat) : Prop :=
  ∃ word da db, VersionShape line word da db ∧ SameLetters word "version".toList ∧ digitsVal da = a ∧ digitsVal db = b

/-- `VERSION "a.b"` -/
def versionLine (a b : Nat) : Str := "VERSION \"".toList ++ decStr a ++ ".".toList ++ decStr b ++ "\"".toList

end Verif.Spec
