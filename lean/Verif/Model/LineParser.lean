import Verif.Model.Split
/-
`DbcLineParser`, src/parser/dbclineparser.cpp.
-/
namespace Verif

/-- Outcome of parsing: a value, undefined behaviour (in `GetSigType`), or an exception
(`std::out_of_range` of `std::stoul`) that nobody catches. -/
inductive Res (α : Type) where
  | ok (a : α)
  | ub
  | throws
  deriving DecidableEq, Repr

/-- `IsMessageLine`, dbclineparser.cpp:107-115. -/
def isMessageLine (line : Str) : Bool := "BO_ ".toList.isPrefixOf line

/-- `ParseMessageLine` on a fresh message (`SetDefualtMessage`, dbcscanner.cpp:320-338),
dbclineparser.cpp:117-150.  `none`: the line is rejected. -/
def parseMessageLine (P : Platform) (line : Str) : Option Msg :=
  let items := resplit mMessage line
  if items.length < 5 then none
  else
    let tx := if 6 ≤ items.length then items.getD 5 [] else []
    let id := toU32 (atoll P (items.getD 1 []))
    let dlc := toU8 (atoi P (items.getD 4 []))
    if id &&& 0x60000000 ≠ 0 ∨ dlc = 0 ∨ 64 < dlc then none
    else some {
      name := items.getD 2 []
      tranS := if 1 < tx.length then [tx] else []
      dlc := dlc
      isExt := ((id >>> 29) % 256) &&& 4 == 4
      msgId := clearMsgId id }

/-- `ParseMultiTrans`, dbclineparser.cpp:152-172: the id (0: no such line) and the nodes. -/
def parseMultiTrans (P : Platform) (line : Str) : Nat × List Str :=
  let chunks := resplit mTrans line
  if 3 ≤ chunks.length ∧ chunks.getD 0 [] = "BO_TX_BU_".toList then
    let id := clearMsgId (toU32 (atoll P (chunks.getD 1 [])))
    if id ≠ 0 then (id, chunks.drop 2) else (0, [])
  else (0, [])

/-- `regex_search` of `\s+SG_`, `IsSignalLine`, dbclineparser.cpp:175-180. -/
def isSignalLine : Str → Bool
  | [] => false
  | c :: cs => (isWs c && "SG_".toList.isPrefixOf cs) || isSignalLine cs

/-- `fabs(x) < MIN_FAC_OFF && x != 0.0`, dbclineparser.cpp:254-255. -/
def Dec.tiny (d : Dec) : Bool := decide (d.num.natAbs * 10 ^ 9 < 10 ^ d.scale) && d.num != 0

/-- `.`, `e` or `E` in the text of factor or offset, dbclineparser.cpp:227-236. -/
def hasPoint (s : Str) : Bool := s.contains '.' || s.contains 'E' || s.contains 'e'

/-- The fields of a signal that come from the values, before the type is determined,
dbclineparser.cpp:215-283. -/
def sigOfValues (P : Platform) (name : Str) (mux : MultiplexType) (v : List Str) : Sig :=
  let f := atof (v.getD 3 [])
  let o := atof (v.getD 4 [])
  let t := f.tiny || o.tiny
  { name := name
    multiplex := mux
    startBit := toU32 (atoi P (v.getD 0 []))
    lengthBit := toU8 (atoi P (v.getD 1 []))
    isDouble := !t && (hasPoint (v.getD 3 []) || hasPoint (v.getD 4 []))
    factor := if t then Dec.ofInt 1 else f
    offset := if t then Dec.ofInt 0 else o
    minValue := atof (v.getD 5 [])
    maxValue := atof (v.getD 6 [])
    order := if (v.getD 2 []).contains '1' then .intel else .motorolla
    signed := (v.getD 2 []).contains '-' }

/-- Marking of simple signals and renaming of the others, dbclineparser.cpp:287-300. -/
def markSimple (s : Sig) : Sig :=
  if !s.isDouble && s.factor.eqInt 1 && s.offset.eqInt 0 then { s with isSimple := true }
  else { s with nameFloat := s.name ++ "_phys".toList, name := s.name ++ "_ro".toList }

/-- `ParseSignalLine`, dbclineparser.cpp:182-322.  `ok none`: the line is rejected. -/
def parseSignalLine (P : Platform) (line : Str) : Res (Option Sig) :=
  let halfs := resplit mColon line
  if halfs.length < 2 then .ok none
  else
    let tail := resplit mQuote (halfs.getD 1 [])
    let v := resplit mReceivers (trimWs (tail.getD 0 []))
    let head := tokens (halfs.getD 0 [])
    if head.length < 2 then .ok none
    else
      let mux : MultiplexType :=
        if head.length = 3 then (if head.getD 2 [] = "M".toList then .master else .mulValue) else .none
      if v.length < 7 then .ok none
      else
        match getSigType P.toHost (sigOfValues P (head.getD 1 []) mux v) with
        | none => .ub
        | some s =>
          if tail.length = 3 then
            .ok (some { markSimple s with unit := tail.getD 1 [], recS := resplit mReceivers (trimWs (tail.getD 2 [])) })
          else .ok none

/-! ### Comments, attributes, value tables -/

/-- `enum class CommentTarget`, src/types/comment.h:8-16. -/
inductive CmTarget where
  | message | signal | undefined
  deriving DecidableEq, Repr

/-- `Comment_t`, src/types/comment.h:20-33. -/
structure Comment where
  msgId : Nat
  sigName : Str := []
  target : CmTarget := .undefined
  text : Str := []
  deriving DecidableEq, Repr

/-- Removes a last line feed, dbclineparser.cpp:489-493. -/
def dropLastLf (s : Str) : Str := if s.getLast? = some '\n' then s.dropLast else s

/-- The finished comment statement, dbclineparser.cpp:449-497: the new `cm` and the returned flag. -/
def finishComment (P : Platform) (cm : Comment) (stmt : Str) : Comment × Bool :=
  let cm := { cm with target := .undefined }
  let items := resplit mQuote stmt
  if items.length = 3 then
    let mt := resplit mBlanks (items.getD 0 [])
    let cm :=
      if 3 ≤ mt.length then
        let cm := { cm with msgId := clearMsgId (toU32 (atoll P (mt.getD 2 []))) }
        let cm :=
          if mt.getD 1 [] = "SG_".toList ∧ mt.length = 4 then { cm with target := .signal, sigName := mt.getD 3 [] }
          else if mt.getD 1 [] = "BO_".toList then { cm with target := .message }
          else cm
        { cm with text := items.getD 1 [] }
      else cm
    ({ cm with text := dropLastLf cm.text }, true)
  else (cm, false)

/-- Collecting of a statement over several lines (the same in the three functions):
`start` is the keyword, `sep` what is put before a continuation line, `acc` the collected text.
Result: the new collected text, and the statement if the line finishes it. -/
def collect (start sep : Str) (acc line : Str) : Str × Option Str :=
  if line.length = 0 then (acc, none)
  else
    let acc := if start.isPrefixOf line then line else if 0 < acc.length then acc ++ sep ++ line else acc
    if 0 < acc.length ∧ line.getLast? = some ';' then ([], some acc) else (acc, none)

/-- `ParseCommentLine`, dbclineparser.cpp:432-503: collected text, `cm`, returned flag. -/
def parseCommentLine (P : Platform) (acc : Str) (cm : Comment) (line : Str) : Str × Comment × Bool :=
  match collect "CM_".toList ['\n'] acc line with
  | (acc, none) => (acc, cm, false)
  | (acc, some stmt) => (acc, finishComment P cm stmt)

/-- The finished attribute statement, dbclineparser.cpp:521-535: message id and value. -/
def finishAttr (P : Platform) (stmt : Str) : Option (Nat × Nat) :=
  let items := resplit mAttr stmt
  if 4 < items.length ∧ items.getD 1 [] = "GenMsgCycleTime".toList ∧ items.getD 2 [] = "BO_".toList then
    some (clearMsgId (toU32 (atoll P (items.getD 3 []))), toU32 (atoi P (items.getD 4 [])))
  else none

/-- `ParseAttributeLine`, dbclineparser.cpp:505-542. -/
def parseAttributeLine (P : Platform) (acc line : Str) : Str × Option (Nat × Nat) :=
  match collect "BA_ ".toList [] acc line with
  | (acc, none) => (acc, none)
  | (acc, some stmt) => (acc, finishAttr P stmt)

/-- Pairs (value, name) of a value table: the items from the fourth to the one before the last. -/
def valPairs : List Str → List (Str × Str)
  | a :: b :: rest => (a, b) :: valPairs rest
  | _ => []

/-- The finished value table statement, dbclineparser.cpp:561-598. -/
def finishVal (P : Platform) (stmt : Str) : Option (Comment × ValTable) :=
  let items := tokens stmt
  if 3 ≤ items.length ∧ items.getLast? = some [';'] ∧ items.length % 2 = 0 then
    let ps := valPairs (items.drop 3).dropLast
    let text := ps.flatMap fun p => ' ' :: p.1 ++ " : ".toList ++ p.2 ++ ['\n']
    some ({ msgId := clearMsgId (toU32 (atoll P (items.getD 1 []))), sigName := items.getD 2 [], target := .signal,
            text := text.dropLast },
          { sigName := items.getD 2 [], vpairs := ps.map fun p => (makeCName p.2, toU32 (atoll P p.1)) })
  else none

/-- `ParseValTableLine`, dbclineparser.cpp:544-603. -/
def parseValTableLine (P : Platform) (acc line : Str) : Str × Option (Comment × ValTable) :=
  match collect "VAL_ ".toList [] acc line with
  | (acc, none) => (acc, none)
  | (acc, some stmt) => (acc, finishVal P stmt)

end Verif
