import Verif.Model.LineParser
import Verif.Model.UtilGen
/-
`DbcScanner`, src/parser/dbcscanner.cpp.
-/
namespace Verif

/-- Lines of a text as `std::getline` delivers them: no line after a final line feed. -/
def getLines (text : Str) : List Str :=
  let ps := (text.splitOn '\n')
  if ps.getLast? = some [] then ps.dropLast else ps

/-- Index of the message `find_message` returns, dbcscanner.cpp:11-32: the first with this id, the
last of the list if there is none, nothing for an empty list. -/
def findMessage (msgs : List Msg) (id : Nat) : Option Nat :=
  match msgs.findIdx? (·.msgId == id) with
  | some i => some i
  | none => if msgs.length = 0 then none else some (msgs.length - 1)

/-- Application of `f` to the message `find_message` returns. -/
def updMessage (msgs : List Msg) (id : Nat) (f : Msg → Msg) : List Msg :=
  match findMessage msgs id with
  | some i => msgs.modify i f
  | none => msgs

/-- Adds a name unless it is there (`std::find`), dbcscanner.cpp:139-143, 305-309. -/
def addName (l : List Str) (n : Str) : List Str := if l.contains n then l else l ++ [n]

/-- Effect of `AddMessage` on the message itself, dbcscanner.cpp:290-312. -/
def closeMessage (P : Platform) (m : Msg) : Msg :=
  if 0 < m.signals.length then
    let sigs := P.sortSigs m.signals
    { m with signals := sigs, recS := (sigs.flatMap (·.recS)).foldl addName m.recS }
  else m

/-- `AddMessage`, dbcscanner.cpp:286-317. -/
def addMessage (P : Platform) (msgs : List Msg) : Option Msg → List Msg
  | none => msgs
  | some m => msgs ++ [closeMessage P m]

/-! ### Version -/

/-- `\"?` in front of `s`. -/
def optQuote : Str → Str
  | '"' :: r => r
  | r => r

/-- `regex_match` of `([a-zA-Z]+)\s*\"?(\d+)\D+(\d+)\"?`, dbcscanner.cpp:347-366: the three groups.
(The decomposition is unique, so greedy matching without backtracking finds it.) -/
def matchVersion (s : Str) : Option (Str × Str × Str) :=
  let kw := s.takeWhile isAlpha
  let r := optQuote ((s.dropWhile isAlpha).dropWhile isWs)
  let d1 := r.takeWhile isDig
  let r := r.dropWhile isDig
  let nd := r.takeWhile fun c => !isDig c
  let r := r.dropWhile fun c => !isDig c
  let d2 := r.takeWhile isDig
  let r := r.dropWhile isDig
  if kw ≠ [] ∧ d1 ≠ [] ∧ nd ≠ [] ∧ d2 ≠ [] ∧ (r = [] ∨ r = ['"']) then some (kw, d1, d2) else none

/-- `FindVersion` and `ParseVersionLine`, dbcscanner.cpp:347-400: the new version, if any.  The numbers
are converted (`std::stoul`, which throws above `ULONG_MAX`) before the keyword is looked at. -/
def findVersion (P : Platform) (line : Str) : Res (Option (Nat × Nat)) :=
  match matchVersion line with
  | none => .ok none
  | some (kw, a, b) =>
    if P.ulongMax < decVal a ∨ P.ulongMax < decVal b then .throws
    else if strLower kw = "version".toList then .ok (some (decVal a % 2 ^ 32, decVal b % 2 ^ 32))
    else .ok none

/-! ### First pass -/

/-- State of `ParseMessageInfo`: the list so far, and `pMsg`. -/
structure Scan where
  list : DbcList := {}
  cur : Option Msg := none
  deriving DecidableEq, Repr

/-- A new header line, dbcscanner.cpp:81-103. -/
def headerStep (P : Platform) (st : Scan) (line : Str) : Scan :=
  let mx := match st.cur with
    | some m => if st.list.maxDlc < m.dlc then m.dlc else st.list.maxDlc
    | none => st.list.maxDlc
  { list := { st.list with maxDlc := mx, msgs := addMessage P st.list.msgs st.cur }
    cur := parseMessageLine P line }

/-- A parsed signal, dbcscanner.cpp:112-123. -/
def addSignal (m : Msg) (s : Sig) : Msg :=
  { m with frameNotEmpty := true, signals := m.signals ++ [s]
           hasPhys := m.hasPhys || s.isDouble || !s.isSimple }

/-- A multi-transmitter line, dbcscanner.cpp:126-148. -/
def transStep (P : Platform) (st : Scan) (line : Str) : Scan :=
  let (id, nodes) := parseMultiTrans P line
  if id ≠ 0 then
    { list := { st.list with
        msgs := updMessage (addMessage P st.list.msgs st.cur) id fun m => { m with tranS := nodes.foldl addName m.tranS } }
      cur := none }
  else st

/-- Header, signal and multi-transmitter part of the loop of `ParseMessageInfo`, dbcscanner.cpp:80-149. -/
def scanBody (P : Platform) (st : Scan) (line : Str) : Res Scan :=
  let st := if isMessageLine line then headerStep P st line else st
  match st.cur with
  | none => .ok (transStep P st line)
  | some m =>
    if isSignalLine line then
      match parseSignalLine P line with
      | .ub => .ub
      | .throws => .throws
      | .ok none => .ok (transStep P st line)
      | .ok (some s) => .ok (transStep P { st with cur := some (addSignal m s) } line)
    else .ok (transStep P st line)

/-- A version line, dbcscanner.cpp:386-400. -/
def setVersion (st : Scan) : Option (Nat × Nat) → Scan
  | some (a, b) => { st with list := { st.list with verHi := a, verLow := b } }
  | none => st

/-- Body of the loop of `ParseMessageInfo` for one line (already trimmed), dbcscanner.cpp:74-149. -/
def scanLine (P : Platform) (st : Scan) (line : Str) : Res Scan :=
  match findVersion P line with
  | .ub => .ub
  | .throws => .throws
  | .ok ver => scanBody P (setVersion st ver) line

/-- The loop of `ParseMessageInfo`. -/
def scanLines (P : Platform) : Scan → List Str → Res Scan
  | st, [] => .ok st
  | st, l :: ls =>
    match scanLine P st (strTrim P.charMax l) with
    | .ok st => scanLines P st ls
    | r => r

/-- `ParseMessageInfo`, dbcscanner.cpp:68-156. -/
def parseMessageInfo (P : Platform) (list : DbcList) (lines : List Str) : Res DbcList :=
  match scanLines P { list := list } lines with
  | .ok st => .ok { st.list with msgs := addMessage P st.list.msgs st.cur }
  | .ub => .ub
  | .throws => .throws

/-! ### Second pass -/

/-- `s.find(pat) != npos`. -/
def hasSub (pat : Str) : Str → Bool
  | [] => pat.isEmpty
  | c :: cs => pat.isPrefixOf (c :: cs) || hasSub pat cs

/-- The checksum tag of a comment, dbcscanner.cpp:203-220: method and option.  The second argument of
`substr` is a count, so up to `openpos` characters behind the `>` are included. -/
def csmTag (P : Platform) (text : Str) : Option (Str × Nat) :=
  match text.findIdx? (· == '<') with
  | none => none
  | some op =>
    match (text.drop op).findIdx? (· == '>') with
    | none => none
    | some k =>
      let cl := op + k
      if op + 1 < cl then
        let mt := resplit mColonChar ((text.drop (op + 1)).take (cl - 1))
        if mt.length = 3 ∧ mt.getD 0 [] = "Checksum".toList then some (mt.getD 1 [], toU32 (atoi P (mt.getD 2 [])))
        else none
      else none

/-- `boundary_ok`, dbcscanner.cpp:223-225, in `uint32_t` arithmetic. -/
def boundaryOk (s : Sig) : Bool :=
  match s.order with
  | .intel => s.startBit / 8 == ((s.startBit + s.lengthBit + (2 ^ 32 - 1)) % 2 ^ 32) / 8
  | .motorolla => s.startBit / 8 == ((s.startBit + (2 ^ 32 - s.lengthBit) + 1) % 2 ^ 32) / 8

/-- A signal comment for the signal at index `i`, dbcscanner.cpp:187-237. -/
def sigComment (P : Platform) (cm : Comment) (m : Msg) (i : Nat) : Msg :=
  match m.signals[i]? with
  | none => m
  | some s =>
    if cm.sigName = s.name ∨ cm.sigName ++ "_ro".toList = s.name then
      let m := { m with signals := m.signals.modify i fun s => { s with commentText := cm.text } }
      let m := if hasSub "<RollingCounter>".toList cm.text then { m with rollSig := some i } else m
      match csmTag P cm.text with
      | some (method, op) =>
        if s.isSimple && boundaryOk s && !s.signed then { m with csmSig := some i, csmMethod := method, csmOp := op }
        else m
      | none => m
    else m

/-- A comment for a message, dbcscanner.cpp:176-240. -/
def applyComment (P : Platform) (cm : Comment) (m : Msg) : Msg :=
  match cm.target with
  | .message => { m with commentText := cm.text }
  | .signal => (List.range m.signals.length).foldl (sigComment P cm) m
  | .undefined => m

/-- A value table for a message, dbcscanner.cpp:251-267. -/
def applyVal (cm : Comment) (vt : ValTable) (m : Msg) : Msg :=
  { m with signals := m.signals.map fun s =>
      if cm.sigName = s.name then { s with valueText := cm.text, valDefs := vt } else s }

/-- State of `ParseOtherInfo`: the messages, the three collected statements, `cmmnt`. -/
structure Scan2 where
  msgs : List Msg
  commentline : Str := []
  attribline : Str := []
  valueline : Str := []
  cm : Comment
  deriving DecidableEq, Repr

/-- A line as part of a comment, dbcscanner.cpp:171-246. -/
def commentStep (P : Platform) (st : Scan2) (line : Str) : Scan2 :=
  match parseCommentLine P st.commentline st.cm line with
  | (acc, cm, true) => { st with commentline := acc, cm := cm, msgs := updMessage st.msgs cm.msgId (applyComment P cm) }
  | (acc, cm, false) => { st with commentline := acc, cm := cm }

/-- A line as part of a value table, dbcscanner.cpp:248-269. -/
def valueStep (P : Platform) (st : Scan2) (line : Str) : Scan2 :=
  match parseValTableLine P st.valueline line with
  | (acc, some (cm, vt)) => { st with valueline := acc, cm := cm, msgs := updMessage st.msgs cm.msgId (applyVal cm vt) }
  | (acc, none) => { st with valueline := acc }

/-- A line as part of an attribute, dbcscanner.cpp:271-281. -/
def attribStep (P : Platform) (st : Scan2) (line : Str) : Scan2 :=
  match parseAttributeLine P st.attribline line with
  | (acc, some (id, v)) => { st with attribline := acc, msgs := updMessage st.msgs id fun m => { m with cycle := v } }
  | (acc, none) => { st with attribline := acc }

/-- Body of the loop of `ParseOtherInfo` for one line (already trimmed), dbcscanner.cpp:169-282. -/
def scanLine2 (P : Platform) (st : Scan2) (line : Str) : Scan2 :=
  attribStep P (valueStep P (commentStep P st line) line) line

/-- `ParseOtherInfo`, dbcscanner.cpp:159-283. -/
def parseOtherInfo (P : Platform) (st : Scan2) (lines : List Str) : Scan2 :=
  lines.foldl (fun st l => scanLine2 P st (strTrim P.charMax l)) st

/-- `TrimDbcText` of a fresh scanner, dbcscanner.cpp:43-65. -/
def trimDbcText (P : Platform) (text : Str) : Res DbcList :=
  match parseMessageInfo P {} (getLines text) with
  | .ok l => .ok { l with msgs := (parseOtherInfo P { msgs := l.msgs, cm := { msgId := P.junk } } (getLines text)).msgs }
  | r => r

end Verif
