import Verif.Model.GenBody
/-
The binutil generator: src/codegen/c-util-generator.cpp, src/codegen/conditional-tree.cpp, and the
node grouping of `CoderApp::GenerateCode` (src/app.cpp:155-249).

The generated `Receive` function is represented by the lines the generator prints, each with its
indentation.  `RLine.text` is the printed text; `runLines` executes the lines as C does (nested
`if (..) {`, `} else if (..) {`, `} else {`, `}`).
Simplifications: `StrPrint` cuts a line at 4095 characters (formatter.cpp:36-45), the model does
not; `int32_t` indices and the `uint8_t` indentation are natural numbers.
-/
namespace Verif

/-- Conditions printed by `FillTreeLevel`, c-util-generator.cpp:284, 298, 302, 312. -/
inductive RCond where
  | eq (id : Nat)
  | range (lo hi : Nat)
  deriving DecidableEq, Repr

/-- C meaning of the condition; all operands are `uint32_t`/unsigned literals. -/
def RCond.eval (id : Nat) : RCond → Bool
  | .eq i => id == i
  | .range lo hi => decide (lo ≤ id) && decide (id < hi)

/-- Printed condition, c-util-generator.cpp:298, 302. -/
def RCond.text : RCond → Str
  | .eq i => "_id == 0x".toList ++ hexStr i ++ "U".toList
  | .range lo hi =>
      "(_id >= 0x".toList ++ hexStr lo ++ "U) && (_id < 0x".toList ++ hexStr hi ++ "U)".toList

/-- `ConditionalTree_t`, src/codegen/conditional-tree.h:14-31, one constructor per node type;
`null` is `nullptr`.  A `Cond` node never has a body, an `Express`/`Single` node no children. -/
inductive CTree where
  | null
  | cond (c : RCond) (high low : CTree)
  | express (c : RCond) (m : Msg)
  | single (m : Msg)
  deriving Repr

/-- `CiUtilGenerator::FillTreeLevel`, c-util-generator.cpp:263-318.  `none`: index outside the
vector, or `fuel` exhausted (the recursion depth is at most `h - l`). -/
def fillTree (list : List Msg) : Nat → Nat → Nat → Bool → Option CTree
  | 0, _, _, _ => none
  | fuel + 1, l, h, started =>
      let span := h - l
      let lowhalf := span / 2
      if h < 1 then some .null
      else if !started && h == 1 then
        list[l]?.map fun m => .cond (.eq m.msgId) (.single m) .null
      else if span > 1 then do
        let a ← list[l]?
        let b ← list[l + lowhalf]?
        let c := if lowhalf > 1 then RCond.range a.msgId b.msgId else RCond.eq a.msgId
        let hi ← fillTree list fuel l (l + lowhalf) true
        let lo ← fillTree list fuel (l + lowhalf) h true
        pure (.cond c hi lo)
      else list[l]?.map fun m => .express (.eq m.msgId) m

/-- One printed line of the tree. -/
inductive RLine where
  | ifOpen (c : RCond)
  | elseIf (c : RCond)
  | els
  | close
  | call (m : Msg)
  deriving Repr

/-- Printed text of a line, conditional-tree.cpp:18, 27, 32, 40, 52 and
c-util-generator.cpp:313-314. -/
def RLine.text (drv : Str) : RLine → Str
  | .ifOpen c => "if (".toList ++ c.text ++ ") {".toList
  | .elseIf c => "} else if (".toList ++ c.text ++ ") {".toList
  | .els => "} else {".toList
  | .close => "}".toList
  | .call m => "recid = Unpack_".toList ++ m.name ++ "_".toList ++ drv ++ "(&(_m->".toList ++ m.name
      ++ "), _d, dlc_);".toList

/-- `ConditionalTree::WriteCode`, conditional-tree.cpp:10-58. -/
def writeCode : CTree → Nat → List (Nat × RLine)
  | .null, _ => []
  | .cond c high low, i =>
      (i, .ifOpen c) :: (writeCode high (i + 1) ++
        (match low with
         | .null => [(i, .close)]
         | .express c' m => (i, .elseIf c') :: (writeCode (.express c' m) (i + 1) ++ [(i, .close)])
         | .cond c' h' l' => (i, .els) :: (writeCode (.cond c' h' l') (i + 1) ++ [(i, .close)])
         | .single m => (i, .els) :: (writeCode (.single m) (i + 1) ++ [(i, .close)])))
  | .express _ m, i => [(i, .call m)]
  | .single m, i => [(i, .call m)]

/-- `ConditionalTree::PrintCode`, conditional-tree.cpp:60-69, over all lines. -/
def printCode (drv : Str) (ls : List (Nat × RLine)) : Str :=
  ls.flatMap fun p => List.replicate p.1 ' ' ++ p.2.text drv ++ ['\n']

/-- The calls executed by the printed lines for a given `_id`.  The stack holds, for each open
block, whether the current branch is entered and whether some branch of the chain was entered. -/
def runLines (id : Nat) : List (Bool × Bool) → List RLine → List Msg
  | _, [] => []
  | st, .call m :: r => if st.all (·.1) then m :: runLines id st r else runLines id st r
  | st, .ifOpen c :: r => runLines id ((c.eval id, c.eval id) :: st) r
  | (_, t) :: st, .elseIf c :: r => runLines id ((!t && c.eval id, t || c.eval id) :: st) r
  | (_, t) :: st, .els :: r => runLines id ((!t, true) :: st) r
  | _ :: st, .close :: r => runLines id st r
  | [], .elseIf _ :: r => runLines id [] r
  | [], .els :: r => runLines id [] r
  | [], .close :: r => runLines id [] r

/-- The lines of the body of `Receive`, c-util-generator.cpp:239-250; `none` when no `Receive`
function is generated (no mapped message) or the generator misbehaves. -/
def receiveLines (rx : List Msg) : Option (List RLine) :=
  if rx.length > 0 then
    (fillTree rx (rx.length + 1) 0 rx.length false).map fun t => (writeCode t 1).map (·.2)
  else none

/-- The `<drv>_rx_t` structure: one `NAME_t` structure per message name; results of a call. -/
inductive RecvRes (φ : Type) where
  | fail
  | ok (rxs : Str → St φ) (recid : Nat)

/-- Executing the calls `recid = Unpack_NAME(&(_m->NAME), _d, dlc_);` in sequence.  `run m` is
the generated `Unpack_NAME`; it returns the id through `retv`. -/
def execCalls (run : Msg → St φ → CallRes φ) (d : List Nat) :
    List Msg → (Str → St φ) → Nat → RecvRes φ
  | [], rxs, recid => .ok rxs recid
  | m :: ms, rxs, _ =>
      match run m { rxs m.name with dat := d } with
      | .ok st' =>
          match st'.retv with
          | some v => execCalls run d ms (fun n => if n = m.name then st' else rxs n) v
          | none => .fail
      | _ => .fail

/-- The generated `Receive(_m, _d, _id, dlc_)`, c-util-generator.cpp:241-254. -/
def receive (run : Msg → St φ → CallRes φ) (rx : List Msg) (d : List Nat) (id : Nat)
    (rxs : Str → St φ) : RecvRes φ :=
  match receiveLines rx with
  | some ls => execCalls run d (runLines id [] ls) rxs 0
  | none => .fail

/-- Selection of rx messages in `CiUtilGenerator::Generate`, c-util-generator.cpp:39-68 (before
sorting). -/
def selectRx (g : Groups) (msgs : List Msg) : List Msg :=
  msgs.filter fun m => m.frameNotEmpty && (g.both.contains m.msgId || g.rx.contains m.msgId)

/-- Selection of tx messages in `CiUtilGenerator::Generate`, c-util-generator.cpp:39-79 (before
sorting). -/
def selectTx (g : Groups) (msgs : List Msg) : List Msg :=
  msgs.filter fun m => m.frameNotEmpty && (g.both.contains m.msgId || g.tx.contains m.msgId)

/-- Result of `std::sort` by `MsgID` (c-util-generator.cpp:81-89): some permutation in
non-decreasing order; `std::sort` is not stable, so the order of equal ids is left open. -/
def SortedBy (out inp : List Msg) : Prop :=
  out.Perm inp ∧ out.Pairwise fun a b => a.msgId ≤ b.msgId

/-- A sorting function, for running examples. -/
def sortMsgs (l : List Msg) : List Msg := l.mergeSort fun a b => decide (a.msgId ≤ b.msgId)

/-- `nodes.push_back` if not found, app.cpp:170-174, 182-186. -/
def addNode (nodes : List Str) (n : Str) : List Str := if nodes.contains n then nodes else nodes ++ [n]

/-- Node collection of `CoderApp::GenerateCode`, app.cpp:159-188. -/
def collectNodes (msgs : List Msg) : List Str :=
  msgs.foldl (fun acc m => m.recS.foldl addNode (m.tranS.foldl addNode acc)) []

/-- Groups of a node, app.cpp:207-228; `Both` is never filled. -/
def nodeGroups (msgs : List Msg) (node : Str) : Groups :=
  { rx := (msgs.filter fun m => m.recS.contains node).map (·.msgId)
    tx := (msgs.filter fun m => m.tranS.contains node).map (·.msgId)
    both := [] }

/-- Groups without `-nodeutils`, app.cpp:238-243. -/
def allGroups (msgs : List Msg) : Groups := { rx := msgs.map (·.msgId), tx := [], both := [] }

/-- `tolower` in the C locale. -/
def lowerChar (c : Char) : Char := if 'A' ≤ c ∧ c ≤ 'Z' then Char.ofNat (c.toNat + 32) else c
/-- `toupper` in the C locale. -/
def upperChar (c : Char) : Char := if 'a' ≤ c ∧ c ≤ 'z' then Char.ofNat (c.toNat - 32) else c
/-- `str_tolower`, src/helpers/formatter.cpp:67-75. -/
def strLower (s : Str) : Str := s.map lowerChar
/-- `str_toupper`, src/helpers/formatter.cpp:57-65. -/
def strUpper (s : Str) : Str := s.map upperChar

/-- `FS.file.util_h.fpath` of a node, app.cpp:193-202. -/
def nodeUtilH (utildir drv node : Str) : Str :=
  utildir ++ "/".toList ++ strLower (strLower (node ++ "_".toList ++ drv) ++ "-binutil.h".toList)
/-- `FS.file.util_c.fpath` of a node, app.cpp:193-205. -/
def nodeUtilC (utildir drv node : Str) : Str :=
  utildir ++ "/".toList ++ strLower (strLower (node ++ "_".toList ++ drv) ++ "-binutil.c".toList)

end Verif
