import Verif.Model.Scanner
import Verif.Model.ConfText
import Verif.Model.NodeUtil
/-
A complete run of the tool: `CoderApp::Run` and `CoderApp::GenerateCode`, src/app.cpp:61-250, with the calls of the
generators and of their file writers.  Simplifications: what is printed on the console is left out; a file that is there already is
replaced when it can be opened, and nothing else changes the files during the run.
-/
namespace Verif

/-- What the run finds: the host of the scanner, directories, the DBC file (`none`: does not exist, `some none`: cannot be
opened), the files that can be opened for writing, `std::sort` of messages by id, and the text of date and time (`none`: `localtime` fails). -/
structure RunHost where
  plat : Platform
  fs : FileSys
  dbc : Str → Option (Option Str)
  canOpen : Str → Bool
  sort : List Msg → List Msg
  date : Option Str

/-- How a run ends. -/
inductive RunRes where
  /-- the help text -/
  | help
  /-- the DBC file does not exist -/
  | noFile
  /-- `exit(1)` -/
  | exit1
  /-- an exception leaves `main` -/
  | throws
  /-- undefined behaviour, or `std::length_error` of a negative padding width while printing (Model/MainText.lean) -/
  | ub
  /-- to the end; the files written, in this order -/
  | done (files : List (Str × Str))
  deriving DecidableEq, Repr

/-- The comment block of all files, src/app.cpp:113-121. -/
def commonInfoOf (o : GenOptions) (date : Option Str) : Str :=
  commonSrcInfo ++ match date with
    | some t => if o.addGenDate then "// Generation time   : ".toList ++ t ++ ['\n'] else []
    | none => []

/-- Calls of the file writer of `CiMainGenerator::Generate`, src/codegen/c-main-generator.cpp:36-81; `none`: undefined behaviour
while printing.  `srt` are the messages sorted by id. -/
def mainOps (H : RunHost) (o : GenOptions) (c : OutPaths) (g : GenDesc) (maxDlc : Nat) (srt : List Msg) : Option (List WOp) := do
  let fl := fun p => [WOp.flush p (H.canOpen p)]
  let hops ← mainHeaderOps g maxDlc srt
  let sops ← mainSourceOps g srt
  some (hops ++ fl c.coreH ++ sops ++ fl c.coreC ++ fmonHeaderOps g srt ++ fl c.fmonH ++
    (if o.isNofmon then [] else fmonSourceOps g srt ++ fl c.fmonC) ++
    (if o.isNoconfig then [] else configHeaderOps g ++ fl c.config ++ dbcCodeConfOps g ++ fl c.codeconf) ++
    (if o.isNocanmon then [] else canMonUtilOps g ++ fl c.canmon))

/-- Calls of the file writer of one `CiUtilGenerator::Generate`, src/codegen/c-util-generator.cpp:28-99, 103, 191, 260. -/
def utilOps (H : RunHost) (u : UtilDesc) (hi lo : Nat) (ph pc : Str) (G : Groups) (msgs : List Msg) : Option (List WOp) :=
  let rx := H.sort (selectRx G msgs)
  let tx := H.sort (selectTx G msgs)
  (utilSourceOps u hi lo rx tx).map fun sops =>
    utilHeaderOps u rx tx ++ [.flush ph (H.canOpen ph)] ++ sops ++ [.flush pc (H.canOpen pc)]

/-- The calls for all util files, src/app.cpp:157-247.  One `CiUtilGenerator` with one file writer serves all nodes. -/
def utilsOps (H : RunHost) (o : GenOptions) (c : OutPaths) (g : GenDesc) (out : DbcList) : Option (List WOp) :=
  if o.isNodeutils then
    ((collectNodes out.msgs).mapM fun n => utilOps H (nodeUtil g o.drvname.1 n) out.verHi out.verLow (nodeUtilH c.utildir o.drvname.1 n)
      (nodeUtilC c.utildir o.drvname.1 n) (nodeGroups out.msgs n) out.msgs).map List.flatten
  else utilOps H (allUtil g o.drvname.1) out.verHi out.verLow c.utilH c.utilC (allGroups out.msgs) out.msgs

/-- `CoderApp::GenerateCode` after the scanner, src/app.cpp:109-250.  Nothing is written unless `PrepareDirectory` returns
`true`. -/
def generate (H : RunHost) (o : GenOptions) (out : DbcList) : RunRes :=
  let c := configure o.drvname.1 (finalPath o)
  let g := configureGen o.drvname.1 (commonInfoOf o H.date) (driverSrcInfo (extractFileName o.dbc.1)) out.verHi out.verLow
  match prepareDirectory H.fs c o.isRewrite with
  | .throws => .throws
  | .ub => .ub
  | .ret false _ => .done []
  | .ret true _ =>
    match mainOps H o c g out.maxDlc (H.sort out.msgs), utilsOps H o c g out with
    | some mops, some uops => .done ((Writer.run {} mops).files ++ (Writer.run {} uops).files)
    | _, _ => .ub

/-- `CoderApp::Run`, src/app.cpp:61-106. -/
def runApp (H : RunHost) (args : List Str) : RunRes :=
  let o := getOptions args
  if areParamsValid o then
    match H.dbc o.dbc.1 with
    | none => .noFile
    | some none => .exit1
    | some (some text) =>
      match trimDbcText H.plat text with
      | .ok out => generate H o out
      | .throws => .throws
      | .ub => .ub
  else .help

/-- The text at a path after the run: the last one written. -/
def written (files : List (Str × Str)) (p : Str) : Option Str := files.reverse.lookup p

end Verif
