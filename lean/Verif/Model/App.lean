import Verif.Model.Formatter
import Verif.Model.UtilGen
/-
Command line, paths, output directory and file writer: src/options-parser.cpp, src/app.cpp,
src/codegen/fs-creator.cpp, src/codegen/filewriter.cpp.
-/
namespace Verif

/-! ### Options -/

/-- `GenOptions`, src/options-parser.h:17-51. -/
structure GenOptions where
  dbc : Str × Bool := ([], false)
  outdir : Str × Bool := ([], false)
  drvname : Str × Bool := ([], false)
  isRewrite : Bool := false
  isDriverDir : Bool := false
  addGenDate : Bool := false
  isNodeutils : Bool := false
  isNoconfig : Bool := false
  isNocanmon : Bool := false
  isNofmon : Bool := false
  isHelp : Bool := false
  deriving DecidableEq, Repr

/-- `argv[i][0] == '-'`; an empty argument starts with the terminating NUL. -/
def startsDash (a : Str) : Bool := a.head? == some '-'

/-- First loop of `OptionsParser::GetOptions`, src/options-parser.cpp:12-33: keys and values. -/
def collectPairs : List Str → List (Str × Str)
  | [] => []
  | [a] => if startsDash a then [(a, [])] else []
  | a :: b :: rest =>
    if startsDash a then
      if startsDash b then (a, []) :: collectPairs (b :: rest) else (a, b) :: collectPairs rest
    else collectPairs (b :: rest)

/-- One step of the second loop, src/options-parser.cpp:35-89. -/
def applyPair (o : GenOptions) (p : Str × Str) : GenOptions :=
  if p.1 = "-dbc".toList then { o with dbc := (p.2, true) }
  else if p.1 = "-out".toList then { o with outdir := (p.2, true) }
  else if p.1 = "-drvname".toList then
    { o with drvname := (makeCName p.2, decide ((makeCName p.2).length ≠ 0)) }
  else if p.1 = "-rw".toList then { o with isRewrite := true }
  else if p.1 = "-nodeutils".toList then { o with isNodeutils := true }
  else if p.1 = "-help".toList then { o with isHelp := true }
  else if p.1 = "-noinc".toList then { o with isNocanmon := true }
  else if p.1 = "-noconfig".toList then { o with isNoconfig := true }
  else if p.1 = "-nofmon".toList then { o with isNofmon := true }
  else if p.1 = "-driverdir".toList then { o with isDriverDir := true }
  else if p.1 = "-gendate".toList then { o with addGenDate := true }
  else o

/-- `OptionsParser::GetOptions`, src/options-parser.cpp:4-92.  The arguments include the program
name. -/
def getOptions (args : List Str) : GenOptions := (collectPairs args).foldl applyPair {}

/-- `CoderApp::AreParamsValid`, src/app.cpp:256-259. -/
def areParamsValid (o : GenOptions) : Bool := (o.dbc.2 && o.outdir.2 && o.drvname.2) && (o.isHelp == false)

/-! ### Paths -/

/-- A path separator, `'/'` or `'\\'`. -/
def isSep (c : Char) : Bool := c == '/' || c == '\\'

/-- `ExtractFileName`, src/app.cpp:20-29: `find_last_of("/\\")`. -/
def extractFileName (s : Str) : Str :=
  match s.reverse.findIdx? isSep with
  | none => s
  | some k => s.drop (s.length - 1 - k + 1)

/-- `CombinePath`, src/app.cpp:35-59. -/
def combinePath (path folder : Str) : Str :=
  let pe := match path.getLast? with | some c => isSep c | none => false
  let fs := match folder.head? with | some c => isSep c | none => false
  if pe && fs then path ++ folder.drop 1
  else if !pe && !fs then path ++ '/' :: folder
  else path ++ folder

/-! ### File writer -/

/-- Calls of a `FileWriter` (src/codegen/filewriter.cpp).  `text` is the formatted text before the
truncation to 9999 characters; `openOk` tells whether the file can be opened. -/
inductive WOp where
  /-- `Append(const char* frmt, ...)` -/
  | appendF (text : Str)
  /-- `AppendText(const char* frmt, ...)` -/
  | appendTextF (text : Str)
  /-- `Append(const std::string&)` -/
  | append (s : Str)
  /-- `AppendText(const std::string&)` -/
  | appendText (s : Str)
  /-- `Append(size_t)` -/
  | lines (n : Nat)
  /-- `Flush(path)` -/
  | flush (path : Str) (openOk : Bool)
  deriving DecidableEq, Repr

/-- `__print_loc__`, filewriter.cpp:8-22. -/
def printLoc (text : Str) : Str := text.take 9999

/-- Text added by `Append(const std::string&)`, filewriter.cpp:61-73. -/
def lineText (s : Str) : Str :=
  match s.getLast? with
  | none => ['\n']
  | some c => if c ≠ '\n' then s ++ ['\n'] else s

/-- The string stream and the files written so far (in order). -/
structure Writer where
  buf : Str := []
  files : List (Str × Str) := []
  deriving DecidableEq, Repr

/-- One call, filewriter.cpp:24-89.  `wfile << strm.rdbuf()` takes nothing out of the buffer when
`wfile` is in a failed state; `Flush()` only clears the state bits of the stream. -/
def Writer.step (w : Writer) : WOp → Writer
  | .appendF t => { w with buf := w.buf ++ lineText (printLoc t) }
  | .appendTextF t => { w with buf := w.buf ++ printLoc t }
  | .append s => { w with buf := w.buf ++ lineText s }
  | .appendText s => { w with buf := w.buf ++ s }
  | .lines n => { w with buf := w.buf ++ List.replicate n '\n' }
  | .flush p ok => if ok then { buf := [], files := w.files ++ [(p, w.buf)] } else w

/-- A sequence of calls. -/
def Writer.run (w : Writer) (ops : List WOp) : Writer := ops.foldl Writer.step w

/-! ### Output directory -/

/-- Directories and file paths set by `FsCreator::Configure`, fs-creator.cpp:28-60 (and the
literal file names in c-main-generator.cpp:443, 517, 555). -/
structure OutPaths where
  base : Str
  libdir : Str
  usrdir : Str
  incdir : Str
  confdir : Str
  utildir : Str
  coreH : Str
  coreC : Str
  utilH : Str
  utilC : Str
  fmonH : Str
  fmonC : Str
  config : Str
  codeconf : Str
  canmon : Str
  deriving DecidableEq, Repr

/-- `FsCreator::Configure`, fs-creator.cpp:21-60. -/
def configure (drv out : Str) : OutPaths :=
  let d := strLower drv
  let lib := out ++ "/lib".toList
  let usr := out ++ "/usr".toList
  let inc := out ++ "/inc".toList
  let conf := out ++ "/conf".toList
  let util := out ++ "/butl".toList
  { base := out, libdir := lib, usrdir := usr, incdir := inc, confdir := conf, utildir := util
    coreH := lib ++ '/' :: (d ++ ".h".toList)
    coreC := lib ++ '/' :: (d ++ ".c".toList)
    utilH := util ++ '/' :: (d ++ "-binutil.h".toList)
    utilC := util ++ '/' :: (d ++ "-binutil.c".toList)
    fmonH := lib ++ '/' :: (d ++ "-fmon.h".toList)
    fmonC := usr ++ '/' :: (d ++ "-fmon.c".toList)
    config := conf ++ '/' :: (d ++ "-config.h".toList)
    codeconf := conf ++ "/dbccodeconf.h".toList
    canmon := inc ++ "/canmonitorutil.h".toList }

/-- What the run finds at a path: nothing, a directory, or something else. -/
inductive Node where
  | absent | dir | other
  deriving DecidableEq, Repr

/-- The file system as far as it matters: what is at each path, and at which paths a directory can
be created (parent present, permissions). -/
structure FileSys where
  node : Str → Node
  canCreate : Str → Bool

/-- Outcome of `PrepareDirectory`. -/
inductive PrepRes where
  /-- returned value and the directory that was selected -/
  | ret (ok : Bool) (dir : Option Str)
  /-- `std::filesystem::filesystem_error` -/
  | throws
  /-- `back()` of an empty string -/
  | ub
  deriving DecidableEq, Repr

/-- `%03d` of a number below 1000. -/
def num3 (n : Nat) : Str := padDigits 3 n

/-- The loop over the numbered directories, fs-creator.cpp:124-150.  `create_directory` throws when
the directory cannot be created, also when the path is taken by something else. -/
def prepLoop (fs : FileSys) (pre : Str) : List Nat → PrepRes
  | [] => .ret false none
  | n :: rest =>
    let p := pre ++ num3 n
    match fs.node p with
    | .absent => if fs.canCreate p then .ret true (some p) else .throws
    | .dir => prepLoop fs pre rest
    | .other => .throws

/-- Choice of the directory in `FsCreator::PrepareDirectory`, fs-creator.cpp:96-143. -/
def selectDirectory (fs : FileSys) (base : Str) (rw : Bool) : PrepRes :=
  if rw then
    match fs.node base with
    | .absent => if fs.canCreate base then .ret true (some base) else .throws
    | _ => .ret true (some base)
  else
    match base.getLast? with
    | none => .ub
    | some c => prepLoop fs (base ++ if c = '/' then [] else ['/']) (List.range 1000)

/-- `std::filesystem::create_directory` does not throw (a directory that is there already is fine). -/
def dirOk (fs : FileSys) (p : Str) : Bool :=
  match fs.node p with
  | .absent => fs.canCreate p
  | .dir => true
  | .other => false

/-- `FsCreator::PrepareDirectory`, fs-creator.cpp:96-151.  Simplification: `canCreate` of the five
fixed directories is given with the base directory already created. -/
def prepareDirectory (fs : FileSys) (c : OutPaths) (rw : Bool) : PrepRes :=
  match selectDirectory fs c.base rw with
  | .ret ok d =>
    if [c.libdir, c.usrdir, c.incdir, c.confdir, c.utildir].all (dirOk fs) then .ret ok d else .throws
  | r => r

/-- Output directory of a run, src/app.cpp:125-131. -/
def finalPath (o : GenOptions) : Str :=
  if o.isDriverDir then combinePath o.outdir.1 o.drvname.1 else o.outdir.1

/-- Paths written by a run, src/app.cpp:146-250, c-main-generator.cpp:52-80,
c-util-generator.cpp:91-99, 191, 260: nothing unless `PrepareDirectory` returns `true`. -/
def writtenPaths (o : GenOptions) (msgs : List Msg) (prep : PrepRes) : List Str :=
  let c := configure o.drvname.1 (finalPath o)
  match prep with
  | .ret true _ =>
    [c.coreH, c.coreC, c.fmonH] ++ (if o.isNofmon then [] else [c.fmonC]) ++
    (if o.isNoconfig then [] else [c.config, c.codeconf]) ++ (if o.isNocanmon then [] else [c.canmon]) ++
    (if o.isNodeutils then
      (collectNodes msgs).flatMap fun n => [nodeUtilH c.utildir o.drvname.1 n, nodeUtilC c.utildir o.drvname.1 n]
    else [c.utilH, c.utilC])
  | _ => []

end Verif
