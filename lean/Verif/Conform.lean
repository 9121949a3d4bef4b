import Verif.Model.ConfText
import Verif.Model.Scanner
import Verif.Spec.CProg
/-
A test of the model, not a proof: the files below testdata/ are copies of /repo/test/testdb.dbc and of
/repo/test/gencode, which the tool generated from it.  When this module is built, the model (scanner,
line parser, type selection, expression printer, generators, file writer) is run on the DBC file and
each of its 15 texts is compared with the file, character by character.
-/
namespace Verif.Conform
open Verif

def plat : Platform :=
  { charMax := 127, oob := none, atoiOvf := fun z => z, atollOvf := fun z => z, ulongMax := 2 ^ 64 - 1, junk := 0,
    sortSigs := fun l => l.mergeSort fun a b => decide (a.startBit ≤ b.startBit) }

def dbc : Str := (include_str "../testdata/testdb.dbc").toList
def drv : Str := "testdb".toList

def parsed : DbcList := match trimDbcText plat dbc with
  | .ok l => l
  | _ => {}

def msgs : List Msg := sortMsgs parsed.msgs
def desc : GenDesc := configureGen drv commonSrcInfo (driverSrcInfo "testdb.dbc".toList) parsed.verHi parsed.verLow

def util (node : String) : UtilDesc :=
  let name := strLower (node.toList ++ "_".toList ++ drv)
  { g := desc, name := name, NAME := strUpper name, drv := drv, hname := name ++ "-binutil.h".toList }
def rx (node : String) : List Msg := sortMsgs (selectRx (nodeGroups parsed.msgs node.toList) parsed.msgs)
def tx (node : String) : List Msg := sortMsgs (selectTx (nodeGroups parsed.msgs node.toList) parsed.msgs)
def utilH (node : String) : Str := opsText (utilHeaderOps (util node) (rx node) (tx node))
def utilC (node : String) : Option Str := (utilSourceOps (util node) parsed.verHi parsed.verLow (rx node) (tx node)).map opsText

#guard parsed.msgs.length = 7
#guard (mainHeaderOps desc parsed.maxDlc msgs).map opsText = some (include_str "../testdata/testdb.h.txt").toList
#guard (mainSourceOps desc msgs).map opsText = some (include_str "../testdata/testdb.c.txt").toList
#guard opsText (fmonHeaderOps desc msgs) = (include_str "../testdata/testdb-fmon.h.txt").toList
#guard opsText (fmonSourceOps desc msgs) = (include_str "../testdata/testdb-fmon.c.txt").toList
#guard opsText (configHeaderOps desc) = (include_str "../testdata/testdb-config.h.txt").toList
#guard opsText (canMonUtilOps desc) = (include_str "../testdata/canmonitorutil.h.txt").toList
#guard opsText (dbcCodeConfOps desc) = (include_str "../testdata/dbccodeconf.h.txt").toList
#guard collectNodes parsed.msgs = ["BCM".toList, "EPS".toList, "ESP".toList, "BMS".toList]
#guard utilH "BCM" = (include_str "../testdata/bcm_testdb-binutil.h.txt").toList
#guard utilC "BCM" = some (include_str "../testdata/bcm_testdb-binutil.c.txt").toList
#guard utilH "EPS" = (include_str "../testdata/eps_testdb-binutil.h.txt").toList
#guard utilC "EPS" = some (include_str "../testdata/eps_testdb-binutil.c.txt").toList
#guard utilH "ESP" = (include_str "../testdata/esp_testdb-binutil.h.txt").toList
#guard utilC "ESP" = some (include_str "../testdata/esp_testdb-binutil.c.txt").toList
#guard utilH "BMS" = (include_str "../testdata/bms_testdb-binutil.h.txt").toList
#guard utilC "BMS" = some (include_str "../testdata/bms_testdb-binutil.c.txt").toList

/-! The text read back: preprocessor, parser and interpreter of `Spec.CPre` and `Spec.CProg`, on the header and source above. -/

open Verif.Spec in
def unit : Option (List Item) :=
  let on (s : String) : Str × MDef := (s.toList, .obj [])
  compile 1000
    [("testdb.h".toList, ((mainHeaderOps desc parsed.maxDlc msgs).map opsText).getD []), ("testdb-fmon.h".toList, opsText (fmonHeaderOps desc msgs))]
    [on "TESTDB_USE_DIAG_MONITORS", on "TESTDB_AUTO_CSM", on "TESTDB_AUTO_ROLL", on "TESTDB_USE_SIGFLOAT", on "TESTDB_USE_BITS_SIGNAL",
     ("GetFrameHash".toList, .fn ["a".toList, "b".toList, "c".toList, "d".toList, "e".toList] (lex "__get_hash__(a,b,c,d,e)".toList))]
    (((mainSourceOps desc msgs).map opsText).getD [])

open Verif.Spec in
def target : Target Int :=
  { F := ⟨fun _ => 0, fun x => -x, (· + ·), (· - ·), (· * ·), fun _ _ => 0, id, fun _ x => some x⟩, ext64 := false, const := fun _ => some 7,
    user := fun n => if n = "__get_hash__".toList then some fun _ _ => some (.i ⟨.u32, 1234⟩) else none }

open Verif.Spec in
def packed : Option (CSt Int × V Int) := unit.bind fun u =>
  callUnit 1000 target u "Pack_UTEST_2_testdb".toList [.p .msg, .p .data, .p (.out "len".toList), .p (.out "ide".toList)]
    { fld := fun n => if n = "U28_TEST_1".toList then 0x5A5A5A5 else 3, flt := fun _ => 3, mon := fun _ => 0, dat := List.replicate 8 0xff }

open Verif.Spec in
def unpacked : Option (CSt Int × V Int) := unit.bind fun u => packed.bind fun x =>
  callUnit 1000 target u "Unpack_UTEST_2_testdb".toList [.p .msg, .p .data, .i ⟨.i32, 7⟩]
    { fld := fun _ => 0, flt := fun _ => 0, mon := fun _ => 0, dat := x.1.dat }

#guard (unit.map (·.length)) = some 38
#guard (packed.bind fun x => x.1.out "len".toList) = some 8
#guard (unpacked.map fun x => x.1.fld "U28_TEST_1".toList) = some 0x5A5A5A5
#guard (unpacked.map fun x => x.1.calls.map (·.1)) = some ["_FMon_UTEST_2_testdb".toList]

end Verif.Conform
