import Verif.Model.MainText
/-
The descriptors of the util files: of a node, and of all messages.
-/
namespace Verif

/-- src/app.cpp:190-205: what the loop over the nodes sets before `utilGen.Generate`: names of the node's
driver, names of the two files; the version macros stay those of the driver. -/
def nodeUtil (g : GenDesc) (drv node : Str) : UtilDesc :=
  let name := strLower (node ++ "_".toList ++ drv)
  { g := g, name := name, NAME := strUpper name, drv := drv, hname := strLower (name ++ "-binutil.h".toList) }

/-- The descriptor of the util files without `-nodeutils`, src/codegen/fs-creator.cpp:34-52. -/
def allUtil (g : GenDesc) (drv : Str) : UtilDesc :=
  { g := g, name := strLower drv, NAME := strUpper drv, drv := drv, hname := strLower drv ++ "-binutil.h".toList }

/-- The name the util files are called after, before it is turned to small letters. -/
def utilBase (drv : Str) : Option Str → Str
  | some node => node ++ "_".toList ++ drv
  | none => drv

/-- The descriptor of the util files of a node (`some node`: `nodeUtil`), or of all messages (`none`: `allUtil`). -/
def utilFor (g : GenDesc) (drv : Str) (w : Option Str) : UtilDesc :=
  { g := g, drv := drv, name := strLower (utilBase drv w)
    NAME := match w with
      | some node => strUpper (strLower (utilBase drv (some node)))
      | none => strUpper drv
    hname := match w with
      | some node => strLower (strLower (utilBase drv (some node)) ++ "-binutil.h".toList)
      | none => strLower drv ++ "-binutil.h".toList }

/-- The groups of the messages of a node (src/app.cpp:207-231), or of all (src/app.cpp:238-243). -/
def whoGroups (msgs : List Msg) : Option Str → Groups
  | some node => nodeGroups msgs node
  | none => allGroups msgs

theorem utilFor_node (g : GenDesc) (drv node : Str) : utilFor g drv (some node) = nodeUtil g drv node := rfl
theorem utilFor_all (g : GenDesc) (drv : Str) : utilFor g drv none = allUtil g drv := rfl

end Verif
