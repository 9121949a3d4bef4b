import Verif.Model.Run
/-
The machine after a run, for histories of runs.
-/
namespace Verif.Spec
open Verif

/-- The directories a run has made or found: the one it has selected, and the five fixed ones. -/
def runDirs (H : RunHost) (o : GenOptions) : List Str :=
  let c := configure o.drvname.1 (finalPath o)
  (match prepareDirectory H.fs c o.isRewrite with
    | .ret true (some d) => [d]
    | _ => []) ++ [c.libdir, c.usrdir, c.incdir, c.confdir, c.utildir]

/-- What a run that ended regularly leaves behind: its files are there with their texts, and its directories.  The clock, permissions (where directories can be
made and which files open) and everything else stay as they are.  Of runs that end otherwise nothing is recorded. -/
def afterRun (H : RunHost) (args : List Str) : RunHost :=
  match runApp H args with
  | .done files =>
    { H with
      fs := { H.fs with node := fun p => if p ∈ files.map (·.1) then .other
        else if p ∈ runDirs H (getOptions args) ∧ H.fs.node p = .absent then .dir else H.fs.node p }
      dbc := fun p => match written files p with
        | some t => some (some t)
        | none => H.dbc p }
  | _ => H

/-- After `n` runs with the same command line. -/
def afterRuns (H : RunHost) (args : List Str) : Nat → RunHost
  | 0 => H
  | n + 1 => afterRun (afterRuns H args n) args

end Verif.Spec
