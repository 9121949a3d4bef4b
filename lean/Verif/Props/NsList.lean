import Verif.Props.Meaning
/-
C69, C72, C79: files with the list of keywords after NS_ meet the conditions.
-/
namespace Verif
open Spec

namespace Fix

/-- The list of keywords at the beginning of a line each, and a message. -/
def nsHead : List Str :=
  ["NS_ :", "NS_DESC_", "CM_", "BA_DEF_", "BA_", "VAL_", "BU_: ECU Dash", "BO_ 2147484672 Motor: 8 ECU", " SG_ Cnt : 0|4@1+ (1,0) [0|15] \"\" Dash",
   " SG_ Torque : 19|12@0- (1,0) [-2048|2047] \"Nm\" Dash", " SG_ Crc : 56|8@1+ (1,0) [0|255] \"\" Dash"].map String.toList

/-- Comment, rolling counter, attribute. -/
def nsBs : List Block :=
  [.stmt .comment "CM_ SG_ 2147484672 Cnt \"<RollingCounter>\";".toList [], .stmt .attr "BA_ \"GenMsgCycleTime\" BO_ 2147484672 50;".toList []]
def nsXs : List FileStmt := [.sigComment 1024 true "Cnt".toList "<RollingCounter>".toList, .cycle 1024 true 50]

def nsUnlines (ls : List Str) : Str := ls.flatMap fun l => l ++ ['\n']
def nsText : Str := nsUnlines (nsHead ++ nsBs.flatMap Block.lines)

theorem nsSpells : List.Forall₂ Spells nsBs nsXs := .cons talk9 (.cons talk4 .nil)

/-- The comment begun by the list of keywords is given up when the next one begins. -/
theorem nsEnds : EndsIn (fileLines platIns nsText) nsBs := by
  refine ⟨nsHead, by decide +kernel, ?_, .inr ?_⟩
  · have h : ∀ l ∈ nsHead, l.getLast? ≠ some ';' ∧ ¬ "BA_ ".toList <+: l ∧ ¬ "VAL_ ".toList <+: l := by decide +kernel
    exact h
  · intro a l b e _
    refine ⟨"CM_ SG_ 2147484672 Cnt \"<RollingCounter>\";".toList, ?_, by decide +kernel⟩
    have e' : "CM_ SG_ 2147484672 Cnt \"<RollingCounter>\";".toList :: ["BA_ \"GenMsgCycleTime\" BO_ 2147484672 50;".toList] = a ++ l :: b := e
    cases a with
    | nil => cases e'; exact List.mem_cons_self
    | cons y a => rw [List.cons_append] at e'; exact (List.cons.inj e').1 ▸ List.mem_cons_self

/-- The same with a list of transmitters, which ends the comment begun by the list of keywords. -/
def txBs : List Block :=
  [.other "NS_ :".toList, .other "NS_DESC_".toList, .stmt .comment "CM_".toList (["BA_DEF_", "BA_", "VAL_", "BU_: ECU Dash", "BO_ 2147484672 Motor: 8 ECU",
    " SG_ Cnt : 0|4@1+ (1,0) [0|15] \"\" Dash", " SG_ Torque : 19|12@0- (1,0) [-2048|2047] \"Nm\" Dash", " SG_ Crc : 56|8@1+ (1,0) [0|255] \"\" Dash"].map String.toList ++
    ["BO_TX_BU_ 2147484672 : ECU;".toList])] ++ nsBs
def txXs : List FileStmt := [.silent, .silent, .silent] ++ nsXs
def txText : Str := nsUnlines (txBs.flatMap Block.lines)

theorem txLines : EndsIn (fileLines platIns txText) txBs := ends_all (by decide +kernel)

theorem txSpells : List.Forall₂ Spells txBs txXs := by
  refine .cons (spells_other fun k => by cases k <;> decide) (.cons (spells_other fun k => by cases k <;> decide) (.cons ⟨⟨by decide, ?_, ?_⟩, ?_⟩ nsSpells))
  · have h : ∀ l ∈ ["BA_DEF_", "BA_", "VAL_", "BU_: ECU Dash", "BO_ 2147484672 Motor: 8 ECU",
      " SG_ Cnt : 0|4@1+ (1,0) [0|15] \"\" Dash", " SG_ Torque : 19|12@0- (1,0) [-2048|2047] \"Nm\" Dash", " SG_ Crc : 56|8@1+ (1,0) [0|255] \"\" Dash"].map String.toList ++
      ["BO_TX_BU_ 2147484672 : ECU;".toList], ¬ Kw.comment.text <+: l ∧ ¬ Kw.attr.text <+: l ∧ ¬ Kw.value.text <+: l := by decide +kernel
    exact fun l hl k => match k with
      | .comment => (h l hl).1
      | .attr => (h l hl).2.1
      | .value => (h l hl).2.2
  · refine ⟨"CM_".toList :: (["BA_DEF_", "BA_", "VAL_", "BU_: ECU Dash", "BO_ 2147484672 Motor: 8 ECU",
      " SG_ Cnt : 0|4@1+ (1,0) [0|15] \"\" Dash", " SG_ Torque : 19|12@0- (1,0) [-2048|2047] \"Nm\" Dash", " SG_ Crc : 56|8@1+ (1,0) [0|255] \"\" Dash"].map String.toList),
      "BO_TX_BU_ 2147484672 : ECU;".toList, rfl, by decide +kernel, ?_⟩
    decide +kernel
  · exact .inr (.inr (.inr ⟨rfl, "CM_\nBA_DEF_\nBA_\nVAL_\nBU_:".toList, "ECU".toList,
      ("Dash\nBO_ 2147484672 Motor: 8 ECU\n SG_ Cnt : 0|4@1+ (1,0) [0|15] \"\" Dash\n SG_ Torque : 19|12@0- (1,0) [-2048|2047] \"Nm\" Dash\n SG_ Crc : 56|8@1+ (1,0) [0|255] \"\" Dash\n" ++
        "BO_TX_BU_ 2147484672 : ECU;").toList,
      by decide +kernel, by decide +kernel, by decide +kernel, by decide +kernel, by decide +kernel, by decide +kernel⟩))

/-- Both files have one message with the id. -/
theorem nsIds : (match trimDbcText platIns nsText with
    | .ok o => o.msgs.map (·.msgId)
    | _ => []) = [1024] := by decide +kernel
theorem txIds : (match trimDbcText platIns txText with
    | .ok o => o.msgs.map (·.msgId)
    | _ => []) = [1024] := by decide +kernel

theorem nsStated : Stated (fileLines platIns nsText) motor := by
  refine ⟨(fileLines platIns nsText).take 7, (fileLines platIns nsText).drop 11, by decide +kernel, fun l hl => noSigB_sound ?_⟩
  revert l
  decide +kernel
theorem txStated : Stated (fileLines platIns txText) motor := by
  refine ⟨(fileLines platIns txText).take 7, (fileLines platIns txText).drop 11, by decide +kernel, fun l hl => noSigB_sound ?_⟩
  revert l
  decide +kernel

theorem ids_one {out : DbcList} (h : out.msgs.map (·.msgId) = [1024]) : IdsDistinct out.msgs ∧ Known out.msgs 1024 := by
  refine ⟨?_, ?_⟩
  · unfold IdsDistinct
    have h : (out.msgs.map (·.msgId)).Pairwise (· ≠ ·) := by rw [h]; decide
    exact List.pairwise_map.1 h
  · have hm : 1024 ∈ out.msgs.map (·.msgId) := by rw [h]; decide
    obtain ⟨m, h1, h2⟩ := List.mem_map.1 hm
    exact ⟨m, h1, h2⟩

theorem cntLast (pre : List FileStmt) : IsLast (FileStmt.Counts motor) (pre ++ nsXs) (.sigComment 1024 true "Cnt".toList "<RollingCounter>".toList) :=
  ⟨pre, [.cycle 1024 true 50], rfl, fun y hy => by rw [List.mem_singleton.1 hy]; exact id⟩

end Fix

/-- The file with the list of keywords: signal `Cnt` is the rolling counter. -/
example (out : DbcList) (h : trimDbcText platIns Fix.nsText = .ok out) (s : SigDesc) : IsCounter out.msgs Fix.motor s ↔ s.member = "Cnt".toList := by
  have hi := Fix.nsIds
  rw [h] at hi
  obtain ⟨h1, h2⟩ := Fix.ids_one hi
  have hf := C69_file_partial platIns_sorts h h1 Fix.nsEnds Fix.nsSpells (fun x hx id e => by
    have : x.about = some 1024 := (by decide : ∀ x ∈ Fix.nsXs, x.about = some 1024) x hx
    cases this.symm.trans e
    exact h2) (List.Perm.refl _) Fix.nsStated Fix.motorOk
  exact hf.counter true "Cnt".toList "<RollingCounter>".toList (Fix.sd "Cnt" 0 4 true false 0 15 "") (Fix.cntLast []) ⟨[], [], by decide⟩ (by decide) s

/-- The file with a list of transmitters too. -/
example (out : DbcList) (h : trimDbcText platIns Fix.txText = .ok out) (s : SigDesc) : IsCounter out.msgs Fix.motor s ↔ s.member = "Cnt".toList := by
  have hi := Fix.txIds
  rw [h] at hi
  obtain ⟨h1, h2⟩ := Fix.ids_one hi
  have hf := C69_file_partial platIns_sorts h h1 Fix.txLines Fix.txSpells (fun x hx id e => by
    have : x.about = none ∨ x.about = some 1024 := (by decide : ∀ x ∈ Fix.txXs, x.about = none ∨ x.about = some 1024) x hx
    rcases this with q | q
    · cases q.symm.trans e
    · cases q.symm.trans e
      exact h2) (List.Perm.refl _) Fix.txStated Fix.motorOk
  exact hf.counter true "Cnt".toList "<RollingCounter>".toList (Fix.sd "Cnt" 0 4 true false 0 15 "") (Fix.cntLast (List.replicate 3 .silent)) ⟨[], [], by decide⟩ (by decide) s

end Verif
