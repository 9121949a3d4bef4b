import Verif.Proofs.Gen
/-
The comment block of the generated files.
-/
namespace Verif
open Spec

/-- What the comment block of the generated files names: the DBC file, and with `-gendate` date and time. -/
structure Spec.Source where
  name : Str
  date : Option Str := none
  deriving DecidableEq, Repr

instance : Coe Str Source := ⟨fun n => { name := n }⟩

/-- The texts are parts of one comment line: no line feed, no backslash at the end. -/
def Spec.SourceOk (s : Source) : Prop :=
  ('\n' ∉ s.name ∧ s.name.getLast? ≠ some '\\') ∧ '\n' ∉ s.date.getD [] ∧ (s.date.getD []).getLast? ≠ some '\\'

instance (s : Source) : Decidable (SourceOk s) := by unfold SourceOk; infer_instance

/-- The common comment block, src/app.cpp:113-121. -/
def sourceInfo (s : Source) : Str :=
  commonSrcInfo ++ match s.date with
    | some t => "// Generation time   : ".toList ++ t ++ ['\n']
    | none => []

/-- Comment lines in front of the files: the text of `driverSrcInfo`. -/
theorem comment_line {c : Str} (hc : '\n' ∉ c) (hb : c.getLast? ≠ some '\\') : CommentText ('/' :: '/' :: c ++ ['\n']) :=
  ⟨1, PPL.comment (a := []) plainT_nil hc hb⟩

theorem version_comment : CommentText commonSrcInfo := comment_line (c := " Generator version : v3.1".toList) (by decide) (by decide)

theorem named_comment {p : Str} (hp : '\n' ∉ p ∧ p.getLast? ≠ some '\\') {n : Str} (h : '\n' ∉ n) (hb : n.getLast? ≠ some '\\') :
    CommentText ('/' :: '/' :: (p ++ n) ++ ['\n']) := by
  refine comment_line (c := p ++ n) ?_ ?_
  · intro hx
    rcases List.mem_append.1 hx with hx | hx
    · exact hp.1 hx
    · exact h hx
  · cases n with
    | nil => rw [List.append_nil]; exact hp.2
    | cons a r => 
      rw [List.getLast?_append]
      cases e : (a :: r).getLast? with
      | none => simp at e
      | some x => rw [e] at hb; exact hb

theorem driver_comment {n : Str} (h : '\n' ∉ n) (hb : n.getLast? ≠ some '\\') : CommentText (driverSrcInfo n) :=
  named_comment (p := " DBC filename      : ".toList) (by decide) h hb

theorem common_comment {s : Source} (h : SourceOk s) : CommentText (sourceInfo s) := by
  unfold sourceInfo
  obtain ⟨a, ha⟩ := version_comment
  have hd := h.2
  cases e : s.date with
  | none => exact ⟨a, by rw [List.append_nil]; exact ha⟩
  | some t =>
    rw [e] at hd
    obtain ⟨b, hb⟩ := named_comment (p := " Generation time   : ".toList) (by decide) hd.1 hd.2
    exact ⟨a + b, by rw [← List.replicate_append_replicate]; exact ha.append hb⟩

end Verif
