import Verif.Props.LineEnds
/-
C81: comments of the DBC file stay comments in the generated header.
-/
namespace Verif
open Spec

/-- The comments above a member of a struct (src/codegen/c-main-generator.cpp:560-577) leave blank lines in what the compiler sees, and nothing of the text below. -/
theorem C81_field_partial (s : Sig) (h1 : s.commentText.getLast? ≠ some '\\') (h2 : s.valueText.getLast? ≠ some '\\') :
    ∃ ls : List Str, (∀ l ∈ ls, ∀ c ∈ l, c = ' ') ∧ ∀ rest, ppLines (opsText (fieldCommentOps s) ++ rest) = ls ++ ppLines rest := by
  have key : ∀ t : Str, t.getLast? ≠ some '\\' → ∃ u, Emits (if t.length > 0 then [.append ("  // ".toList ++ replaceNl "  // ".toList t)] else []) u ∧
      ∃ ls : List Str, (∀ l ∈ ls, ∀ c ∈ l, c = ' ') ∧ PPL u ls := by
    intro t ht
    split
    · obtain ⟨n, hp⟩ := ppl_cmt (a := "  ".toList) (plain_lit (by decide)) t ht
      refine ⟨_, emits_append _, List.replicate n ("  ".toList ++ [' ']), ?_, ?_⟩
      · intro l hl
        rw [(List.mem_replicate.mp hl).2]
        decide
      · have := lineText_add (replaceNl_last "  ".toList t)
        exact this ▸ hp
    · exact ⟨[], Emits.nil, [], by simp, PPL.nil⟩
  have lit : ∀ c : String, ('\n' ∉ c.toList ∧ c.toList.getLast? ≠ some '\\' ∧ c.toList.length ≤ 100) →
      ∃ u, Emits [.appendF ("  ".toList ++ '/' :: '/' :: c.toList)] u ∧ ∃ ls : List Str, (∀ l ∈ ls, ∀ c ∈ l, c = ' ') ∧ PPL u ls := by
    intro c hc
    refine ⟨_, emits_line ?_ ?_, _, ?_, PPL.comment (a := "  ".toList) (plain_lit (by decide)) hc.1 hc.2.1⟩
    · simp only [List.length_append, List.length_cons, String.reduceToList, List.length_nil]
      omega
    · simp [hc.1]
    · intro l hl
      rw [List.mem_singleton.mp hl]
      decide
  have mux : ∃ u, Emits (match s.multiplex with
      | .mulValue => [opLine "  // multiplex variable"]
      | .master => [opLine "  // MULTIPLEX master signal"]
      | .none => []) u ∧ ∃ ls : List Str, (∀ l ∈ ls, ∀ c ∈ l, c = ' ') ∧ PPL u ls := by
    cases s.multiplex with
    | mulValue => exact lit " multiplex variable" (by decide)
    | master => exact lit " MULTIPLEX master signal" (by decide)
    | none => exact ⟨[], Emits.nil, [], by simp, PPL.nil⟩
  obtain ⟨u1, e1, ls1, b1, p1⟩ := key _ h1
  obtain ⟨u2, e2, ls2, b2, p2⟩ := key _ h2
  obtain ⟨u3, e3, ls3, b3, p3⟩ := mux
  have e : opsText (fieldCommentOps s) = (u1 ++ u2) ++ u3 := ((e1.append e2).append e3).text
  refine ⟨(ls1 ++ ls2) ++ ls3, ?_, fun rest => ?_⟩
  · intro l hl
    simp only [List.mem_append] at hl
    rcases hl with (hl | hl) | hl
    · exact b1 l hl
    · exact b2 l hl
    · exact b3 l hl
  · rw [e]
    exact ((p1.append p2).append p3) rest

/-- The comment above a struct (src/codegen/c-main-generator.cpp:155-159). -/
theorem C81_message_partial (t : Str) (h : t.getLast? ≠ some '\\') :
    ∃ ls : List Str, (∀ l ∈ ls, ∀ c ∈ l, c = ' ') ∧ ∀ rest, ppLines (opsText [.append ("// ".toList ++ replaceNl "// ".toList t)] ++ rest) = ls ++ ppLines rest := by
  obtain ⟨n, hp⟩ := ppl_cmt (a := []) plainT_nil t h
  refine ⟨List.replicate n ([] ++ [' ']), ?_, fun rest => ?_⟩
  · intro l hl
    rw [(List.mem_replicate.mp hl).2]
    decide
  · have e : opsText [.append ("// ".toList ++ replaceNl "// ".toList t)] = _ := (emits_append _).text
    rw [e]
    have := lineText_add (replaceNl_last [] t)
    exact (this ▸ hp) rest

/-! ### A text that ends in a backslash -/

theorem ppl_lost_go {a : Str} (ha : PlainT a) (t : Str) (h : t.getLast? = some '\\') (c : Str) (hc : '\n' ∉ c) (hcb : c.getLast? = some ' ') :
    ∃ n, ∀ x : Str, '\n' ∉ x → x ≠ [] → x.getLast? ≠ some '\\' →
      PPL (a ++ '/' :: '/' :: (c ++ (replaceNl (a ++ "// ".toList) t ++ '\n' :: (x ++ ['\n'])))) (List.replicate n (a ++ [' '])) := by
  generalize hk : t.length = k
  induction k using Nat.strongRecOn generalizing t c with
  | _ k ih =>
    rcases split_nl t with hn | ⟨l, r, e, hl⟩
    · obtain ⟨l', rfl⟩ := last_split h
      have hl' : '\n' ∉ l' := fun q => hn (List.mem_append_left _ q)
      refine ⟨1, fun x hx hx0 hxb => ?_⟩
      rw [replaceNl_id _ hn]
      have hp := PPL.comment (a := a) (c := c ++ l' ++ x) ha (by simp [hc, hl', hx]) (by
        rw [List.getLast?_append]
        cases hg : x.getLast? with
        | none => exact absurd (List.getLast?_eq_none_iff.mp hg) hx0
        | some y => rw [Option.some_or, ← hg]; exact hxb)
      have e1 : a ++ '/' :: '/' :: (c ++ (l' ++ ['\\'] ++ '\n' :: (x ++ ['\n']))) = (a ++ '/' :: '/' :: (c ++ l')) ++ '\\' :: '\n' :: (x ++ ['\n']) := by simp
      have e2 : (a ++ '/' :: '/' :: (c ++ l' ++ x)) ++ ['\n'] = (a ++ '/' :: '/' :: (c ++ l')) ++ (x ++ ['\n']) := by simp
      rw [e1]
      rw [e2] at hp
      refine PPL.splice (by simp [hc, hl', ha.parts.1]) ?_ (by simp) hp
      cases x with
      | nil => exact absurd rfl hx0
      | cons y x =>
        intro q
        exact hx (by simp at q; simp [q])
    · subst e
      have hr : r ≠ [] := by
        rintro rfl
        rw [List.getLast?_append] at h
        exact absurd h (by simp)
      have h2 : r.getLast? = some '\\' := by
        rw [List.getLast?_append, List.getLast?_cons] at h
        cases hg : r.getLast? with
        | none => exact absurd (List.getLast?_eq_none_iff.mp hg) hr
        | some y => rw [hg] at h; simpa using h
      have hlen : r.length < k := by rw [← hk]; simp; omega
      by_cases hb : l.getLast? = some '\\'
      · obtain ⟨l', rfl⟩ := last_split hb
        have hl' : '\n' ∉ l' := fun q => hl (List.mem_append_left _ q)
        obtain ⟨n, hp⟩ := ih r.length hlen r h2 (c ++ l' ++ a ++ "// ".toList) (by simp [hc, hl', ha.parts.1]) (by
          rw [List.getLast?_append]; rfl) rfl
        refine ⟨n, fun x hx hx0 hxb => ?_⟩
        have hp := hp x hx hx0 hxb
        rw [replaceNl_split _ _ hl]
        have e1 : a ++ '/' :: '/' :: (c ++ (l' ++ ['\\'] ++ '\n' :: (a ++ "// ".toList ++ replaceNl (a ++ "// ".toList) r) ++ '\n' :: (x ++ ['\n']))) =
            (a ++ '/' :: '/' :: (c ++ l')) ++ '\\' :: '\n' :: (a ++ '/' :: '/' :: (' ' :: (replaceNl (a ++ "// ".toList) r ++ '\n' :: (x ++ ['\n'])))) := by simp
        have e2 : a ++ '/' :: '/' :: (c ++ l' ++ a ++ "// ".toList ++ (replaceNl (a ++ "// ".toList) r ++ '\n' :: (x ++ ['\n']))) =
            (a ++ '/' :: '/' :: (c ++ l')) ++ (a ++ '/' :: '/' :: (' ' :: (replaceNl (a ++ "// ".toList) r ++ '\n' :: (x ++ ['\n'])))) := by simp
        rw [e1]
        rw [e2] at hp
        exact PPL.splice (by simp [hc, hl', ha.parts.1]) (head_cmt ha _) (by simp) hp
      · obtain ⟨n, hp⟩ := ih r.length hlen r h2 [' '] (by decide) rfl rfl
        refine ⟨n + 1, fun x hx hx0 hxb => ?_⟩
        have hp := hp x hx hx0 hxb
        rw [replaceNl_split _ _ hl]
        have e2 : a ++ '/' :: '/' :: (c ++ (l ++ '\n' :: (a ++ "// ".toList ++ replaceNl (a ++ "// ".toList) r) ++ '\n' :: (x ++ ['\n']))) =
            ((a ++ '/' :: '/' :: (c ++ l)) ++ ['\n']) ++ (a ++ '/' :: '/' :: ([' '] ++ (replaceNl (a ++ "// ".toList) r ++ '\n' :: (x ++ ['\n'])))) := by simp
        rw [e2]
        exact (PPL.comment ha (by simp [hc, hl]) (getLast_blank hcb hb)).append hp

/-- The line below a comment that ends in a backslash is lost: what the compiler sees does not depend on it. -/
theorem C81_lost (s : Sig) (h : s.commentText.getLast? = some '\\') (hv : s.valueText = []) (hm : s.multiplex = .none) :
    ∃ ls : List Str, (∀ l ∈ ls, ∀ c ∈ l, c = ' ') ∧ ∀ x rest : Str, '\n' ∉ x → x ≠ [] → x.getLast? ≠ some '\\' →
      ppLines (opsText (fieldCommentOps s) ++ (x ++ '\n' :: rest)) = ls ++ ppLines rest := by
  obtain ⟨n, hp⟩ := ppl_lost_go (a := "  ".toList) (plain_lit (by decide)) s.commentText h [' '] (by decide) rfl
  refine ⟨List.replicate n ("  ".toList ++ [' ']), ?_, fun x rest hx hx0 hxb => ?_⟩
  · intro l hl
    rw [(List.mem_replicate.mp hl).2]
    decide
  · have hl : s.commentText.length > 0 := by
      cases hs : s.commentText with
      | nil => rw [hs] at h; cases h
      | cons c t => simp
    have e : fieldCommentOps s = [.append ("  // ".toList ++ replaceNl "  // ".toList s.commentText)] := by
      unfold fieldCommentOps
      rw [if_pos hl, hv, hm]
      rfl
    have e2 : opsText [.append ("  // ".toList ++ replaceNl "  // ".toList s.commentText)] = _ := (emits_append _).text
    have e3 : lineText ("  // ".toList ++ replaceNl "  // ".toList s.commentText) = ("  // ".toList ++ replaceNl "  // ".toList s.commentText) ++ ['\n'] :=
      lineText_add (replaceNl_last "  ".toList s.commentText)
    rw [e, e2, e3, ← hp x hx hx0 hxb rest]
    congr 1
    simp

/-! ### Examples -/

namespace Fix

/-- A comment of two lines with a backslash at the end of the first. -/
def pathSig : Sig := { (default : Sig) with name := "T".toList, commentText := "in C:\\\nand elsewhere".toList }

/-- A comment that is a path. -/
def lostSig : Sig := { (default : Sig) with name := "T".toList, commentText := "in C:\\".toList, valueText := [], multiplex := .none }

def lostText : Str := "BO_ 5 Y: 8 B\n SG_ T : 0|8@1+ (1,0) [0|0] \"\" B\n".toList
def lostText' : Str := lostText ++ "CM_ SG_ 5 T \"in C:\\\";\n".toList

/-- Whether a line for the compiler begins with the declaration of the member. -/
def hasT (h : Str) : Bool := (ppLines h).any fun l => "  uint8_t T".toList.isPrefixOf l

/-- Whether the header of the first run has the member and that of the second has not. -/
def losesT (p : Str) : RunRes → RunRes → Bool
  | .done a, .done b => match onDisk a p, onDisk b p with
    | some h, some h' => hasT h && !hasT h'
    | _, _ => false
  | _, _ => false

end Fix

example : ∃ ls : List Str, (∀ l ∈ ls, ∀ c ∈ l, c = ' ') ∧ ∀ rest, ppLines (opsText (fieldCommentOps Fix.pathSig) ++ rest) = ls ++ ppLines rest :=
  C81_field_partial Fix.pathSig (by decide) (by decide)

example : ppLines (opsText (fieldCommentOps Fix.pathSig) ++ "  uint8_t T;\n".toList) = ["   ", "  uint8_t T;", ""].map String.toList := by decide +kernel

example : ppLines (opsText (fieldCommentOps Fix.lostSig) ++ "  uint8_t T;\n".toList) = ["   ", ""].map String.toList := by decide +kernel

example : ∃ ls : List Str, (∀ l ∈ ls, ∀ c ∈ l, c = ' ') ∧ ∀ x rest : Str, '\n' ∉ x → x ≠ [] → x.getLast? ≠ some '\\' →
    ppLines (opsText (fieldCommentOps Fix.lostSig) ++ (x ++ '\n' :: rest)) = ls ++ ppLines rest :=
  C81_lost Fix.lostSig (by decide) rfl rfl

/-- A comment in the DBC file takes a member away from the struct: the header for the file without the comment declares it, the header for the file with the comment does not. -/
theorem C81_refuted : ∃ (H : RunHost) (dbc' : Str → Option (Option Str)) (args : List Str) (path text cm : Str) (files files' : List (Str × Str)) (p h h' : Str),
    SortsByStart H.plat ∧ (∀ l, SortedBy (H.sort l) l) ∧ (∀ p, H.canOpen p = true) ∧ H.dbc path = some (some text) ∧
    cm = "CM_ SG_ 5 T \"in C:\\\";\n".toList ∧ dbc' path = some (some (text ++ cm)) ∧ Asks args path ∧
    runApp H args = .done files ∧ runApp { H with dbc := dbc' } args = .done files' ∧ onDisk files p = some h ∧ onDisk files' p = some h' ∧
    (∃ l ∈ ppLines h, "  uint8_t T".toList <+: l) ∧ ∀ l ∈ ppLines h', ¬ "  uint8_t T".toList <+: l := by
  have hd : Fix.losesT "gen/lib/drv.h".toList (runApp (Fix.openHost Fix.lostText) Fix.dirArgs) (runApp (Fix.openHost Fix.lostText') Fix.dirArgs) = true := by decide +kernel
  cases h1 : runApp (Fix.openHost Fix.lostText) Fix.dirArgs with
  | done files =>
    cases h2 : runApp (Fix.openHost Fix.lostText') Fix.dirArgs with
    | done files' =>
      rw [h1, h2] at hd
      cases h3 : onDisk files "gen/lib/drv.h".toList with
      | none => simp only [Fix.losesT, h3] at hd; cases hd
      | some h =>
        cases h4 : onDisk files' "gen/lib/drv.h".toList with
        | none => simp only [Fix.losesT, h3, h4] at hd; cases hd
        | some h' =>
          simp only [Fix.losesT, h3, h4] at hd
          have hd := (Bool.and_eq_true _ _).mp hd
          refine ⟨Fix.openHost Fix.lostText, Fix.otherDbc Fix.lostText', Fix.dirArgs, "in/my.dbc".toList, Fix.lostText, _, files, files', "gen/lib/drv.h".toList, h, h',
            platIns_sorts, Fix.insSort_ok, fun _ => rfl, rfl, rfl, rfl, (asks_iff _ _).2 (by decide +kernel), h1, h2, h3, h4, ?_, ?_⟩
          · obtain ⟨l, hl, hp⟩ := List.any_eq_true.mp hd.1
            exact ⟨l, hl, List.isPrefixOf_iff_prefix.mp hp⟩
          · intro l hl hp
            have := List.any_eq_true.mpr ⟨l, hl, List.isPrefixOf_iff_prefix.mpr hp⟩
            rw [show (ppLines h').any _ = Fix.hasT h' from rfl] at this
            rw [this] at hd
            exact absurd hd.2 (by decide)
    | _ => rw [h1, h2] at hd; cases hd
  | _ => rw [h1] at hd; cases hd

end Verif
