import Verif.Proofs.ConvText
import Verif.Proofs.Macros
/-
The constants and macros of the messages in the header.
-/
namespace Verif
open Spec

variable {files : List (Str × Str)} {D0 E : Defs} {g : GenDesc}

/-! ### Comments of several lines -/

/-- The text does not end in a backslash. -/
def NoSplice (t : Str) : Prop := t.getLast? ≠ some '\\'

instance (t : Str) : Decidable (NoSplice t) := inferInstanceAs (Decidable (_ ≠ _))

theorem linesGo_end (l cur : Str) (h : '\n' ∉ l) : linesGo l cur = [cur ++ l] := by
  induction l generalizing cur with
  | nil => rw [linesGo, List.append_nil]
  | cons c l ih =>
    rw [linesGo, if_neg (fun e => h (by simp [e])), ih _ (fun e => h (by simp [e])), List.append_assoc]
    rfl

theorem split_nl (t : Str) : '\n' ∉ t ∨ ∃ l r, t = l ++ '\n' :: r ∧ '\n' ∉ l := by
  induction t with
  | nil => exact .inl (by simp)
  | cons c t ih =>
    by_cases hc : c = '\n'
    · exact .inr ⟨[], t, by rw [hc]; rfl, by simp⟩
    · rcases ih with h | ⟨l, r, e, h⟩
      · exact .inl (by simp [h, Ne.symm hc])
      · exact .inr ⟨c :: l, r, by rw [e]; rfl, by simp [h, Ne.symm hc]⟩

theorem replaceNl_id {t : Str} (p : Str) (h : '\n' ∉ t) : replaceNl p t = t := by
  induction t with
  | nil => rfl
  | cons c t ih =>
    show (if c = '\n' then '\n' :: p else [c]) ++ replaceNl p t = _
    rw [if_neg (fun e => h (by simp [e])), ih (fun e => h (by simp [e]))]
    rfl

theorem replaceNl_split {l : Str} (p r : Str) (h : '\n' ∉ l) : replaceNl p (l ++ '\n' :: r) = l ++ '\n' :: (p ++ replaceNl p r) := by
  have e : replaceNl p (l ++ '\n' :: r) = replaceNl p l ++ replaceNl p ('\n' :: r) := List.flatMap_append
  rw [e, replaceNl_id p h]
  rfl

theorem replaceNl_last (a t : Str) : (a ++ "// ".toList ++ replaceNl (a ++ "// ".toList) t).getLast? ≠ some '\n' := by
  generalize hk : t.length = k
  induction k using Nat.strongRecOn generalizing t with
  | _ k ih =>
    rcases split_nl t with h | ⟨l, r, e, h⟩
    · rw [replaceNl_id _ h, List.getLast?_append]
      cases hx : t.getLast? with
      | none =>
        rw [Option.none_or, List.getLast?_append]
        have e : "// ".toList.getLast? = some ' ' := rfl
        rw [e, Option.some_or]
        decide
      | some y =>
        intro e
        have e1 : y = '\n' := by simpa using e
        subst e1
        exact h (List.mem_of_getLast? hx)
    · rw [e, replaceNl_split _ _ h]
      have := ih r.length (by rw [← hk, e]; simp; omega) r rfl
      have e2 : a ++ "// ".toList ++ (l ++ '\n' :: (a ++ "// ".toList ++ replaceNl (a ++ "// ".toList) r)) =
          (a ++ "// ".toList ++ l ++ ['\n']) ++ (a ++ "// ".toList ++ replaceNl (a ++ "// ".toList) r) := by simp
      rw [e2, List.getLast?_append]
      cases hx : (a ++ "// ".toList ++ replaceNl (a ++ "// ".toList) r).getLast? with
      | none => simp at hx
      | some y => rw [hx] at this; simpa using this

theorem noSplice_split {l r : Str} (h : NoSplice (l ++ '\n' :: r)) : NoSplice r := by
  unfold NoSplice at *
  intro e
  refine h ?_
  rw [List.getLast?_append, List.getLast?_cons, e]
  rfl

theorem unsplice_pre (a r : Str) (hn : '\n' ∉ a) (hr : r.head? ≠ some '\n') : unsplice (a ++ r) = a ++ unsplice r := by
  induction a with
  | nil => rfl
  | cons c a ih =>
    have ih := ih fun q => hn (List.mem_cons_of_mem _ q)
    cases a with
    | nil =>
      cases r with
      | nil => rfl
      | cons d r =>
        show unsplice (c :: d :: r) = _
        rw [unsplice_cons' (fun q => hr (by rw [q]; rfl))]
        rfl
    | cons d a =>
      show unsplice (c :: d :: (a ++ r)) = _
      rw [unsplice_cons' (fun q => hn (by simp [q]))]
      rw [List.cons_append] at ih
      rw [ih]
      rfl

/-- A line that ends in a backslash is joined with the next one. -/
theorem PPL.splice {a r : Str} {ls : List Str} (hn : '\n' ∉ a) (hr : r.head? ≠ some '\n') (hr0 : r ≠ []) (h : PPL (a ++ r) ls) : PPL (a ++ '\\' :: '\n' :: r) ls := by
  intro rest
  rw [← h rest]
  have hr2 : (r ++ rest).head? ≠ some '\n' := by
    cases r with
    | nil => exact absurd rfl hr0
    | cons c r => exact hr
  have e : unsplice ((a ++ '\\' :: '\n' :: r) ++ rest) = unsplice ((a ++ r) ++ rest) := by
    rw [List.append_assoc, List.append_assoc, unsplice_pre a _ hn hr2, unsplice_pre a _ hn (by simp)]
    show a ++ unsplice ('\\' :: '\n' :: (r ++ rest)) = _
    rw [unsplice, if_pos ⟨rfl, rfl⟩]
  unfold ppLines
  rw [e]

theorem getLast_blank {c l : Str} (hc : c.getLast? = some ' ') (hl : l.getLast? ≠ some '\\') : (c ++ l).getLast? ≠ some '\\' := by
  rw [List.getLast?_append]
  cases h : l.getLast? with
  | none => rw [Option.none_or, hc]; decide
  | some x => rw [Option.some_or, ← h]; exact hl

theorem last_split {l : Str} {x : Char} (h : l.getLast? = some x) : ∃ l', l = l' ++ [x] := by
  rcases List.eq_nil_or_concat l with rfl | ⟨l', y, rfl⟩
  · cases h
  · rw [List.concat_eq_append] at *
    rw [List.getLast?_concat] at h
    cases h
    exact ⟨l', rfl⟩

theorem head_cmt {a : Str} (ha : PlainT a) (r : Str) : (a ++ '/' :: '/' :: r).head? ≠ some '\n' := by
  cases a with
  | nil => simp
  | cons c a =>
    intro e
    have : c = '\n' := by simpa using e
    have h := ha c List.mem_cons_self
    rw [this] at h
    revert h
    decide

/-- A comment of several lines leaves blank lines; `c`: what is in the comment before the text. -/
theorem ppl_cmt_go {a : Str} (ha : PlainT a) (t : Str) (h : NoSplice t) (c : Str) (hc : '\n' ∉ c) (hcb : c.getLast? = some ' ') :
    ∃ n, PPL (a ++ '/' :: '/' :: (c ++ (replaceNl (a ++ "// ".toList) t ++ ['\n']))) (List.replicate n (a ++ [' '])) := by
  generalize hk : t.length = k
  induction k using Nat.strongRecOn generalizing t c with
  | _ k ih =>
    have one : ∀ (l : Str), '\n' ∉ l → l.getLast? ≠ some '\\' → PPL (a ++ '/' :: '/' :: (c ++ (l ++ ['\n']))) [a ++ [' ']] := by
      intro l hl hb
      have := PPL.comment (a := a) (c := c ++ l) ha (by simp [hc, hl]) (getLast_blank hcb hb)
      have e : a ++ '/' :: '/' :: (c ++ (l ++ ['\n'])) = (a ++ '/' :: '/' :: (c ++ l)) ++ ['\n'] := by simp
      rw [e]
      exact this
    rcases split_nl t with hn | ⟨l, r, e, hl⟩
    · rw [replaceNl_id _ hn]
      exact ⟨1, one t hn h⟩
    · subst e
      have h2 := noSplice_split h
      have hlen : r.length < k := by rw [← hk]; simp; omega
      rw [replaceNl_split _ _ hl]
      by_cases hb : l.getLast? = some '\\'
      · obtain ⟨l', rfl⟩ := last_split hb
        have hl' : '\n' ∉ l' := fun q => hl (List.mem_append_left _ q)
        obtain ⟨n, hp⟩ := ih r.length hlen r h2 (c ++ l' ++ a ++ "// ".toList) (by simp [hc, hl', ha.parts.1]) (by
          rw [List.getLast?_append]; rfl) rfl
        refine ⟨n, ?_⟩
        have e1 : a ++ '/' :: '/' :: (c ++ (l' ++ ['\\'] ++ '\n' :: (a ++ "// ".toList ++ replaceNl (a ++ "// ".toList) r) ++ ['\n'])) =
            (a ++ '/' :: '/' :: (c ++ l')) ++ '\\' :: '\n' :: (a ++ '/' :: '/' :: (' ' :: (replaceNl (a ++ "// ".toList) r ++ ['\n']))) := by simp
        have e2 : a ++ '/' :: '/' :: (c ++ l' ++ a ++ "// ".toList ++ (replaceNl (a ++ "// ".toList) r ++ ['\n'])) =
            (a ++ '/' :: '/' :: (c ++ l')) ++ (a ++ '/' :: '/' :: (' ' :: (replaceNl (a ++ "// ".toList) r ++ ['\n']))) := by simp
        rw [e1]
        rw [e2] at hp
        exact PPL.splice (by simp [hc, hl', ha.parts.1]) (head_cmt ha _) (by simp) hp
      · obtain ⟨n, hp⟩ := ih r.length hlen r h2 [' '] (by decide) rfl rfl
        refine ⟨n + 1, ?_⟩
        have e2 : a ++ '/' :: '/' :: (c ++ (l ++ '\n' :: (a ++ "// ".toList ++ replaceNl (a ++ "// ".toList) r) ++ ['\n'])) =
            (a ++ '/' :: '/' :: (c ++ (l ++ ['\n']))) ++ (a ++ '/' :: '/' :: ([' '] ++ (replaceNl (a ++ "// ".toList) r ++ ['\n']))) := by simp
        rw [e2]
        exact (one l hl hb).append hp

theorem ppl_cmt {a : Str} (ha : PlainT a) (t : Str) (h : NoSplice t) :
    ∃ n, PPL (a ++ "// ".toList ++ replaceNl (a ++ "// ".toList) t ++ ['\n']) (List.replicate n (a ++ [' '])) := by
  obtain ⟨n, hp⟩ := ppl_cmt_go ha t h [' '] (by decide) rfl
  have e : a ++ "// ".toList ++ replaceNl (a ++ "// ".toList) t ++ ['\n'] = a ++ '/' :: '/' :: ([' '] ++ (replaceNl (a ++ "// ".toList) t ++ ['\n'])) := by simp
  exact ⟨n, e ▸ hp⟩

theorem Run.blankLines {l : Str} (h : dropBlank l = []) (hl : lex l = []) (n : Nat) (c : Core) : Run files (List.replicate n l) c c := by
  induction n with
  | zero => exact Run.nil c
  | succ n ih => exact Run.append (a := [l]) (Run.blankLine c h hl) ih

theorem lineText_add {t : Str} (h : t.getLast? ≠ some '\n') : lineText t = t ++ ['\n'] := by
  unfold lineText
  split
  · rename_i e
    rw [List.getLast?_eq_none_iff.mp e]
    rfl
  · rename_i c e
    rw [if_pos]
    rintro rfl
    exact h e

theorem gen_cmtLines (a : String) (ha : a.toList.all plainCh = true) (hb : dropBlank (a.toList ++ [' ']) = []) (hl : lex (a.toList ++ [' ']) = [])
    {t : Str} (h : NoSplice t) (D : Defs) : Gen files [.append (a.toList ++ "// ".toList ++ replaceNl (a.toList ++ "// ".toList) t)] D D [] := by
  obtain ⟨n, hp⟩ := ppl_cmt (plain_lit ha) t h
  refine Gen.silent ⟨_, emits_append _, ?_⟩ (Run.blankLines hb hl n)
  rw [lineText_add (replaceNl_last _ t)]
  exact hp

theorem gen_msgCmt {t : Str} (h : NoSplice t) (D : Defs) : Gen files [.append ("// ".toList ++ replaceNl "// ".toList t)] D D [] :=
  gen_cmtLines "" rfl rfl rfl h D

theorem gen_fieldCmt {t : Str} (h : NoSplice t) (D : Defs) : Gen files [.append ("  // ".toList ++ replaceNl "  // ".toList t)] D D [] :=
  gen_cmtLines "  " (by decide) (by decide) (by decide) h D

/-! ### Constants of a message -/

theorem plain_fmtDAll (n : Nat) : PlainT (fmtD n) := by
  unfold fmtD
  split
  · exact plainT_word (numW_decStr n).2
  · exact PlainT.append (a := ['-']) (by decide) (plainT_word (numW_decStr _).2)

/-- What is needed to read the constants of a message. -/
structure MsgText (m : Msg) : Prop where
  name : IsIdent m.name ∧ m.name.length ≤ 500
  comment : NoSplice m.commentText
  id : m.msgId < 2 ^ 32
  ide : m.ide < 2 ^ 64
  dlc : m.dlc < 2 ^ 64

/-- The constants. -/
def msgDefs (m : Msg) : List DefE :=
  [⟨false, m.name ++ "_IDE".toList, .obj (par [.word (decStr m.ide ++ "U".toList)])⟩,
   ⟨false, m.name ++ "_DLC".toList, .obj (par [.word (decStr m.dlc ++ "U".toList)])⟩,
   ⟨false, m.name ++ "_CANID".toList, .obj (par [.word (fmtAltX m.msgId ++ "U".toList)])⟩] ++
  (if m.cycle > 0 then [⟨false, m.name ++ "_CYC".toList, .obj (lex (" (".toList ++ fmtD m.cycle ++ "U)".toList))⟩] else [])

theorem nameWord {n : Str} (h : IsIdent n ∧ n.length ≤ 500) (x : String) (hx : ∀ c ∈ x.toList, isWordCh c = true) (hl : x.toList.length ≤ 100) :
    IsIdent (n ++ x.toList) ∧ (n ++ x.toList).length ≤ 600 :=
  ⟨isIdent_word h.1 hx, by rw [List.length_append]; have := h.2; omega⟩

theorem msgConst_read {m : Msg} (h : MsgText m) : HP files D0 E (msgConstOps m) (msgDefs m) [] := by
  have hn := nameWord h.name
  have hnp := plainT_word (isWord_ident h.name.1)
  have hcm : ∀ D, Gen files (if m.commentText.length > 0 then [.append ("// ".toList ++ replaceNl "// ".toList m.commentText)] else []) D D [] := by
    intro D
    split
    · exact gen_msgCmt h.comment D
    · exact Gen.nil
  have hdef : ∀ D, Gen files [.appendF ("// def @".toList ++ m.name ++ " CAN Message (".toList ++ padRight 4 (fmtD m.msgId) ++ " ".toList ++ fmtAltX m.msgId ++ ")".toList)] D D [] := by
    intro D
    have hp : PlainT (" def @".toList ++ m.name ++ " CAN Message (".toList ++ padRight 4 (fmtD m.msgId) ++ " ".toList ++ fmtAltX m.msgId ++ ")".toList) := by
      have hx : PlainT (fmtAltX m.msgId) := plainT_word fun c hc => (numW_altX m.msgId).2 c (by simp [hc])
      have hs : PlainT (List.replicate (4 - (fmtD m.msgId).length) ' ') := by
        intro c hc
        rw [(List.mem_replicate.1 hc).2]
        decide
      exact (((((((plain_lit (by decide)).append hnp).append (plain_lit (by decide))).append ((plain_fmtDAll _).append hs)).append (plain_lit (by decide))).append hx)).append (plain_lit (by decide))
    have := Gen.comment (files := files) (D := D) (c := " def @".toList ++ m.name ++ " CAN Message (".toList ++ padRight 4 (fmtD m.msgId) ++ " ".toList ++ fmtAltX m.msgId ++ ")".toList)
      (by
        have h1 := h.name.2
        have h2 := fmtD_length m.msgId
        have h3 := altX_length h.id
        unfold padRight
        generalize fmtD m.msgId = a at h2
        generalize fmtAltX m.msgId = b at h3
        simp only [List.length_append, String.reduceToList, List.length_cons, List.length_nil, List.length_replicate]
        omega) hp.parts.1 hp.parts.2
    have e : "// def @".toList = '/' :: '/' :: " def @".toList := rfl
    rw [e]
    exact this
  have l64 : ∀ n, n < 2 ^ 64 → (decStr n ++ "U".toList).length ≤ 1000 := fun n hn => decStr_len64 hn
  have lx : (fmtAltX m.msgId ++ "U".toList).length ≤ 1000 := by
    rw [List.length_append]
    have := altX_length h.id
    generalize fmtAltX m.msgId = b at this
    simp only [String.reduceToList, List.length_cons, List.length_nil]
    omega
  have n1 := hn "_IDE" (by decide) (by decide)
  have n2 := hn "_DLC" (by decide) (by decide)
  have n3 := hn "_CANID" (by decide) (by decide)
  have n4 := hn "_CYC" (by decide) (by decide)
  unfold msgConstOps msgDefs
  refine HP.append (k := []) (l := []) ?_ ?_
  · refine HP.pres hcm (HP.pre hdef ?_)
    refine HP.cons (k := []) (l := []) (ds := [_]) (HP.num n1.1 (by omega) (numW_decStrU _).word (l64 _ h.ide) ?_)
      (HP.cons (k := []) (l := []) (ds := [_]) (HP.num n2.1 (by omega) (numW_decStrU _).word (l64 _ h.dlc) ?_)
        (HP.num n3.1 (by omega) (numW_altX _).word lx ?_))
    all_goals simp only [String.reduceToList, List.append_assoc, List.cons_append, List.nil_append]
  · split
    · refine (HP.obj (n := m.name ++ "_CYC".toList) (r := "(".toList ++ fmtD m.cycle ++ "U)".toList) n4.1 (by omega)
        (((plain_lit (by decide)).append (plain_fmtDAll _)).append (plain_lit (by decide))) ?_ ?_).eqD ?_
      · have := fmtD_length m.cycle
        generalize fmtD m.cycle = b at this
        simp only [List.length_append, String.reduceToList, List.length_cons, List.length_nil]
        omega
      · simp only [String.reduceToList, List.append_assoc, List.cons_append, List.nil_append]
      · rfl
    · exact HP.nil

/-! ### Value tables -/

/-- Name of a value macro. -/
def valName (m : Msg) (s : Sig) (v : Str) : Str := s.name ++ "_".toList ++ m.name ++ "_".toList ++ v

/-- The macros of a value table. -/
def valMacros (m : Msg) (s : Sig) : List DefE :=
  s.valDefs.vpairs.map fun v => ⟨true, valName m s v.1, .obj (lex (" (".toList ++ fmtD v.2 ++ ")".toList))⟩

/-- Names of values are made of word characters. -/
def ValsText (s : Sig) : Prop := ∀ v ∈ s.valDefs.vpairs, (∀ c ∈ v.1, isWordCh c = true) ∧ v.1.length ≤ 1000

theorem val_read {m : Msg} {s : Sig} (hm : IsIdent m.name ∧ m.name.length ≤ 500) (hs : IsIdent s.name ∧ s.name.length ≤ 500) {v : Str × Nat}
    (hv : (∀ c ∈ v.1, isWordCh c = true) ∧ v.1.length ≤ 1000) :
    HP files D0 E [opIfndef (strPrint (s.name ++ "_".toList ++ m.name ++ "_".toList ++ v.1)),
       .appendF ("#define ".toList ++ s.name ++ "_".toList ++ m.name ++ "_".toList ++ v.1 ++ " (".toList ++ fmtD v.2 ++ ")".toList),
       opLine "#endif", opEmpty] [⟨true, valName m s v.1, .obj (lex (" (".toList ++ fmtD v.2 ++ ")".toList))⟩] [] := by
  obtain ⟨v1, v2⟩ := hv
  have hid : IsIdent (valName m s v.1) :=
    isIdent_word (isIdent_word (isIdent_word (isIdent_word hs.1 (by decide)) (isWord_ident hm.1)) (by decide)) v1
  have hl : (valName m s v.1).length ≤ 2002 := by
    have := hs.2
    have := hm.2
    unfold valName
    simp only [List.length_append, String.reduceToList, List.length_cons, List.length_nil]
    omega
  have hpn : PlainT (valName m s v.1) := plainT_word (isWord_ident hid)
  have hs2 : strPrint (s.name ++ "_".toList ++ m.name ++ "_".toList ++ v.1) = valName m s v.1 := by
    have e : s.name ++ "_".toList ++ m.name ++ "_".toList ++ v.1 = valName m s v.1 := rfl
    rw [e]
    exact strPrint_short (by omega)
  have et : "#define ".toList ++ s.name ++ "_".toList ++ m.name ++ "_".toList ++ v.1 ++ " (".toList ++ fmtD v.2 ++ ")".toList =
      "#define ".toList ++ (valName m s v.1 ++ ' ' :: ("(".toList ++ fmtD v.2 ++ ")".toList)) := by
    unfold valName
    simp only [String.reduceToList, List.append_assoc, List.cons_append, List.nil_append]
  have el : lex (" (".toList ++ fmtD v.2 ++ ")".toList) = lex (' ' :: ("(".toList ++ fmtD v.2 ++ ")".toList)) := rfl
  rw [hs2, et, el]
  have hr : PlainT ("(".toList ++ fmtD v.2 ++ ")".toList) := ((plain_lit (by decide)).append (plain_fmtDAll _)).append (plain_lit (by decide))
  have hrl : ("(".toList ++ fmtD v.2 ++ ")".toList).length ≤ 20 := by
    have := fmtD_length v.2
    generalize fmtD v.2 = b at this
    simp only [List.length_append, String.reduceToList, List.length_cons, List.length_nil]
    omega
  generalize "(".toList ++ fmtD v.2 ++ ")".toList = r at hr hrl ⊢
  generalize valName m s v.1 = n at hid hl hpn ⊢
  have o : OL [.appendF ("#define ".toList ++ (n ++ ' ' :: r))] ["#define ".toList ++ (n ++ ' ' :: r)] :=
    ol_plain ((plain_lit (by decide)).append (hpn.append (PlainT.append (a := [' ']) (by decide) hr)))
      (length_lit_append (k := 9000) _ (by decide) (by rw [List.length_append, List.length_cons]; omega) (by omega))
  have d : defOf (' ' :: (n ++ ' ' :: r)) = some (n, .obj (lex (' ' :: r))) :=
    defOf_obj hid (by intro c q e; injection e with e1 e2; subst e1; decide)
  have hg := HP.guarded (files := files) (D0 := D0) (E := E) (words_of_ident hid) (by omega) (c := []) (fun D => Gen.nil) o d closeOp_plain
  have he : HP files D0 E [opEmpty] [] [] := HP.quiet fun D _ _ => Gen.empty
  exact hg.append he

theorem valHead_read {n : Str} (hs : IsIdent n ∧ n.length ≤ 500) (D : Defs) : Gen files [.appendF ("\n// Value tables for @".toList ++ n ++ " signal".toList)] D D [] := by
  have e : "\n// Value tables for @".toList ++ n ++ " signal".toList = [] ++ '\n' :: '/' :: '/' :: (" Value tables for @".toList ++ n ++ " signal".toList) := by
    simp only [String.reduceToList, List.append_assoc, List.cons_append, List.nil_append]
  rw [e]
  have hp : PlainT (" Value tables for @".toList ++ n ++ " signal".toList) :=
    ((plain_lit (by decide)).append (plainT_word (isWord_ident hs.1))).append (plain_lit (by decide))
  have hlen : (" Value tables for @".toList ++ n ++ " signal".toList).length ≤ 1000 := by
    have := hs.2
    simp only [List.length_append, String.reduceToList, List.length_cons, List.length_nil]
    omega
  generalize " Value tables for @".toList ++ n ++ " signal".toList = c at hp hlen
  have h1 : Gen files [.appendF []] D D [] := Gen.silent (ol_plain plainT_nil (by decide)) Run.empty
  have h2 := Gen.comment (files := files) (D := D) (c := c) (by omega) hp.parts.1 hp.parts.2
  exact h1.nl h2 (by simp) (by simp) (by simp only [List.nil_append, List.length_cons]; omega)

theorem valTable_read {m : Msg} {s : Sig} (hm : IsIdent m.name ∧ m.name.length ≤ 500) (hs : IsIdent s.name ∧ s.name.length ≤ 500) (hv : ValsText s) :
    HP files D0 E (valTableOps m s) (valMacros m s) [] := by
  unfold valTableOps valMacros
  split
  case isFalse h =>
    have : s.valDefs.vpairs = [] := List.eq_nil_of_length_eq_zero (by omega)
    rw [this]
    exact HP.nil
  refine HP.pres (fun D => (valHead_read hs D).append Gen.empty) ?_
  have e : s.valDefs.vpairs.map (fun v => (⟨true, valName m s v.1, .obj (lex (" (".toList ++ fmtD v.2 ++ ")".toList))⟩ : DefE)) =
      s.valDefs.vpairs.flatMap fun v => [⟨true, valName m s v.1, .obj (lex (" (".toList ++ fmtD v.2 ++ ")".toList))⟩] := by
    rw [List.map_eq_flatMap]
  have ei : ([] : List Spec.Item) = s.valDefs.vpairs.flatMap (fun _ => ([] : List Spec.Item)) := by
    rw [List.flatMap_eq_nil_iff.2 fun _ _ => rfl]
  rw [e, ei]
  exact HP.flatMap fun v hvm => val_read hm hs (hv v hvm)

/-! ### Macros of the signals -/

/-- A conversion macro is printed for the signal. -/
def convNew (s : Sig) (seen : List Str) : Bool := !s.isSimple && !seen.contains s.name

def convAfter (s : Sig) (seen : List Str) : List Str := if convNew s seen then seen ++ [s.name] else seen

/-- The macros printed in front of a struct. -/
def sigDefs (g : GenDesc) (m : Msg) : List Sig → List Str → List DefE
  | [], _ => []
  | s :: r, seen => (if convNew s seen then convDefs g s else []) ++ valMacros m s ++ sigDefs g m r (convAfter s seen)

def seenAfter : List Sig → List Str → List Str
  | [], seen => seen
  | s :: r, seen => seenAfter r (convAfter s seen)

theorem sigMacro_read (hd : IsIdent g.drvUp ∧ g.drvUp.length ≤ 500) {m : Msg} (hm : IsIdent m.name ∧ m.name.length ≤ 500) {l : List Sig} {seen : List Str}
    {r : List WOp × List Str} (hl : ∀ s ∈ l, ConvOk s ∧ ValsText s) (h : sigMacroOps g m l seen = some r) :
    HP files D0 E r.1 (sigDefs g m l seen) [] ∧ r.2 = seenAfter l seen := by
  induction l generalizing seen r with
  | nil =>
    rw [sigMacroOps] at h
    injection h with h
    subst h
    exact ⟨HP.nil, rfl⟩
  | cons s l ih =>
    rw [sigMacroOps] at h
    obtain ⟨c, hc, h⟩ := Option.bind_eq_some_iff.1 h
    obtain ⟨q, hq, h⟩ := Option.map_eq_some_iff.1 h
    subst h
    obtain ⟨hs1, hs2⟩ := hl s (by simp)
    have h1 : HP files D0 E c.1 (if convNew s seen then convDefs g s else []) [] ∧ c.2 = convAfter s seen := by
      unfold convMacroOps at hc
      unfold convAfter convNew
      split at hc
      · rename_i hn
        obtain ⟨t, ht, hc⟩ := Option.map_eq_some_iff.1 hc
        subst hc
        rw [if_pos hn, if_pos hn]
        exact ⟨conv_read hd hs1 ht, rfl⟩
      · rename_i hn
        injection hc with hc
        subst hc
        rw [if_neg hn, if_neg hn]
        exact ⟨HP.nil, rfl⟩
    rw [h1.2] at hq
    obtain ⟨h2, h3⟩ := ih (fun x hx => hl x (by simp [hx])) hq
    exact ⟨(h1.1.append (valTable_read hm hs1.name hs2)).append h2, h3⟩

end Verif
