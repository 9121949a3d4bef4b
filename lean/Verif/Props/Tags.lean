import Verif.Props.Statements
import Verif.Props.Types
import Verif.Spec.Signals
/-
C50, C52: tags in signal comments; what the generator may rely on after parsing.
-/
namespace Verif
open Spec

/-! ### Finding the tags -/

theorem hasSub_append (p a b : Str) : hasSub p (a ++ (p ++ b)) = true := by
  induction a with
  | nil =>
    rw [List.nil_append]
    cases h : p ++ b with
    | nil =>
      have : p = [] := (List.append_eq_nil_iff.mp h).1
      rw [this]; rfl
    | cons c cs =>
      rw [hasSub, ← h, List.isPrefixOf_iff_prefix.mpr (List.prefix_append _ _), Bool.true_or]
  | cons c a ih => rw [List.cons_append, hasSub, ih, Bool.or_true]

theorem hasSub_iff (p s : Str) : hasSub p s = true ↔ ∃ a b, s = a ++ (p ++ b) := by
  constructor
  · induction s with
    | nil =>
      intro h
      have : p = [] := by simpa [hasSub] using h
      exact ⟨[], [], by rw [this]; rfl⟩
    | cons c s ih =>
      intro h
      rw [hasSub, Bool.or_eq_true] at h
      rcases h with h | h
      · obtain ⟨b, e⟩ := List.isPrefixOf_iff_prefix.mp h
        exact ⟨[], b, e.symm⟩
      · obtain ⟨a, b, e⟩ := ih h
        exact ⟨c :: a, b, by rw [e]; rfl⟩
  · rintro ⟨a, b, rfl⟩
    exact hasSub_append p a b

theorem findIdx_skip {c : Char} {a b : Str} (h : c ∉ a) : (a ++ c :: b).findIdx? (· == c) = some a.length := by
  induction a with
  | nil => rw [List.nil_append, List.findIdx?_cons, if_pos (by simp)]; rfl
  | cons x a ih =>
    have hx : (x == c) = false := by
      cases hb : x == c with
      | false => rfl
      | true => exact absurd (by simp [beq_iff_eq.mp hb]) h
    rw [List.cons_append, List.findIdx?_cons, if_neg (by rw [hx]; decide), ih (fun hm => h (by simp [hm]))]
    rfl

theorem first_of_mem {c : Char} {t : Str} (h : c ∈ t) : ∃ a b, t = a ++ c :: b ∧ c ∉ a := by
  induction t with
  | nil => cases h
  | cons x t ih =>
    by_cases hx : x = c
    · exact ⟨[], t, by rw [hx]; rfl, by simp⟩
    · obtain ⟨a, b, e, hn⟩ := ih (by
        rcases List.mem_cons.mp h with h | h
        · exact absurd h.symm hx
        · exact h)
      exact ⟨x :: a, b, by rw [e]; rfl, by simp [hn, Ne.symm hx]⟩

/-- What the scanner looks at behind the tag. -/
theorem csmTag_split (P : Platform) (pre method rest : Str) (op : Nat) (hpre : '<' ∉ pre) (hm : ':' ∉ method) (hm2 : '>' ∉ method)
    (hop : op < 2 ^ 31) :
    csmTag P (pre ++ (csmText method op ++ rest)) =
      if ':' ∈ (('>' :: rest).take pre.length).dropLast then none else some (method, op) := by
  have hdec : ∀ c ∈ decStr op, c ≠ ':' ∧ c ≠ '>' := by
    intro c hc
    have := decStr_word op c hc
    constructor <;> (rintro rfl; revert this; decide)
  have e0 : pre ++ (csmText method op ++ rest) =
      pre ++ '<' :: (("Checksum:".toList ++ (method ++ ':' :: decStr op)) ++ '>' :: rest) := by
    unfold csmText; simp
  rw [e0]
  generalize hbody : "Checksum:".toList ++ (method ++ ':' :: decStr op) = body
  have hgt : '>' ∉ '<' :: body := by
    rw [← hbody]
    simp only [List.mem_append, List.mem_cons, not_or]
    exact ⟨by decide, by decide, hm2, by decide, fun h => (hdec _ h).2 rfl⟩
  unfold csmTag
  rw [findIdx_skip hpre]
  dsimp only
  rw [List.drop_left, show '<' :: (body ++ '>' :: rest) = ('<' :: body) ++ '>' :: rest from rfl, findIdx_skip hgt]
  dsimp only
  have hlen : 9 ≤ body.length := by
    rw [← hbody]; simp
  rw [if_pos (by rw [List.length_cons]; omega)]
  have hd : (pre ++ (('<' :: body) ++ '>' :: rest)).drop (pre.length + 1) = body ++ '>' :: rest := by
    rw [← List.drop_drop, List.drop_left]
    rfl
  rw [hd]
  have ht : (body ++ '>' :: rest).take (pre.length + ('<' :: body).length - 1) = body ++ ('>' :: rest).take pre.length := by
    rw [List.length_cons, show pre.length + (body.length + 1) - 1 = body.length + pre.length by omega, List.take_append,
      List.take_of_length_le (by omega)]
    congr 2
    omega
  rw [ht]
  -- the pieces
  have hpc : ∀ s : Str, ':' ∉ s → ∀ c ∈ s, (c == ':') = false := by
    intro s h c hc
    cases hb : c == ':' with
    | false => rfl
    | true => rw [beq_iff_eq.mp hb] at hc; exact absurd hc h
  have hsplit : ∀ t, resplit mColonChar (body ++ t) = "Checksum".toList :: method :: restSplit mColonChar (decStr op ++ t) := by
    intro t
    have e1 : body ++ t = "Checksum".toList ++ ':' :: (method ++ ':' :: (decStr op ++ t)) := by
      rw [← hbody]; simp
    rw [e1]
    unfold mColonChar
    rw [resplit_one (by decide) (by decide), restSplit_one (hpc _ hm) (by decide)]
  have hne : decStr op ≠ [] := (decStr_spec op).1
  rw [hsplit]
  have hg : ∀ c t', ('>' :: rest).take pre.length = c :: t' → ¬ IsDigit c := by
    intro c t' e
    cases hn : pre.length with
    | zero => rw [hn] at e; cases e
    | succ n =>
      rw [hn] at e
      cases e
      decide
  generalize ('>' :: rest).take pre.length = t at hg
  have ha : ∀ a, (∃ b, t = a ++ b) → atoi P (decStr op ++ a) = op := by
    rintro a ⟨b, rfl⟩
    unfold atoi
    rw [intPrefix_nat op a (fun c t' e => hg c (t' ++ b) (by rw [e]; rfl)), if_pos (by omega)]
  have hdone : ∀ a, (∃ b, t = a ++ b) → (if ["Checksum".toList, method, decStr op ++ a].length = 3 ∧
      ["Checksum".toList, method, decStr op ++ a].getD 0 [] = "Checksum".toList then
      some (["Checksum".toList, method, decStr op ++ a].getD 1 [], toU32 (atoi P (["Checksum".toList, method, decStr op ++ a].getD 2 [])))
      else none) = some (method, op) := by
    intro a hab
    rw [if_pos ⟨rfl, rfl⟩]
    simp only [List.getD_cons_succ, List.getD_cons_zero, ha a hab, toU32_nat]
    rw [Nat.mod_eq_of_lt (by omega)]
  have hclean : ∀ a, ':' ∉ a → ∀ c ∈ decStr op ++ a, (c == ':') = false := by
    intro a hna c hcm
    rcases List.mem_append.mp hcm with h | h
    · exact hpc _ (fun hh => (hdec _ hh).1 rfl) c h
    · exact hpc _ hna c h
  by_cases hin : ':' ∈ t
  · obtain ⟨a, b, hab, hna⟩ := first_of_mem hin
    have hr : restSplit mColonChar (decStr op ++ t) = (decStr op ++ a) :: restSplit mColonChar b := by
      rw [hab, ← List.append_assoc]
      unfold mColonChar
      rw [restSplit_one (hclean a hna) (by decide)]
    rw [hr]
    cases b with
    | nil =>
      have hz : restSplit mColonChar [] = [] := rfl
      rw [hz, if_neg (show ¬ ':' ∈ t.dropLast by rw [hab, List.dropLast_concat]; exact hna)]
      exact hdone a ⟨_, hab⟩
    | cons x b =>
      have hin' : ':' ∈ t.dropLast := by
        rw [hab, List.dropLast_append_of_ne_nil (by simp), List.dropLast_cons_of_ne_nil (by simp)]
        simp
      rw [if_pos hin', if_neg]
      rintro ⟨hl, -⟩
      have : restSplit mColonChar (x :: b) = [] := by
        simpa using hl
      have h2 : restSplit mColonChar (x :: b) = resplit mColonChar (x :: b) := rfl
      exact resplit_ne_nil _ _ (h2 ▸ this)
  · rw [if_neg (fun h => hin ((List.dropLast_prefix t).subset h))]
    unfold mColonChar
    rw [restSplit_one_last (by simp [hne]) (hclean t hin)]
    exact hdone t ⟨[], by simp⟩

/-! ### C52 -/

/-- A signal the checksum can be: simple, unsigned, and `boundaryOk`. -/
def csmAble (s : Sig) : Bool := s.isSimple && boundaryOk s && !s.signed

theorem sigComment_tags (P : Platform) (cm : Comment) (m : Msg) (i : Nat) :
    (sigComment P cm m i).rollSig =
      (if (∃ s, m.signals[i]? = some s ∧ Concerns cm.sigName s) ∧ hasSub rollText cm.text = true then some i else m.rollSig) ∧
    ((sigComment P cm m i).csmSig, (sigComment P cm m i).csmMethod, (sigComment P cm m i).csmOp) =
      match csmTag P cm.text with
      | some (mt, op) => if ∃ s, m.signals[i]? = some s ∧ Concerns cm.sigName s ∧ csmAble s = true then (some i, mt, op)
          else (m.csmSig, m.csmMethod, m.csmOp)
      | none => (m.csmSig, m.csmMethod, m.csmOp) := by
  unfold sigComment
  cases hi : m.signals[i]? with
  | none =>
    dsimp only
    refine ⟨by rw [if_neg (by rintro ⟨⟨s, h, -⟩, -⟩; cases h)], ?_⟩
    split
    · rw [if_neg (by rintro ⟨s, h, -⟩; cases h)]
    · rfl
  | some s =>
    dsimp only
    have hc : (cm.sigName = s.name ∨ cm.sigName ++ "_ro".toList = s.name) ↔ Concerns cm.sigName s := by
      unfold Concerns; constructor <;> rintro (h | h) <;> first | exact .inl h.symm | exact .inr h.symm
    have hex1 : (∃ s', some s = some s' ∧ Concerns cm.sigName s') ↔ Concerns cm.sigName s :=
      ⟨by rintro ⟨_, h, h'⟩; cases h; exact h', fun h => ⟨s, rfl, h⟩⟩
    have hex2 : (∃ s', some s = some s' ∧ Concerns cm.sigName s' ∧ csmAble s' = true) ↔ Concerns cm.sigName s ∧ csmAble s = true :=
      ⟨by rintro ⟨_, h, h'⟩; cases h; exact h', fun h => ⟨s, rfl, h⟩⟩
    simp only [hex1, hex2]
    by_cases hn : Concerns cm.sigName s
    · rw [if_pos (hc.mpr hn)]
      by_cases hr : hasSub "<RollingCounter>".toList cm.text = true
      · rw [if_pos hr, if_pos ⟨hn, hr⟩]
        cases csmTag P cm.text with
        | none => exact ⟨rfl, rfl⟩
        | some p =>
          by_cases hb : (s.isSimple && boundaryOk s && !s.signed) = true
          · dsimp only
            rw [if_pos hb, if_pos ⟨hn, hb⟩]
            exact ⟨rfl, rfl⟩
          · dsimp only
            rw [if_neg hb, if_neg (fun h => hb h.2)]
            exact ⟨rfl, rfl⟩
      · rw [if_neg hr, if_neg (fun h => hr h.2)]
        cases csmTag P cm.text with
        | none => exact ⟨rfl, rfl⟩
        | some p =>
          by_cases hb : (s.isSimple && boundaryOk s && !s.signed) = true
          · dsimp only
            rw [if_pos hb, if_pos ⟨hn, hb⟩]
            exact ⟨rfl, rfl⟩
          · dsimp only
            rw [if_neg hb, if_neg (fun h => hb h.2)]
            exact ⟨rfl, rfl⟩
    · rw [if_neg (fun h => hn (hc.mp h)), if_neg (fun h => hn h.1)]
      refine ⟨rfl, ?_⟩
      split
      · rw [if_neg (fun h => hn h.1)]
      · rfl

/-- The i-th signal is the one the comment names. -/
def Only (name : Str) (m : Msg) (i : Nat) : Prop :=
  i < m.signals.length ∧ ∀ j s, m.signals[j]? = some s → (Concerns name s ↔ j = i)

theorem comments_get_same (P : Platform) (cm : Comment) (m : Msg) (k j : Nat) (Q : Sig → Prop)
    (hQ : ∀ s t, Q { s with commentText := t } ↔ Q s) :
    (∃ s, ((List.range k).foldl (sigComment P cm) m).signals[j]? = some s ∧ Q s) ↔ ∃ s, m.signals[j]? = some s ∧ Q s := by
  rw [sigComments_get]
  split
  · cases m.signals[j]? with
    | none => simp
    | some s =>
      simp only [Option.map_some, Option.some.injEq, exists_eq_left']
      split
      · exact hQ s _
      · rfl
  · rfl

theorem applyComment_tags (P : Platform) (cm : Comment) (hc : cm.target = .signal) (m : Msg) (i : Nat) (ho : Only cm.sigName m i) :
    (applyComment P cm m).rollSig = (if hasSub rollText cm.text = true then some i else m.rollSig) ∧
    ((applyComment P cm m).csmSig, (applyComment P cm m).csmMethod, (applyComment P cm m).csmOp) =
      match csmTag P cm.text with
      | some (mt, op) => if ∃ s, m.signals[i]? = some s ∧ csmAble s = true then (some i, mt, op)
          else (m.csmSig, m.csmMethod, m.csmOp)
      | none => (m.csmSig, m.csmMethod, m.csmOp) := by
  have key : ∀ k, ((List.range k).foldl (sigComment P cm) m).rollSig =
        (if i < k ∧ hasSub rollText cm.text = true then some i else m.rollSig) ∧
      (((List.range k).foldl (sigComment P cm) m).csmSig, ((List.range k).foldl (sigComment P cm) m).csmMethod,
        ((List.range k).foldl (sigComment P cm) m).csmOp) =
      match csmTag P cm.text with
      | some (mt, op) => if i < k ∧ ∃ s, m.signals[i]? = some s ∧ csmAble s = true then (some i, mt, op)
          else (m.csmSig, m.csmMethod, m.csmOp)
      | none => (m.csmSig, m.csmMethod, m.csmOp) := by
    intro k
    induction k with
    | zero =>
      refine ⟨by rw [if_neg (by omega)]; rfl, ?_⟩
      split
      · rw [if_neg (by omega)]; rfl
      · rfl
    | succ k ih =>
      rw [List.range_succ, List.foldl_append, List.foldl_cons, List.foldl_nil]
      obtain ⟨t1, t2⟩ := sigComment_tags P cm ((List.range k).foldl (sigComment P cm) m) k
      rw [t1, t2, ih.1, ih.2]
      have e1 : (∃ s, ((List.range k).foldl (sigComment P cm) m).signals[k]? = some s ∧ Concerns cm.sigName s) ↔ k = i := by
        rw [comments_get_same P cm m k k (Concerns cm.sigName) (fun s t => Iff.rfl)]
        constructor
        · rintro ⟨s, hs, h⟩; exact (ho.2 k s hs).mp h
        · rintro rfl
          exact ⟨m.signals[k]'ho.1, List.getElem?_eq_getElem ho.1, (ho.2 k _ (List.getElem?_eq_getElem ho.1)).mpr rfl⟩
      have e2 : (∃ s, ((List.range k).foldl (sigComment P cm) m).signals[k]? = some s ∧ Concerns cm.sigName s ∧ csmAble s = true) ↔
          k = i ∧ ∃ s, m.signals[i]? = some s ∧ csmAble s = true := by
        rw [comments_get_same P cm m k k (fun s => Concerns cm.sigName s ∧ csmAble s = true) (fun s t => Iff.rfl)]
        constructor
        · rintro ⟨s, hs, h, h'⟩
          have := (ho.2 k s hs).mp h
          subst this
          exact ⟨rfl, s, hs, h'⟩
        · rintro ⟨rfl, s, hs, h'⟩
          exact ⟨s, hs, (ho.2 k s hs).mpr rfl, h'⟩
      simp only [e1, e2]
      have hlt : i < k + 1 ↔ k = i ∨ i < k := by omega
      constructor
      · by_cases hk : k = i
        · by_cases hr : hasSub rollText cm.text = true
          · rw [if_pos ⟨hk, hr⟩, if_pos ⟨by omega, hr⟩, hk]
          · rw [if_neg (fun h => hr h.2), if_neg (fun h => hr h.2), if_neg (fun h => hr h.2)]
        · rw [if_neg (fun h => hk h.1)]
          simp only [hlt, hk, false_or]
      · split
        · dsimp only
          by_cases hk : k = i
          · by_cases hr : ∃ s, m.signals[i]? = some s ∧ csmAble s = true
            · rw [if_pos ⟨hk, hr⟩, if_pos ⟨by omega, hr⟩, hk]
            · rw [if_neg (fun h => hr h.2), if_neg (fun h => hr h.2), if_neg (fun h => hr h.2)]
          · rw [if_neg (fun h => hk h.1)]
            simp only [hlt, hk, false_or]
        · rfl
  unfold applyComment
  rw [hc]
  dsimp only
  obtain ⟨k1, k2⟩ := key m.signals.length
  rw [k1, k2]
  simp only [ho.1, true_and, and_self]

/-- All bits of the signal are in one byte. -/
def OneByte (s : Sig) : Prop := ∀ k, k < s.lengthBit → s.pos k / 8 = s.startBit / 8

theorem iter_motorola_down (j p : Nat) (h : j ≤ p % 8) : iter motorolaNext j p = p - j := by
  induction j generalizing p with
  | zero => rfl
  | succ j ih =>
    have h8 : ¬ p % 8 = 0 := by omega
    rw [iter, motorolaNext, if_neg h8, ih (p - 1) (by omega)]
    omega

theorem iter_motorola_leave (p : Nat) : iter motorolaNext (p % 8 + 1) p / 8 = p / 8 + 1 := by
  have h : ∀ j p, iter motorolaNext (j + 1) p = motorolaNext (iter motorolaNext j p) := by
    intro j
    induction j with
    | zero => intro p; rfl
    | succ j ih => intro p; rw [iter, ih]; rfl
  rw [h, iter_motorola_down _ _ (Nat.le_refl _), motorolaNext]
  rw [if_pos (by omega)]
  omega

/-- `boundaryOk` says that the signal is in one byte. -/
theorem boundaryOk_iff (s : Sig) (hs : s.startBit < 2 ^ 32) (h1 : 1 ≤ s.lengthBit) (h2 : s.lengthBit ≤ 64) :
    boundaryOk s = true ↔ OneByte s := by
  unfold boundaryOk OneByte Sig.pos Sig.intel
  cases ho : s.order with
  | intel =>
    simp only [beq_iff_eq, bitPos, BEq.rfl, if_true]
    constructor
    · intro h k hk
      omega
    · intro h
      have := h (s.lengthBit - 1) (by omega)
      omega
  | motorolla =>
    simp only [beq_iff_eq, bitPos, show (BitLayout.motorolla == BitLayout.intel) = false from rfl, Bool.false_eq_true, if_false]
    constructor
    · intro h k hk
      have hle : s.lengthBit ≤ s.startBit % 8 + 1 := by omega
      rw [iter_motorola_down _ _ (by omega)]
      omega
    · intro h
      have hle : s.lengthBit ≤ s.startBit % 8 + 1 := by
        apply Classical.byContradiction
        intro hn
        have := h (s.lengthBit - 1 - (s.startBit % 8 + 1)) (by omega)
        rw [show s.lengthBit - 1 - (s.lengthBit - 1 - (s.startBit % 8 + 1)) = s.startBit % 8 + 1 by omega, iter_motorola_leave] at this
        omega
      omega

/-- The line of a signal comment for a known id. -/
theorem sigComment_line (P : Platform) (st : Scan2) (hq : st.Quiet) (id : Nat) (ext : Bool) (name t : Str)
    (hid : id < 2 ^ 29) (hn : IsWordStr name) (ht : '"' ∉ t) (hlf : t.getLast? ≠ some '\n') (hk : Known st.msgs id) :
    (scanLine2 P st (sigCommentText (fileId id ext) name t)).msgs =
      onFirst id (applyComment P { msgId := id, sigName := name, target := .signal, text := t }) st.msgs := by
  obtain ⟨-, h2⟩ := scan_one P .comment _ st hq (sigComment_ok (fileId id ext) name t)
  refine h2.trans ?_
  obtain ⟨e1, e2⟩ := fileId_mod hid ext
  have hd : dropLastLf t = t := by unfold dropLastLf; rw [if_neg hlf]
  unfold stmtEffect
  dsimp only
  rw [finish_sigComment P _ _ name t e2 hn ht, e1, hd]
  exact updMessage_known _ hk

/-- **C52**, rolling counter: the signal of the comment becomes the rolling counter if the comment
contains the tag, otherwise the rolling counter stays. -/
theorem C52_roll (P : Platform) (st : Scan2) (hq : st.Quiet) (id : Nat) (ext : Bool) (name t : Str)
    (hid : id < 2 ^ 29) (hn : IsWordStr name) (ht : '"' ∉ t) (hlf : t.getLast? ≠ some '\n') (hk : Known st.msgs id) :
    ∃ f, (scanLine2 P st (sigCommentText (fileId id ext) name t)).msgs = onFirst id f st.msgs ∧
      ∀ m i, Only name m i →
        ((∃ a b, t = a ++ (rollText ++ b)) → (f m).rollSig = some i) ∧
        ((¬ ∃ a b, t = a ++ (rollText ++ b)) → (f m).rollSig = m.rollSig) := by
  refine ⟨_, sigComment_line P st hq id ext name t hid hn ht hlf hk, fun m i ho => ?_⟩
  rw [(applyComment_tags P _ rfl m i ho).1, ← hasSub_iff]
  exact ⟨fun h => if_pos h, fun h => if_neg h⟩

/-- **C52**, checksum (partial: nothing with `<` before the tag, no colon in the characters behind it
that the scanner looks at): a simple unsigned signal in one byte becomes the checksum. -/
theorem C52_checksum_partial (P : Platform) (st : Scan2) (hq : st.Quiet) (id : Nat) (ext : Bool) (name pre method rest : Str) (op : Nat)
    (hid : id < 2 ^ 29) (hn : IsWordStr name) (ht : '"' ∉ pre ++ (csmText method op ++ rest))
    (hlf : (pre ++ (csmText method op ++ rest)).getLast? ≠ some '\n') (hk : Known st.msgs id)
    (hpre : '<' ∉ pre) (hm : ':' ∉ method) (hm2 : '>' ∉ method) (hop : op < 2 ^ 31)
    (hcol : ':' ∉ (('>' :: rest).take pre.length).dropLast) :
    ∃ f, (scanLine2 P st (sigCommentText (fileId id ext) name (pre ++ (csmText method op ++ rest)))).msgs = onFirst id f st.msgs ∧
      ∀ m i s, Only name m i → m.signals[i]? = some s →
        s.isSimple = true → s.signed = false → s.startBit < 2 ^ 32 → 1 ≤ s.lengthBit → s.lengthBit ≤ 64 → OneByte s →
        (f m).csmSig = some i ∧ (f m).csmMethod = method ∧ (f m).csmOp = op := by
  refine ⟨_, sigComment_line P st hq id ext name _ hid hn ht hlf hk, fun m i s ho hs h1 h2 h3 h4 h5 h6 => ?_⟩
  have h := (applyComment_tags P { msgId := id, sigName := name, target := .signal, text := pre ++ (csmText method op ++ rest) } rfl m i ho).2
  dsimp only at h
  rw [csmTag_split P pre method rest op hpre hm hm2 hop, if_neg hcol] at h
  dsimp only at h
  rw [if_pos ⟨s, hs, by
    unfold csmAble
    rw [h1, h2, (boundaryOk_iff s h3 h4 h5).mpr h6]
    rfl⟩] at h
  injection h with a b
  injection b with b c
  exact ⟨a, b, c⟩

theorem mem_of_findIdx {c : Char} {t : Str} {i : Nat} (h : t.findIdx? (· == c) = some i) : c ∈ t := by
  rw [List.findIdx?_eq_some_iff_getElem] at h
  obtain ⟨hi, hp, -⟩ := h
  have : t[i] = c := by simpa using hp
  rw [← this]
  exact List.getElem_mem hi

theorem prefix_before {c : Char} {kw y z : Str} (h : kw <+: y ++ c :: z) (hc : c ∉ kw) : kw <+: y := by
  have h2 : y ++ [c] <+: y ++ c :: z := ⟨z, by simp⟩
  rcases List.prefix_or_prefix_of_prefix h h2 with h3 | h3
  · rcases List.prefix_concat_iff.mp h3 with h4 | h4
    · rw [h4] at hc; simp at hc
    · exact h4
  · exact absurd (h3.subset (by simp)) hc

/-- A recognised tag is there. -/
theorem csmTag_shape {P : Platform} {t : Str} {r : Str × Nat} (h : csmTag P t = some r) :
    ∃ a b c, t = a ++ '<' :: ("Checksum:".toList ++ b) ++ '>' :: c := by
  unfold csmTag at h
  cases h1 : t.findIdx? (· == '<') with
  | none => rw [h1] at h; cases h
  | some i =>
    obtain ⟨a, u, rfl, hna⟩ := first_of_mem (mem_of_findIdx h1)
    rw [findIdx_skip hna] at h
    dsimp only at h
    rw [List.drop_left] at h
    cases h2 : ('<' :: u).findIdx? (· == '>') with
    | none => rw [h2] at h; cases h
    | some k =>
      have hin := mem_of_findIdx h2
      have hin' : '>' ∈ u := by
        rcases List.mem_cons.mp hin with h | h
        · exact absurd h (by decide)
        · exact h
      obtain ⟨y, c, rfl, hny⟩ := first_of_mem hin'
      rw [show '<' :: (y ++ '>' :: c) = ('<' :: y) ++ '>' :: c from rfl, findIdx_skip (by simp [hny])] at h
      dsimp only at h
      split at h
      · split at h
        · rename_i hl
          have hd : (a ++ (('<' :: y) ++ '>' :: c)).drop (a.length + 1) = y ++ '>' :: c := by
            rw [← List.drop_drop, List.drop_left]
            rfl
          rw [hd] at hl
          have hkw : "Checksum:".toList <+: (y ++ '>' :: c).take (a.length + ('<' :: y).length - 1) := by
            generalize (y ++ '>' :: c).take (a.length + ('<' :: y).length - 1) = w at hl
            by_cases hu : ':' ∈ w
            · obtain ⟨x, b, hab, hnx⟩ := first_of_mem hu
              have hpc : ∀ c ∈ x, (c == ':') = false := by
                intro c hc
                cases hb : c == ':' with
                | false => rfl
                | true => rw [beq_iff_eq.mp hb] at hc; exact absurd hc hnx
              have e := hl.2
              rw [hab] at e
              unfold mColonChar at e
              rw [resplit_one hpc (by decide)] at e
              have e' : x = "Checksum".toList := e
              exact ⟨b, by rw [hab, e']; rfl⟩
            · exfalso
              have hpc : ∀ c ∈ w, (c == ':') = false := by
                intro c hc
                cases hb : c == ':' with
                | false => rfl
                | true => rw [beq_iff_eq.mp hb] at hc; exact absurd hc hu
              have e := hl.1
              unfold mColonChar at e
              rw [resplit_one_last hpc] at e
              cases e
          obtain ⟨b, hb⟩ := prefix_before (hkw.trans (List.take_prefix _ _)) (by decide)
          exact ⟨a, b, c, by rw [hb]; simp⟩
        · cases h
      · cases h

/-- **C52**, checksum: without a checksum tag, and for signals that are scaled, signed or not in one
byte, the checksum stays. -/
theorem C52_no_checksum (P : Platform) (st : Scan2) (hq : st.Quiet) (id : Nat) (ext : Bool) (name t : Str)
    (hid : id < 2 ^ 29) (hn : IsWordStr name) (ht : '"' ∉ t) (hlf : t.getLast? ≠ some '\n') (hk : Known st.msgs id) :
    ∃ f, (scanLine2 P st (sigCommentText (fileId id ext) name t)).msgs = onFirst id f st.msgs ∧
      ∀ m i s, Only name m i → m.signals[i]? = some s →
        ((¬ ∃ a b c, t = a ++ '<' :: ("Checksum:".toList ++ b) ++ '>' :: c) ∨ s.isSimple = false ∨ s.signed = true ∨
          (s.startBit < 2 ^ 32 ∧ 1 ≤ s.lengthBit ∧ s.lengthBit ≤ 64 ∧ ¬ OneByte s)) →
        (f m).csmSig = m.csmSig ∧ (f m).csmMethod = m.csmMethod ∧ (f m).csmOp = m.csmOp := by
  refine ⟨_, sigComment_line P st hq id ext name t hid hn ht hlf hk, fun m i s ho hs hno => ?_⟩
  have h := (applyComment_tags P { msgId := id, sigName := name, target := .signal, text := t } rfl m i ho).2
  dsimp only at h
  have h2 : (match csmTag P t with
      | some (mt, op) => if ∃ s, m.signals[i]? = some s ∧ csmAble s = true then (some i, mt, op)
          else (m.csmSig, m.csmMethod, m.csmOp)
      | none => (m.csmSig, m.csmMethod, m.csmOp)) = (m.csmSig, m.csmMethod, m.csmOp) := by
    split
    · rename_i mt op htag
      rw [if_neg]
      rintro ⟨s', hs', hab⟩
      rw [hs] at hs'
      cases hs'
      unfold csmAble at hab
      simp only [Bool.and_eq_true, Bool.not_eq_true'] at hab
      obtain ⟨⟨a1, a2⟩, a3⟩ := hab
      rcases hno with h | h | h | ⟨h3, h4, h5, h6⟩
      · exact h (csmTag_shape htag)
      · rw [h] at a1; cases a1
      · rw [h] at a3; cases a3
      · exact h6 ((boundaryOk_iff s h3 h4 h5).mp a2)
    · rfl
  rw [h2] at h
  injection h with a b
  injection b with b c
  exact ⟨a, b, c⟩

/-- Checksum and rolling counter of a file with one comment. -/
def tagPass (s : String) : Option (List (Option Nat × Option Nat × Str × Nat)) :=
  match trimDbcText plat ("BO_ 100 Motor: 8 ECU\n SG_ Cnt : 0|4@1+ (1,0) [0|15] \"\" Dash\n SG_ Crc : 8|8@1+ (1,0) [0|255] \"\" Dash\n" ++ s).toList with
  | .ok out => some (out.msgs.map fun m => (m.rollSig, m.csmSig, m.csmMethod, m.csmOp))
  | _ => none

example : tagPass "CM_ SG_ 100 Crc \"CRC <Checksum:crc8:7> of the frame\";\nCM_ SG_ 100 Cnt \"counts <RollingCounter>\";\n" =
    some [(some 0, some 1, "crc8".toList, 7)] := by decide +kernel

/-- **C52** is false: a colon behind the tag, or a `<` before it, and the tag is ignored. -/
theorem C52_refuted :
    tagPass "CM_ SG_ 100 Crc \"CRC <Checksum:crc8:7>: of the frame\";\n" = some [(none, none, [], 0)] ∧
    tagPass "CM_ SG_ 100 Crc \"a < b, <Checksum:crc8:7>\";\n" = some [(none, none, [], 0)] := by
  constructor <;> decide +kernel

/-- **C52**, exactly: a tag with nothing like a tag before it is recognised unless a colon follows in
as many characters (less two) as stand before the tag. -/
theorem C52_exact (P : Platform) (pre method rest : Str) (op : Nat) (hpre : '<' ∉ pre) (hm : ':' ∉ method) (hm2 : '>' ∉ method)
    (hop : op < 2 ^ 31) :
    csmTag P (pre ++ (csmText method op ++ rest)) = some (method, op) ↔ ':' ∉ (('>' :: rest).take pre.length).dropLast := by
  rw [csmTag_split P pre method rest op hpre hm hm2 hop]
  split
  · rename_i h; simp [h]
  · rename_i h; simp [h]

/-! ### C50 -/

/-- The signals of a parsed list come from signal lines. -/
theorem parsed_signal {P : Platform} (hs : SortsByStart P) {text : Str} {out : DbcList} (h : trimDbcText P text = .ok out) :
    ∀ m ∈ out.msgs, ∀ s ∈ m.signals, ∃ l s0, parseSignalLine P l = .ok (some s0) ∧ s.core = s0.core := by
  intro m hm s hsm
  have hF := C27_sections P hs text out h
  generalize ((sections (fileLines P text)).filter fun s => (parseMessageLine P s.1).isSome) = ss at hF
  have hex : ∀ (ss : List (Str × List Str)) (ms : List Msg), List.Forall₂ (FromSection P) ss ms → m ∈ ms → ∃ x, FromSection P x m := by
    intro ss ms hF hm
    induction hF with
    | nil => cases hm
    | cons h1 _ ih =>
      rcases List.mem_cons.mp hm with rfl | hm
      · exact ⟨_, h1⟩
      · exact ih hm
  obtain ⟨x, -, hperm, -⟩ := hex ss out.msgs hF hm
  have h1 : s.core ∈ m.signals.map Sig.core := List.mem_map_of_mem hsm
  rw [hperm.mem_iff] at h1
  obtain ⟨s0, h0, e⟩ := List.mem_map.mp h1
  unfold sectionSigs at h0
  obtain ⟨l, -, hl⟩ := List.mem_filterMap.mp h0
  refine ⟨l, s0, ?_, e.symm⟩
  revert hl
  cases parseSignalLine P l with
  | ub => intro h; cases h
  | throws => intro h; cases h
  | ok r => intro h; dsimp only at h; rw [h]

theorem sigOfValues_bounds (P : Platform) (n : Str) (mux : MultiplexType) (v : List Str) :
    (sigOfValues P n mux v).startBit < 2 ^ 32 ∧ (sigOfValues P n mux v).lengthBit < 2 ^ 8 := by
  unfold sigOfValues
  exact ⟨toU32_lt _, toU8_lt _⟩

theorem reject_else {c : Prop} [Decidable c] {x : Res (Option Sig)} {s : Sig}
    (h : (if c then .ok none else x) = .ok (some s)) : x = .ok (some s) := by
  by_cases hc : c
  · rw [if_pos hc] at h; cases h
  · rwa [if_neg hc] at h
theorem finish_shape {g : Option Sig} {c : Prop} [Decidable c] {u : Str} {r : List Str} {s : Sig}
    (h : (match g with
        | none => Res.ub
        | some s => if c then .ok (some { markSimple s with unit := u, recS := r }) else .ok none) = .ok (some s)) :
    ∃ s1, g = some s1 ∧ s = { markSimple s1 with unit := u, recS := r } := by
  cases g with
  | none => cases h
  | some s1 =>
    refine ⟨s1, rfl, ?_⟩
    dsimp only at h
    by_cases hc : c
    · rw [if_pos hc] at h; injection h with h; injection h with h; exact h.symm
    · rw [if_neg hc] at h; cases h

theorem parseSignalLine_shape {P : Platform} {l : Str} {s : Sig} (h : parseSignalLine P l = .ok (some s)) :
    ∃ n mux v s1 u r, getSigType P.toHost (sigOfValues P n mux v) = some s1 ∧ s = { markSimple s1 with unit := u, recS := r } := by
  unfold parseSignalLine at h
  obtain ⟨s1, hg, e⟩ := finish_shape (reject_else (reject_else (reject_else h)))
  exact ⟨_, _, _, s1, _, _, hg, e⟩

theorem markSimple_keeps (s : Sig) : (markSimple s).startBit = s.startBit ∧ (markSimple s).lengthBit = s.lengthBit ∧
    (markSimple s).typeRo = s.typeRo ∧ (markSimple s).signed = s.signed := by
  unfold markSimple
  split <;> exact ⟨rfl, rfl, rfl, rfl⟩

theorem parseSignalLine_place {P : Platform} {l : Str} {s : Sig} (h : parseSignalLine P l = .ok (some s)) :
    ∃ n mux v, s.startBit = (sigOfValues P n mux v).startBit ∧ s.lengthBit = (sigOfValues P n mux v).lengthBit := by
  obtain ⟨n, mux, v, s1, u, r, hg, e⟩ := parseSignalLine_shape h
  refine ⟨n, mux, v, ?_⟩
  generalize sigOfValues P n mux v = s2 at hg
  obtain ⟨mx, mn, ro, ph, _, e1, _⟩ := getSigType_fields hg
  obtain ⟨m1, m2, -, -⟩ := markSimple_keeps s1
  subst e
  dsimp only
  rw [m1, m2, e1]
  exact ⟨rfl, rfl⟩

theorem parseSignalLine_bounds {P : Platform} {l : Str} {s : Sig} (h : parseSignalLine P l = .ok (some s)) :
    s.startBit < 2 ^ 32 ∧ s.lengthBit < 2 ^ 8 := by
  obtain ⟨n, mux, v, e1, e2⟩ := parseSignalLine_place h
  rw [e1, e2]
  exact sigOfValues_bounds P n mux v

theorem parseSignalLine_type {P : Platform} {l : Str} {s : Sig} (h : parseSignalLine P l = .ok (some s)) (hc : P.charMax = 127)
    (hoob : ∀ v, P.oob = some v → 2 ^ 32 ≤ CTy.toU .u64 v) (h1 : 1 ≤ s.lengthBit) (h2 : s.lengthBit ≤ 64) : s.TypeOk := by
  obtain ⟨n, mux, v, s1, u, r, hg, rfl⟩ := parseSignalLine_shape h
  generalize sigOfValues P n mux v = s2 at hg
  obtain ⟨mx, mn, ro, ph, _, e, _⟩ := getSigType_fields hg
  obtain ⟨-, m2, m3, m4⟩ := markSimple_keeps s1
  dsimp only at h1 h2
  have e2 : s1.lengthBit = s2.lengthBit := by rw [e]
  rw [m2, e2] at h1 h2
  have := C12_typeOk P.toHost hc hoob _ _ h1 h2 hg
  unfold Sig.TypeOk at this ⊢
  dsimp only
  rw [m2, m3, m4]
  exact this

/-- **C50**, types: on the hosts of C12, the struct members of all parsed signals of 1 to 64 bits
can hold their raw values. -/
theorem C50_types (P : Platform) (hs : SortsByStart P) (hc : P.charMax = 127)
    (hoob : ∀ v, P.oob = some v → 2 ^ 32 ≤ CTy.toU .u64 v) (text : Str) (out : DbcList) (h : trimDbcText P text = .ok out) :
    ∀ m ∈ out.msgs, ∀ s ∈ m.signals, 1 ≤ s.lengthBit → s.lengthBit ≤ 64 → s.TypeOk := by
  intro m hm s hsm h1 h2
  obtain ⟨l, s0, hp, e⟩ := parsed_signal hs h m hm s hsm
  have el : s.lengthBit = s0.lengthBit := by have := congrArg Sig.lengthBit e; exact this
  have et : s.typeRo = s0.typeRo := by have := congrArg Sig.typeRo e; exact this
  have es : s.signed = s0.signed := by have := congrArg Sig.signed e; exact this
  have := parseSignalLine_type hp hc hoob (el ▸ h1) (el ▸ h2)
  unfold Sig.TypeOk at this ⊢
  rw [el, et, es]
  exact this

/-- Rolling counter and checksum of a message are signals of it, and the checksum is as the scanner wants it. -/
def TagInv (m : Msg) : Prop :=
  (∀ i, m.rollSig = some i → i < m.signals.length) ∧
  (∀ i, m.csmSig = some i → ∃ s, m.signals[i]? = some s ∧ csmAble s = true)

theorem sigComment_inv (P : Platform) (cm : Comment) (m : Msg) (i : Nat) (h : TagInv m) : TagInv (sigComment P cm m i) := by
  have hg := sigComment_get P cm m i
  have hlen : (sigComment P cm m i).signals.length = m.signals.length := by
    unfold sigComment
    split
    · rfl
    · split
      · dsimp only
        split <;> (try split) <;> (try split) <;> simp
      · rfl
  have hex : ∀ j : Nat, (∃ s, m.signals[j]? = some s ∧ csmAble s = true) → ∃ s, (sigComment P cm m i).signals[j]? = some s ∧ csmAble s = true := by
    rintro j ⟨s, hs, ha⟩
    rw [hg, hs]
    split
    · simp only [Option.map_some]
      split
      · exact ⟨_, rfl, ha⟩
      · exact ⟨_, rfl, ha⟩
    · exact ⟨_, rfl, ha⟩
  obtain ⟨t1, t2⟩ := sigComment_tags P cm m i
  constructor
  · intro j hj
    rw [hlen]
    rw [t1] at hj
    split at hj
    · rename_i hc
      obtain ⟨⟨s, hs, -⟩, -⟩ := hc
      cases hj
      exact (List.getElem?_eq_some_iff.mp hs).1
    · exact h.1 j hj
  · intro j hj
    apply hex
    have e := congrArg Prod.fst t2
    dsimp only at e
    rw [hj] at e
    split at e
    · split at e
      · rename_i hc
        obtain ⟨s, hs, -, ha⟩ := hc
        cases e
        exact ⟨s, hs, ha⟩
      · exact h.2 j e.symm
    · exact h.2 j e.symm

theorem applyComment_inv (P : Platform) (cm : Comment) (m : Msg) (h : TagInv m) : TagInv (applyComment P cm m) := by
  unfold applyComment
  split
  · exact h
  · generalize List.range m.signals.length = l
    induction l generalizing m with
    | nil => exact h
    | cons a l ih => exact ih _ (sigComment_inv P cm m a h)
  · exact h

theorem applyVal_inv (cm : Comment) (vt : ValTable) (m : Msg) (h : TagInv m) : TagInv (applyVal cm vt m) := by
  unfold applyVal
  constructor
  · intro i hi
    dsimp only
    rw [List.length_map]
    exact h.1 i hi
  · intro i hi
    obtain ⟨s, hs, ha⟩ := h.2 i hi
    dsimp only
    rw [List.getElem?_map, hs, Option.map_some]
    split
    · exact ⟨_, rfl, ha⟩
    · exact ⟨_, rfl, ha⟩

theorem inv_modify {I : Msg → Prop} {l : List Msg} {i : Nat} {f : Msg → Msg} (hf : ∀ m, I m → I (f m)) (h : ∀ m ∈ l, I m) :
    ∀ m ∈ l.modify i f, I m := by
  intro m hm
  obtain ⟨j, hj⟩ := List.getElem?_of_mem hm
  rw [List.getElem?_modify] at hj
  cases hg : l[j]? with
  | none => rw [hg] at hj; cases hj
  | some x =>
    rw [hg] at hj
    have hx := h x (List.mem_of_getElem? hg)
    split at hj
    · simp only [Option.map_eq_map, Option.map_some, Option.some.injEq] at hj
      rw [← hj]; exact hf x hx
    · simp only [Option.map_eq_map, Option.map_some, Option.some.injEq] at hj
      rw [← hj]; exact hx

theorem inv_upd {I : Msg → Prop} {l : List Msg} {id : Nat} {f : Msg → Msg} (hf : ∀ m, I m → I (f m)) (h : ∀ m ∈ l, I m) :
    ∀ m ∈ updMessage l id f, I m := by
  unfold updMessage
  split
  · exact inv_modify hf h
  · exact h

/-- Invariants of the messages in the second pass. -/
theorem inv_parseOtherInfo (P : Platform) (I : Msg → Prop) (h1 : ∀ cm m, I m → I (applyComment P cm m))
    (h2 : ∀ cm vt m, I m → I (applyVal cm vt m)) (h3 : ∀ (m : Msg) v, I m → I { m with cycle := v })
    (st : Scan2) (ls : List Str) (h : ∀ m ∈ st.msgs, I m) : ∀ m ∈ (parseOtherInfo P st ls).msgs, I m := by
  unfold parseOtherInfo
  induction ls generalizing st with
  | nil => exact h
  | cons l ls ih =>
    rw [List.foldl_cons]
    apply ih
    unfold scanLine2
    have e1 : ∀ m ∈ (commentStep P st (strTrim P.charMax l)).msgs, I m := by
      unfold commentStep
      split
      · exact inv_upd (h1 _) h
      · exact h
    generalize commentStep P st (strTrim P.charMax l) = st1 at e1
    have e2 : ∀ m ∈ (valueStep P st1 (strTrim P.charMax l)).msgs, I m := by
      unfold valueStep
      split
      · exact inv_upd (h2 _ _) e1
      · exact e1
    generalize valueStep P st1 (strTrim P.charMax l) = st2 at e2
    unfold attribStep
    split
    · exact inv_upd (fun m hm => h3 m _ hm) e2
    · exact e2

theorem foldl_addSignal_tags (m : Msg) (l : List Sig) : (l.foldl addSignal m).rollSig = m.rollSig ∧ (l.foldl addSignal m).csmSig = m.csmSig := by
  induction l generalizing m with
  | nil => exact ⟨rfl, rfl⟩
  | cons s l ih => rw [List.foldl_cons]; exact ih _

theorem parsed_inv {P : Platform} {text : Str} {out : DbcList} (h : trimDbcText P text = .ok out) : ∀ m ∈ out.msgs, TagInv m := by
  unfold trimDbcText parseMessageInfo at h
  cases hs : scanLines P { list := {} } (getLines text) with
  | ub => rw [hs] at h; cases h
  | throws => rw [hs] at h; cases h
  | ok st =>
    rw [hs] at h
    dsimp only at h
    cases h
    dsimp only
    apply inv_parseOtherInfo P TagInv (applyComment_inv P) applyVal_inv (fun m v h => h)
    intro m hm
    have hst := scanLines_msgs P _ _ _ hs
    have h1 : m.strip ∈ (st.finish P).map Msg.strip := List.mem_map_of_mem hm
    rw [hst] at h1
    have h2 : m.strip ∈ (sections ((getLines text).map (strTrim P.charMax))).filterMap (secMsg P) := by
      simpa [curMsg] using h1
    obtain ⟨s, -, h3⟩ := List.mem_filterMap.mp h2
    unfold secMsg at h3
    rw [Option.map_eq_some_iff] at h3
    obtain ⟨m0, hp, e⟩ := h3
    have hnone : m0.rollSig = none ∧ m0.csmSig = none := by
      unfold parseMessageLine at hp
      dsimp only at hp
      by_cases h1 : (resplit mMessage s.1).length < 5
      · rw [if_pos h1] at hp; cases hp
      · rw [if_neg h1] at hp
        split at hp
        · cases hp
        · cases hp; exact ⟨rfl, rfl⟩
    have hcl : ∀ x : Msg, (closeMessage P x).rollSig = x.rollSig ∧ (closeMessage P x).csmSig = x.csmSig := by
      intro x
      unfold closeMessage
      split <;> exact ⟨rfl, rfl⟩
    obtain ⟨f1, f2⟩ := foldl_addSignal_tags m0 (sectionSigs P s.1 s.2)
    obtain ⟨c1, c2⟩ := hcl ((sectionSigs P s.1 s.2).foldl addSignal m0)
    have e1 : m.rollSig = none := by
      have := congrArg Msg.rollSig e
      exact this.symm.trans (c1.trans (f1.trans hnone.1))
    have e2 : m.csmSig = none := by
      have := congrArg Msg.csmSig e
      exact this.symm.trans (c2.trans (f2.trans hnone.2))
    exact ⟨fun i hi => (by rw [e1] at hi; cases hi), fun i hi => (by rw [e2] at hi; cases hi)⟩

/-- **C50**, tags: in every parsed list the rolling counter and the checksum of a message are signals
of it, and the checksum signal is simple, unsigned and in one byte. -/
theorem C50_tags (P : Platform) (hs : SortsByStart P) (text : Str) (out : DbcList) (h : trimDbcText P text = .ok out) :
    ∀ m ∈ out.msgs,
      (∀ i, m.rollSig = some i → ∃ s, m.signals[i]? = some s) ∧
      (∀ i, m.csmSig = some i → ∃ s, m.signals[i]? = some s ∧ s.isSimple = true ∧ s.signed = false ∧
        (1 ≤ s.lengthBit → s.lengthBit ≤ 64 → OneByte s)) := by
  intro m hm
  obtain ⟨i1, i2⟩ := parsed_inv h m hm
  refine ⟨fun i hi => ⟨_, List.getElem?_eq_getElem (i1 i hi)⟩, fun i hi => ?_⟩
  obtain ⟨s, hsi, ha⟩ := i2 i hi
  unfold csmAble at ha
  simp only [Bool.and_eq_true, Bool.not_eq_true'] at ha
  refine ⟨s, hsi, ha.1.1, ha.2, fun h1 h2 => ?_⟩
  obtain ⟨l, s0, hp, e⟩ := parsed_signal hs h m hm s (List.mem_of_getElem? hsi)
  have eb : s.startBit = s0.startBit := by have := congrArg Sig.startBit e; exact this
  exact (boundaryOk_iff s (by rw [eb]; exact (parseSignalLine_bounds hp).1) h1 h2).mp ha.1.2

/-- **C50**: the conditions of the pack theorems on types and checksum hold for every parsed message
of up to eight bytes whose signals lie in the frame. -/
theorem C50_generator_conditions (P : Platform) (hs : SortsByStart P) (hc : P.charMax = 127)
    (hoob : ∀ v, P.oob = some v → 2 ^ 32 ≤ CTy.toU .u64 v) (text : Str) (out : DbcList) (h : trimDbcText P text = .ok out) :
    ∀ m ∈ out.msgs, MsgOk m → (∀ s ∈ m.signals, s.TypeOk) ∧
      (m.dlc ≤ 8 → ∀ s, m.sigAt m.csmSig = some s → s.isSimple = true ∧ s.inByte) := by
  intro m hm hok
  refine ⟨fun s hsm => ?_, fun h8 s hsa => ?_⟩
  · obtain ⟨h1, h2, -⟩ := hok.2 s hsm
    exact C50_types P hs hc hoob text out h m hm s hsm h1 h2
  · unfold Msg.sigAt at hsa
    cases hcs : m.csmSig with
    | none => rw [hcs] at hsa; cases hsa
    | some i =>
      rw [hcs] at hsa
      obtain ⟨s', hs', a1, -, a3⟩ := (C50_tags P hs text out h m hm).2 i hcs
      have hsa' : m.signals[i]? = some s := hsa
      rw [hsa'] at hs'
      cases hs'
      obtain ⟨h1, h2, h3⟩ := hok.2 s (List.mem_of_getElem? hsa')
      have ho := a3 h1 h2
      refine ⟨a1, s.startBit / 8, ?_, ho⟩
      have hf := h3 0 h1
      have h0 := ho 0 h1
      unfold Sig.pos at h0
      omega

/-- A message with a rolling counter and a checksum, in the order of the file. -/
def taggedText : Str := ("BO_ 100 Motor: 8 ECU\n SG_ Cnt : 0|4@1+ (1,0) [0|15] \"\" Dash\n SG_ Crc : 8|8@1+ (1,0) [0|255] \"\" Dash\n" ++
  "CM_ SG_ 100 Crc \"<Checksum:crc8:7>\";\nCM_ SG_ 100 Cnt \"<RollingCounter>\";\n").toList

/-- The hypotheses of C50 can be met. -/
example : SortsByStart platIns ∧ platIns.charMax = 127 ∧ platIns.oob = none ∧
    (match trimDbcText platIns taggedText with
      | .ok out => out.msgs.map fun m => (m.rollSig, m.csmSig, m.signals.map fun s => (s.startBit, s.lengthBit))
      | _ => []) = [(some 0, some 1, [(0, 4), (8, 8)])] := by
  refine ⟨platIns_sorts, rfl, rfl, ?_⟩
  decide +kernel

end Verif
