import Verif.Props.Parser
import Verif.Proofs.Tokens
import Verif.Props.Types
/-
C26: signal lines.
-/
namespace Verif
open Spec

/-- A blank of the DBC syntax. -/
def BlankCh (c : Char) : Prop := c = ' ' ∨ (9 ≤ c.toNat ∧ c.toNat ≤ 13)

/-- A text that can stand between quotes in a signal line: no quote, and no colon between blanks. -/
def UnitOk (u : Str) : Prop :=
  '"' ∉ u ∧ ∀ a x z b, u = a ++ x :: ':' :: z :: b → ¬ (BlankCh x ∧ BlankCh z)

theorem isWs_iff (c : Char) : isWs c = true ↔ BlankCh c := by
  unfold isWs BlankCh
  simp

theorem colonSep_unit {u : Str} (h : UnitOk u) : colonSep u = false := by
  cases hc : colonSep u with
  | false => rfl
  | true =>
    exfalso
    have key : ∀ u, colonSep u = true → ∃ a x z b, u = a ++ x :: ':' :: z :: b ∧ BlankCh x ∧ BlankCh z := by
      intro u
      induction u with
      | nil => intro h; cases h
      | cons x r ih =>
        intro h
        rw [colonSep, Bool.or_eq_true, Bool.and_eq_true] at h
        rcases h with ⟨hx, hn⟩ | h
        · unfold colonNext at hn
          cases r with
          | nil => cases hn
          | cons y r =>
            cases r with
            | nil => simp at hn
            | cons z r =>
              simp only [List.head?_cons, List.tail_cons, Option.any_some, Bool.and_eq_true, beq_iff_eq,
                Option.some.injEq] at hn
              obtain ⟨rfl, hz⟩ := hn
              exact ⟨[], x, z, r, rfl, (isWs_iff x).mp hx, (isWs_iff z).mp hz⟩
        · obtain ⟨a, x', z, b, e, h⟩ := ih h
          exact ⟨x :: a, x', z, b, by rw [e]; rfl, h⟩
    obtain ⟨a, x, z, b, e, hx⟩ := key u hc
    exact h.2 a x z b e hx

/-- Characters that do not separate values. -/
def valChar (c : Char) : Bool := isWord c || c == '.' || c == '+' || c == '-'

theorem valChar_decStr (n : Nat) : decStr n ≠ [] ∧ ∀ c ∈ decStr n, valChar c = true :=
  ⟨(decStr_spec n).1, fun c hc => by simp [valChar, decStr_word n c hc]⟩

theorem valChar_not_ws {c : Char} (h : valChar c = true) : isWs c = false := by
  cases hw : isWs c with
  | false => rfl
  | true =>
    exfalso
    rw [isWs_iff] at hw
    unfold valChar at h
    simp only [Bool.or_eq_true, isWord_iff, beq_iff_eq] at h
    unfold IsLetter IsDigit at h
    rcases hw with rfl | hw
    · rcases h with ((h | h) | h) | h
      · revert h; decide
      · cases h
      · cases h
      · cases h
    · rcases h with (((h | h) | rfl) | rfl) | rfl
      · omega
      · omega
      · exact absurd hw (by decide)
      · exact absurd hw (by decide)
      · exact absurd hw (by decide)

theorem valChar_ne {c q : Char} (h : valChar c = true) (hq : valChar q = false) : c ≠ q := by
  rintro rfl; rw [h] at hq; cases hq

theorem word_val {s : Str} (h : IsWordStr s) : s ≠ [] ∧ ∀ c ∈ s, valChar c = true :=
  ⟨h.1, fun c hc => by simp [valChar, (isWord_iff c).mpr (h.2 c hc)]⟩

/-- A value followed by a separator and another value. -/
theorem vals_step {a d b : Str} (ha : ∀ c ∈ a, valChar c = true)
    (hd : ∀ c ∈ d, valChar c = false) (hne : d ≠ []) (hb : ∀ c r, b = c :: r → valChar c = true) :
    restSplit mReceivers (a ++ (d ++ b)) = a :: restSplit mReceivers b := by
  unfold mReceivers
  refine restSplit_run (p := fun c => !(isWord c || c == '.' || c == '+' || c == '-')) ?_ ?_ hne ?_
  · intro x hx; have := ha x hx; unfold valChar at this; simp only [this]; rfl
  · intro x hx; have := hd x hx; unfold valChar at this; simp only [this]; rfl
  · intro x r e; have := hb x r e; unfold valChar at this; simp only [this]; rfl

theorem vals_last {a : Str} (hne : a ≠ []) (ha : ∀ c ∈ a, valChar c = true) : restSplit mReceivers a = [a] := by
  unfold mReceivers
  refine restSplit_run_last hne ?_
  intro x hx; have := ha x hx; unfold valChar at this; simp only [this]; rfl

theorem resplit_rest {m : Str → Option Nat} {s : Str} (h : s ≠ []) : resplit m s = restSplit m s := by
  unfold restSplit; rw [if_neg h]

theorem commaList_ne {l : List Str} (h : l ≠ []) (hl : ∀ r ∈ l, IsWordStr r) : commaList l ≠ [] := by
  cases l with
  | nil => exact absurd rfl h
  | cons a l =>
    have := (hl a (by simp)).1
    cases l with
    | nil => exact this
    | cons b l => simp [commaList]

theorem commaList_head {l : List Str} (h : l ≠ []) (hl : ∀ r ∈ l, IsWordStr r) :
    ∀ c t, commaList l = c :: t → valChar c = true := by
  intro c t e
  cases l with
  | nil => exact absurd rfl h
  | cons a l =>
    obtain ⟨x, xs, hx⟩ := List.exists_cons_of_ne_nil (hl a (by simp)).1
    have hxv := (word_val (hl a (by simp))).2 x (by rw [hx]; simp)
    cases l with
    | nil => rw [commaList, hx] at e; cases e; exact hxv
    | cons b l => rw [commaList, hx] at e; cases e; exact hxv; simp

theorem commaList_split {l : List Str} (h : l ≠ []) (hl : ∀ r ∈ l, IsWordStr r) :
    restSplit mReceivers (commaList l) = l := by
  induction l with
  | nil => exact absurd rfl h
  | cons a l ih =>
    have ha := word_val (hl a (by simp))
    cases l with
    | nil => exact vals_last ha.1 ha.2
    | cons b l =>
      have hl' : ∀ r ∈ b :: l, IsWordStr r := fun r hr => hl r (List.mem_cons_of_mem _ hr)
      show restSplit mReceivers (a ++ ([','] ++ commaList (b :: l))) = _
      rw [vals_step ha.2 (by decide) (by simp) (commaList_head (by simp) hl'), ih (by simp) hl']

theorem commaList_last {l : List Str} (h : l ≠ []) (hl : ∀ r ∈ l, IsWordStr r) :
    ∀ c t, commaList l = t ++ [c] → valChar c = true := by
  induction l with
  | nil => exact absurd rfl h
  | cons a l ih =>
    cases l with
    | nil =>
      intro c t e
      exact (word_val (hl a (by simp))).2 c (by show c ∈ commaList [a]; rw [e]; simp)
    | cons b l =>
      intro c t e
      have hl' : ∀ r ∈ b :: l, IsWordStr r := fun r hr => hl r (List.mem_cons_of_mem _ hr)
      have hne := commaList_ne (l := b :: l) (by simp) hl'
      have e' : a ++ ',' :: commaList (b :: l) = t ++ [c] := e
      have hlast : commaList (b :: l) = (commaList (b :: l)).dropLast ++ [(commaList (b :: l)).getLast hne] :=
        (List.dropLast_concat_getLast hne).symm
      rw [hlast, ← List.cons_append, ← List.append_assoc] at e'
      have := List.append_inj_right' e' rfl
      cases this
      exact ih (by simp) hl' _ _ hlast

theorem commaList_chars {l : List Str} (hl : ∀ r ∈ l, IsWordStr r) :
    ∀ c ∈ commaList l, valChar c = true ∨ c = ',' := by
  induction l with
  | nil => intro c hc; cases hc
  | cons a l ih =>
    have hl' : ∀ r ∈ l, IsWordStr r := fun r hr => hl r (List.mem_cons_of_mem _ hr)
    have ha := (word_val (hl a (by simp))).2
    cases l with
    | nil => exact fun c hc => Or.inl (ha c hc)
    | cons b l =>
      intro c hc
      have hc' : c ∈ a ++ ',' :: commaList (b :: l) := hc
      rcases List.mem_append.mp hc' with hc | hc
      · exact Or.inl (ha c hc)
      · rcases List.mem_cons.mp hc with rfl | hc
        · exact Or.inr rfl
        · exact ih hl' c hc

/-! ### Numbers of a signal line -/

theorem takeWhile_dec (n : Nat) : (decStr n).takeWhile isDig = decStr n ∧ (decStr n).dropWhile isDig = [] := by
  have h : ∀ c ∈ decStr n, isDig c = true := fun c hc => (isDig_iff c).mpr ((decStr_spec n).2.1 c hc)
  refine ⟨?_, ?_⟩
  · have := List.takeWhile_append_of_pos (l₂ := []) h
    simpa using this
  · have := dropWhile_all (p := isDig) (x := []) h (by intro c t e; cases e)
    simpa using this

theorem atofAbs_dec (n : Nat) : atofAbs (decStr n) = ⟨n, 0⟩ := by
  obtain ⟨h1, h2⟩ := takeWhile_dec n
  unfold atofAbs
  rw [h1, h2]
  dsimp only
  rw [if_neg (by
    rintro ⟨h, -⟩
    exact (decStr_spec n).1 (List.length_eq_zero_iff.mp h))]
  rw [List.append_nil, decVal_eq, (decStr_spec n).2.2.1]
  simp [expPart]

/-- The absolute value of a decimal number. -/
theorem atofAbs_lit {ip : Nat} {frac : Str} (h : ∀ c ∈ frac, IsDigit c) :
    atofAbs (decStr ip ++ (if frac = [] then [] else '.' :: frac)) =
      ⟨((ip * 10 ^ frac.length + digitsVal frac : Nat) : Int), frac.length⟩ := by
  by_cases hf : frac = []
  · subst hf
    rw [if_pos rfl, List.append_nil, atofAbs_dec]
    simp [digitsVal]
  · rw [if_neg hf]
    have hd : ∀ c ∈ decStr ip, isDig c = true := fun c hc => (isDig_iff c).mpr ((decStr_spec ip).2.1 c hc)
    have h1 : (decStr ip ++ '.' :: frac).takeWhile isDig = decStr ip := by
      rw [List.takeWhile_append_of_pos hd, List.takeWhile_cons_of_neg (by decide), List.append_nil]
    have h2 : (decStr ip ++ '.' :: frac).dropWhile isDig = '.' :: frac :=
      dropWhile_all hd (by intro c t e; cases e; decide)
    have hfd : ∀ c ∈ frac, isDig c = true := fun c hc => (isDig_iff c).mpr (h c hc)
    have h3 : frac.takeWhile isDig = frac := by
      have := List.takeWhile_append_of_pos (l₂ := []) hfd
      simpa using this
    have h4 : frac.dropWhile isDig = [] := by
      have := dropWhile_all (p := isDig) (x := []) hfd (by intro c t e; cases e)
      simpa using this
    unfold atofAbs
    rw [h1, h2]
    show (if (decStr ip).length = 0 ∧ (frac.takeWhile isDig).length = 0 then (⟨0, 0⟩ : Dec)
      else if 0 ≤ expPart (frac.dropWhile isDig) then
        ⟨decVal (decStr ip ++ frac.takeWhile isDig) * 10 ^ (expPart (frac.dropWhile isDig)).toNat,
          (frac.takeWhile isDig).length⟩
      else ⟨decVal (decStr ip ++ frac.takeWhile isDig),
          (frac.takeWhile isDig).length + (-(expPart (frac.dropWhile isDig))).toNat⟩) = _
    rw [h3, h4, if_neg (by
      rintro ⟨h, -⟩
      exact (decStr_spec ip).1 (List.length_eq_zero_iff.mp h))]
    rw [decVal_eq, digitsVal_append, (decStr_spec ip).2.2.1]
    simp [expPart]

theorem digit_head {ip : Nat} {t : Str} : ∃ c r, decStr ip ++ t = c :: r ∧ IsDigit c := by
  obtain ⟨c, cs, hc⟩ := List.exists_cons_of_ne_nil (decStr_spec ip).1
  exact ⟨c, cs ++ t, by rw [hc]; rfl, (decStr_spec ip).2.1 c (by rw [hc]; simp)⟩

theorem atof_lit {l : Lit} (h : ∀ c ∈ l.frac, IsDigit c) : atof l.text = l.value := by
  unfold Lit.value Lit.text
  have habs := atofAbs_lit (ip := l.ip) h
  generalize hX : decStr l.ip ++ (if l.frac = [] then [] else '.' :: l.frac) = X at habs
  cases l.neg with
  | true =>
    have hdw : ('-' :: X).dropWhile isWs = '-' :: X := List.dropWhile_cons_of_neg (by decide)
    show atof ('-' :: X) = _
    unfold atof
    rw [hdw]
    show (⟨-(atofAbs X).num, (atofAbs X).scale⟩ : Dec) = _
    rw [habs]
    simp
  | false =>
    obtain ⟨c, r, hc, hd⟩ := digit_head (ip := l.ip) (t := if l.frac = [] then [] else '.' :: l.frac)
    rw [hX] at hc
    have hdw : X.dropWhile isWs = X := by
      rw [hc, List.dropWhile_cons_of_neg (by rw [isDig_not_ws hd]; decide)]
    have : atof X = atofAbs X := by
      unfold atof
      rw [hdw, hc]
      split
      · rename_i heq; cases heq; exact absurd hd (by decide)
      · rename_i heq; cases heq; exact absurd hd (by decide)
      · rfl
    show atof X = _
    rw [this, habs]
    simp

theorem tiny_lit {l : Lit} (h : l.frac.length ≤ 9) : l.value.tiny = false := by
  unfold Dec.tiny Lit.value
  dsimp only
  rw [Bool.and_eq_false_iff]
  by_cases hz : l.ip * 10 ^ l.frac.length + digitsVal l.frac = 0
  · right; rw [hz]; cases l.neg <;> rfl
  · left
    apply decide_eq_false
    have e : ((if l.neg then (-1 : Int) else 1) * ((l.ip * 10 ^ l.frac.length + digitsVal l.frac : Nat) : Int)).natAbs =
        l.ip * 10 ^ l.frac.length + digitsVal l.frac := by
      generalize l.ip * 10 ^ l.frac.length + digitsVal l.frac = n
      cases l.neg <;> simp
    rw [e]
    have : 10 ^ l.frac.length ≤ 10 ^ 9 := Nat.pow_le_pow_right (by decide) h
    generalize l.ip * 10 ^ l.frac.length + digitsVal l.frac = n at hz
    have : 1 * 10 ^ 9 ≤ n * 10 ^ 9 := Nat.mul_le_mul_right _ (by omega)
    omega

theorem hasPoint_lit {l : Lit} (h : ∀ c ∈ l.frac, IsDigit c) : hasPoint l.text = decide (l.frac ≠ []) := by
  by_cases hf : l.frac = []
  · have key : ∀ q : Char, ¬ IsDigit q → q ≠ '-' → l.text.contains q = false := by
      intro q hq hm
      cases hc : l.text.contains q with
      | false => rfl
      | true =>
        rw [List.contains_iff_mem] at hc
        unfold Lit.text at hc
        rw [if_pos hf, List.append_nil] at hc
        rcases List.mem_append.mp hc with hc | hc
        · cases hn : l.neg <;> simp [hn] at hc
          exact absurd hc hm
        · exact absurd ((decStr_spec _).2.1 q hc) hq
    unfold hasPoint
    rw [key '.' (by decide) (by decide), key 'E' (by decide) (by decide), key 'e' (by decide) (by decide)]
    simp [hf]
  · have : l.text.contains '.' = true := by
      rw [List.contains_iff_mem]; unfold Lit.text; simp [hf]
    unfold hasPoint
    rw [this]
    simp [hf]

theorem valChar_lit {l : Lit} (h : ∀ c ∈ l.frac, IsDigit c) : l.text ≠ [] ∧ ∀ c ∈ l.text, valChar c = true := by
  have hd := (valChar_decStr l.ip)
  unfold Lit.text
  refine ⟨by simp [hd.1], fun c hc => ?_⟩
  rcases List.mem_append.mp hc with hc | hc
  · cases hn : l.neg <;> simp [hn] at hc
    subst hc; rfl
  · rcases List.mem_append.mp hc with hc | hc
    · exact hd.2 c hc
    · split at hc
      · cases hc
      · rcases List.mem_cons.mp hc with rfl | hc
        · rfl
        · have := (isDig_iff c).mpr (h c hc)
          simp [valChar, isWord, this]

/-! ### The line -/

/-- Byte order and sign of a signal line. -/
def orderText (d : SigDesc) : Str := (if d.intel then ['1'] else ['0']) ++ (if d.signed then ['-'] else ['+'])

/-- The values of a signal line. -/
def valuesText (d : SigDesc) : Str :=
  decStr d.start ++ ("|".toList ++ (decStr d.len ++ ("@".toList ++ (orderText d ++ (" (".toList ++ (d.factor.text ++
  (",".toList ++ (d.offset.text ++ (") [".toList ++ (d.min.text ++ ("|".toList ++ (d.max.text ++ "]".toList))))))))))))

theorem line_eq (d : SigDesc) :
    d.line = (" SG_ ".toList ++ (d.name ++ d.mux.text)) ++ (" : ".toList ++
      ((valuesText d ++ [' ']) ++ '"' :: (d.unit ++ '"' :: (' ' :: commaList d.recs)))) := by
  unfold SigDesc.line valuesText orderText
  simp only [List.append_assoc]
  rfl

theorem mux_chars (m : Mux) : ∀ c ∈ m.text, valChar c = true ∨ c = ' ' := by
  intro c hc
  cases m with
  | plain => cases hc
  | master => revert c; decide
  | muxed n =>
    have hc' : c ∈ " m".toList ++ decStr n := hc
    rcases List.mem_append.mp hc' with hc | hc
    · exact (by decide : ∀ c ∈ " m".toList, valChar c = true ∨ c = ' ') c hc
    · exact Or.inl ((valChar_decStr n).2 c hc)

theorem order_chars (d : SigDesc) : ∀ c ∈ orderText d, valChar c = true := by
  unfold orderText; cases d.intel <;> cases d.signed <;> decide

/-- The numbers of the line are numbers. -/
def LitsOk (d : SigDesc) : Prop := ∀ l ∈ [d.factor, d.offset, d.min, d.max], ∀ c ∈ l.frac, IsDigit c

theorem values_split {d : SigDesc} (hl : LitsOk d) : resplit mReceivers (valuesText d) =
    [decStr d.start, decStr d.len, orderText d, d.factor.text, d.offset.text, d.min.text, d.max.text] := by
  have head : ∀ s t : Str, (s ≠ [] ∧ ∀ c ∈ s, valChar c = true) → ∀ c r, s ++ t = c :: r → valChar c = true := by
    intro s t h c r e
    obtain ⟨x, xs, hx⟩ := List.exists_cons_of_ne_nil h.1
    rw [hx] at e; cases e
    exact h.2 c (by rw [hx]; simp)
  have hord : orderText d ≠ [] ∧ ∀ c ∈ orderText d, valChar c = true :=
    ⟨by unfold orderText; cases d.intel <;> simp, order_chars d⟩
  rw [resplit_rest (by
    unfold valuesText
    intro e
    exact (decStr_spec d.start).1 (List.append_eq_nil_iff.mp e).1)]
  have hf := valChar_lit (hl d.factor (by simp))
  have ho := valChar_lit (hl d.offset (by simp))
  have hm := valChar_lit (hl d.min (by simp))
  have hx := valChar_lit (hl d.max (by simp))
  unfold valuesText
  rw [vals_step (valChar_decStr _).2 (by decide) (by decide) (head _ _ (valChar_decStr _)),
    vals_step (valChar_decStr _).2 (by decide) (by decide) (head _ _ hord),
    vals_step hord.2 (by decide) (by decide) (head _ _ hf),
    vals_step hf.2 (by decide) (by decide) (head _ _ ho),
    vals_step ho.2 (by decide) (by decide) (head _ _ hm),
    vals_step hm.2 (by decide) (by decide) (head _ _ hx)]
  have := vals_step (a := d.max.text) (d := "]".toList) (b := []) hx.2 (by decide) (by decide)
    (by intro c r e; cases e)
  rw [List.append_nil] at this
  rw [this]
  rfl

theorem values_trim (d : SigDesc) : trimWs (valuesText d ++ [' ']) = valuesText d := by
  have := trimWs_eq (a := []) (x := valuesText d) (b := [' ']) (by intro c hc; cases hc) (by decide) ?_ ?_ ?_
  · exact this
  · intro c t e
    obtain ⟨x, xs, hx⟩ := List.exists_cons_of_ne_nil (decStr_spec d.start).1
    unfold valuesText at e
    rw [hx] at e; cases e
    exact isDig_not_ws ((decStr_spec d.start).2.1 c (by rw [hx]; simp))
  · intro c t e
    have h : valuesText d = (valuesText d).dropLast ++ [']'] := by
      unfold valuesText
      simp only [← List.append_assoc]
      exact (List.dropLast_concat ..).symm ▸ rfl
    rw [h] at e
    have := List.append_inj_right' e rfl
    cases this
    decide
  · unfold valuesText
    intro e
    exact (decStr_spec d.start).1 (List.append_eq_nil_iff.mp e).1

/-- A signal line as DBC editors write it. -/
structure LineOk (d : SigDesc) : Prop where
  name : IsWordStr d.name
  lits : LitsOk d
  unit : UnitOk d.unit
  recs : d.recs ≠ [] ∧ ∀ r ∈ d.recs, IsWordStr r

theorem line_halfs {d : SigDesc} (h : LineOk d) : resplit mColon d.line =
    [" SG_ ".toList ++ (d.name ++ d.mux.text),
     (valuesText d ++ [' ']) ++ '"' :: (d.unit ++ '"' :: (' ' :: commaList d.recs))] := by
  have hcol : valChar ':' = false := by decide
  have hw := (word_val h.name).2
  have hval : ∀ c ∈ valuesText d ++ [' '], c ≠ ':' := by
    have hf := (valChar_lit (h.lits d.factor (by simp))).2
    have ho := (valChar_lit (h.lits d.offset (by simp))).2
    have hm := (valChar_lit (h.lits d.min (by simp))).2
    have hx := (valChar_lit (h.lits d.max (by simp))).2
    have hs := (valChar_decStr d.start).2
    have hn := (valChar_decStr d.len).2
    have hr := order_chars d
    intro c hc
    unfold valuesText at hc
    simp only [List.mem_append] at hc
    rcases hc with (hc | hc | hc | hc | hc | hc | hc | hc | hc | hc | hc | hc | hc | hc) | hc
    all_goals first
      | exact valChar_ne (hs c hc) hcol
      | exact valChar_ne (hn c hc) hcol
      | exact valChar_ne (hr c hc) hcol
      | exact valChar_ne (hf c hc) hcol
      | exact valChar_ne (ho c hc) hcol
      | exact valChar_ne (hm c hc) hcol
      | exact valChar_ne (hx c hc) hcol
      | (rintro rfl; revert hc; decide)
  rw [line_eq, resplit_colon]
  · have hne : (valuesText d ++ [' ']) ++ '"' :: (d.unit ++ '"' :: (' ' :: commaList d.recs)) ≠ [] := by simp
    unfold restSplit
    rw [if_neg hne, resplit_colon_last]
    rw [colonSep_left hval (by decide) (by decide)]
    refine colonSep_right (colonSep_unit h.unit) ?_ (by decide) (by decide)
    intro c hc
    rcases List.mem_cons.mp hc with rfl | hc
    · decide
    · rcases commaList_chars h.recs.2 c hc with hv | rfl
      · exact valChar_ne hv hcol
      · decide
  · intro c hc
    simp only [List.mem_append] at hc
    rcases hc with hc | hc | hc
    · rintro rfl; revert hc; decide
    · exact valChar_ne (hw c hc) hcol
    · rcases mux_chars d.mux c hc with hv | rfl
      · exact valChar_ne hv hcol
      · decide
  · intro c t e
    have hlast : ∀ (x y : Str), y ≠ [] → (∀ c ∈ y, valChar c = true) → x ++ y = t ++ [c] → valChar c = true := by
      intro x y hy hv e
      have hy' := (List.dropLast_concat_getLast hy).symm
      rw [hy', ← List.append_assoc] at e
      have := List.append_inj_right' e rfl
      cases this
      exact hv _ (List.getLast_mem hy)
    cases hm : d.mux with
    | plain =>
      rw [hm] at e
      refine valChar_not_ws (hlast " SG_ ".toList d.name h.name.1 hw ?_)
      simpa [Mux.text] using e
    | master =>
      rw [hm] at e
      refine valChar_not_ws (hlast (" SG_ ".toList ++ (d.name ++ [' '])) ['M'] (by simp) (by decide) ?_)
      simpa [Mux.text] using e
    | muxed n =>
      rw [hm] at e
      refine valChar_not_ws (hlast (" SG_ ".toList ++ (d.name ++ " m".toList)) (decStr n) (decStr_spec n).1
        (valChar_decStr n).2 ?_)
      simpa [Mux.text] using e
  · intro c t e
    obtain ⟨x, r, hx, hd⟩ := digit_head (ip := d.start) (t := ("|".toList ++ (decStr d.len ++ ("@".toList ++ (orderText d ++ (" (".toList ++ (d.factor.text ++
      (",".toList ++ (d.offset.text ++ (") [".toList ++ (d.min.text ++ ("|".toList ++ (d.max.text ++ "]".toList)))))))))))))
    unfold valuesText at e
    rw [hx] at e
    cases e
    exact isDig_not_ws hd

theorem line_tail {d : SigDesc} (h : LineOk d) :
    resplit mQuote ((valuesText d ++ [' ']) ++ '"' :: (d.unit ++ '"' :: (' ' :: commaList d.recs))) =
      [valuesText d ++ [' '], d.unit, ' ' :: commaList d.recs] := by
  have hq : valChar '"' = false := by decide
  have hval : ∀ c ∈ valuesText d ++ [' '], (c == '"') = false := by
    have hf := (valChar_lit (h.lits d.factor (by simp))).2
    have ho := (valChar_lit (h.lits d.offset (by simp))).2
    have hm := (valChar_lit (h.lits d.min (by simp))).2
    have hx := (valChar_lit (h.lits d.max (by simp))).2
    have hs := (valChar_decStr d.start).2
    have hn := (valChar_decStr d.len).2
    have hr := order_chars d
    intro c hc
    rw [beq_eq_false_iff_ne]
    unfold valuesText at hc
    simp only [List.mem_append] at hc
    rcases hc with (hc | hc | hc | hc | hc | hc | hc | hc | hc | hc | hc | hc | hc | hc) | hc
    all_goals first
      | exact valChar_ne (hs c hc) hq
      | exact valChar_ne (hn c hc) hq
      | exact valChar_ne (hr c hc) hq
      | exact valChar_ne (hf c hc) hq
      | exact valChar_ne (ho c hc) hq
      | exact valChar_ne (hm c hc) hq
      | exact valChar_ne (hx c hc) hq
      | (rintro rfl; revert hc; decide)
  unfold mQuote
  rw [resplit_one hval rfl, restSplit_one (by
      intro c hc
      rw [beq_eq_false_iff_ne]
      rintro rfl
      exact h.unit.1 hc) rfl, restSplit_one_last (by simp)]
  intro c hc
  rw [beq_eq_false_iff_ne]
  rcases List.mem_cons.mp hc with rfl | hc
  · decide
  · rcases commaList_chars h.recs.2 c hc with hv | rfl
    · exact valChar_ne hv hq
    · decide

theorem line_recs {d : SigDesc} (h : LineOk d) : resplit mReceivers (trimWs (' ' :: commaList d.recs)) = d.recs := by
  have hne := commaList_ne h.recs.1 h.recs.2
  have := trimWs_eq (a := [' ']) (x := commaList d.recs) (b := []) (by decide) (by intro c hc; cases hc)
    (fun c t e => valChar_not_ws (commaList_head h.recs.1 h.recs.2 c t e))
    (fun c t e => valChar_not_ws (commaList_last h.recs.1 h.recs.2 c t e)) hne
  rw [List.append_nil] at this
  have e : ([' '] ++ commaList d.recs : Str) = ' ' :: commaList d.recs := rfl
  rw [← e, this, resplit_rest hne, commaList_split h.recs.1 h.recs.2]

/-- The words of the head of the line. -/
def headWords (d : SigDesc) : List Str :=
  "SG_".toList :: d.name :: (match d.mux with | .plain => [] | .master => ["M".toList] | .muxed n => ["m".toList ++ decStr n])

theorem line_head {d : SigDesc} (h : LineOk d) : tokens (" SG_ ".toList ++ (d.name ++ d.mux.text)) = headWords d := by
  have htok : ∀ c, valChar c = true → tokChar c = true := by
    intro c hc
    have h1 := valChar_not_ws hc
    have h2 : (c == '"') = false := by rw [beq_eq_false_iff_ne]; exact valChar_ne hc (by decide)
    simp [tokChar, h1, h2]
  have hw := word_val h.name
  have hsp : ∀ r : Str, ∀ c t, ' ' :: r = c :: t → tokChar c = false := by
    intro r c t e; cases e; decide
  have h1 : tokens (" SG_ ".toList ++ (d.name ++ d.mux.text)) = "SG_".toList :: tokens (d.name ++ d.mux.text) := by
    show tokens (' ' :: ("SG_".toList ++ ' ' :: (d.name ++ d.mux.text))) = _
    rw [tokens_ws (by decide), tokens_word (by decide) (by decide) (hsp _), tokens_ws (by decide)]
  rw [h1]
  unfold headWords
  congr 1
  cases d.mux with
  | plain =>
    have := tokens_word (r := []) hw.1 (fun c hc => htok c (hw.2 c hc)) (by intro c t e; cases e)
    exact this
  | master =>
    show tokens (d.name ++ ' ' :: "M".toList) = _
    rw [tokens_word hw.1 (fun c hc => htok c (hw.2 c hc)) (hsp _), tokens_ws (by decide)]
    rfl
  | muxed n =>
    show tokens (d.name ++ ' ' :: ("m".toList ++ decStr n)) = _
    rw [tokens_word hw.1 (fun c hc => htok c (hw.2 c hc)) (hsp _), tokens_ws (by decide)]
    have := tokens_word (w := "m".toList ++ decStr n) (r := []) (by simp) (by
      intro c hc
      rcases List.mem_append.mp hc with hc | hc
      · exact htok c ((by decide : ∀ c ∈ "m".toList, valChar c = true) c hc)
      · exact htok c ((valChar_decStr n).2 c hc)) (by intro c t e; cases e)
    rw [List.append_nil] at this
    rw [this]
    rfl

/-- The signal the line describes, without types. -/
def SigDesc.sig (d : SigDesc) : Sig :=
  { name := d.name
    multiplex := match d.mux with | .plain => .none | .master => .master | .muxed _ => .mulValue
    startBit := d.start
    lengthBit := d.len
    isDouble := decide (d.factor.frac ≠ []) || decide (d.offset.frac ≠ [])
    factor := d.factor.value
    offset := d.offset.value
    minValue := d.min.value
    maxValue := d.max.value
    order := if d.intel then .intel else .motorolla
    signed := d.signed }

theorem values_sig (P : Platform) {d : SigDesc} (h : LineOk d) (h1 : d.start < 2 ^ 31) (h2 : d.len < 256)
    (h3 : d.factor.frac.length ≤ 9) (h4 : d.offset.frac.length ≤ 9) (m : MultiplexType) :
    sigOfValues P d.name m
      [decStr d.start, decStr d.len, orderText d, d.factor.text, d.offset.text, d.min.text, d.max.text] =
      { SigDesc.sig d with multiplex := m } := by
  unfold sigOfValues SigDesc.sig
  simp only [List.getD_cons_zero, List.getD_cons_succ]
  rw [atof_lit (h.lits d.factor (by simp)), atof_lit (h.lits d.offset (by simp)),
    atof_lit (h.lits d.min (by simp)), atof_lit (h.lits d.max (by simp)),
    hasPoint_lit (h.lits d.factor (by simp)), hasPoint_lit (h.lits d.offset (by simp)),
    tiny_lit h3, tiny_lit h4, atoi_decStr P h1, atoi_decStr P (by omega), toU32_nat, toU8_nat,
    Nat.mod_eq_of_lt (by omega : d.start < 2 ^ 32), Nat.mod_eq_of_lt (by omega : d.len < 2 ^ 8)]
  unfold orderText
  cases d.intel <;> cases d.signed <;> rfl

theorem parse_line (P : Platform) {d : SigDesc} (h : LineOk d) (h1 : d.start < 2 ^ 31) (h2 : d.len < 256)
    (h3 : d.factor.frac.length ≤ 9) (h4 : d.offset.frac.length ≤ 9) :
    parseSignalLine P d.line = match getSigType P.toHost (SigDesc.sig d) with
      | none => .ub
      | some s => .ok (some { markSimple s with unit := d.unit, recS := d.recs }) := by
  unfold parseSignalLine
  rw [line_halfs h]
  simp only [List.getD_cons_zero, List.getD_cons_succ]
  rw [if_neg (by simp), line_tail h]
  simp only [List.getD_cons_zero, List.getD_cons_succ]
  rw [values_trim, values_split h.lits, line_head h, line_recs h]
  rw [if_neg (by unfold headWords; simp)]
  rw [if_neg (by simp)]
  have e : headWords d = "SG_".toList :: d.name ::
    (match d.mux with | .plain => [] | .master => ["M".toList] | .muxed n => ["m".toList ++ decStr n]) := rfl
  have hn : (headWords d).getD 1 [] = d.name := rfl
  rw [hn, values_sig P h h1 h2 h3 h4]
  have hm : (if (headWords d).length = 3 then
      (if (headWords d).getD 2 [] = "M".toList then MultiplexType.master else .mulValue) else .none) =
      (SigDesc.sig d).multiplex := by
    rw [e]
    unfold SigDesc.sig
    cases d.mux with
    | plain => rfl
    | master => rfl
    | muxed n =>
      simp only [List.getD_cons_zero, List.getD_cons_succ]
      rw [if_pos (by simp), if_neg]
      intro hh
      cases hh
  rw [hm]
  rfl

/-! ### The type selection is defined -/

theorem powM1_le (n : Int) (h : 0 ≤ n) : 0 ≤ powM1 n ∧ powM1 n ≤ 2 ^ n.toNat := by
  unfold powM1
  have : (0 : Int) < 2 ^ n.toNat := Int.pow_pos (by decide)
  rw [if_neg (by omega)]
  split <;> omega

theorem castI64_in {h : Host} {z : Int} (h1 : z.natAbs < 2 ^ 63) : castI64 h z = some z := by
  unfold castI64; rw [if_pos (by omega)]

theorem chk64_in {z : Int} (h1 : z.natAbs < 2 ^ 63) : chk64 z = some z := by
  unfold chk64; rw [if_pos (by omega)]

theorem rawLimits_in (h : Host) {s : Sig} (h1 : 1 ≤ s.lengthBit) (h2 : s.lengthBit ≤ 62) :
    ∃ mx mn ro, rawLimits h s = some (mx, mn, ro) ∧ mx.natAbs ≤ 2 ^ s.lengthBit ∧ mn.natAbs ≤ 2 ^ s.lengthBit := by
  have hp : 2 ^ s.lengthBit ≤ 2 ^ 62 := Nat.pow_le_pow_right (by decide) h2
  unfold rawLimits
  by_cases hs : s.signed = true
  · rw [if_pos hs]
    obtain ⟨a, b⟩ := powM1_le ((s.lengthBit : Int) - 1) (by omega)
    have e : ((s.lengthBit : Int) - 1).toNat = s.lengthBit - 1 := by omega
    rw [e] at b
    have e2 : 2 ^ s.lengthBit = 2 * 2 ^ (s.lengthBit - 1) := by
      rw [← Nat.pow_succ']; congr 1; omega
    have hq : 0 < 2 ^ (s.lengthBit - 1) := Nat.two_pow_pos _
    have b' : (powM1 ((s.lengthBit : Int) - 1)).natAbs ≤ 2 ^ (s.lengthBit - 1) := by
      have : ((2 ^ (s.lengthBit - 1) : Nat) : Int) = 2 ^ (s.lengthBit - 1) := by push_cast; rfl
      omega
    generalize powM1 ((s.lengthBit : Int) - 1) = z at *
    rw [castI64_in (by omega)]
    simp only [Option.bind_eq_bind, Option.bind_some]
    rw [chk64_in (by omega)]
    simp only [Option.bind_some]
    rw [chk64_in (by omega)]
    simp only [Option.bind_some]
    exact ⟨_, _, _, rfl, by omega, by omega⟩
  · rw [if_neg hs]
    obtain ⟨a, b⟩ := powM1_le (s.lengthBit : Int) (by omega)
    have b' : (powM1 (s.lengthBit : Int)).natAbs ≤ 2 ^ s.lengthBit := by
      have : ((2 ^ s.lengthBit : Nat) : Int) = 2 ^ s.lengthBit := by push_cast; rfl
      rw [Int.toNat_natCast] at b
      omega
    generalize powM1 (s.lengthBit : Int) = z at *
    rw [castI64_in (by omega)]
    simp only [Option.bind_eq_bind, Option.bind_some]
    exact ⟨_, _, _, rfl, b', by simp⟩

theorem physType_in (h : Host) {s : Sig} {mx mn : Int} {N : Nat} (h1 : mx.natAbs ≤ N) (h2 : mn.natAbs ≤ N) (hN : 0 < N)
    (h3 : s.factor.trunc.natAbs * N + s.offset.trunc.natAbs < 2 ^ 63) : ∃ t, physType h s mx mn = some t := by
  have hm : ∀ z : Int, z.natAbs ≤ N → (z * s.factor.trunc).natAbs ≤ s.factor.trunc.natAbs * N := by
    intro z hz
    rw [Int.natAbs_mul, Nat.mul_comm]
    exact Nat.mul_le_mul_left _ hz
  have hx := hm mx h1
  have hn := hm mn h2
  have hf : s.factor.trunc.natAbs ≤ s.factor.trunc.natAbs * N := Nat.le_mul_of_pos_right _ hN
  have hadd : ∀ z : Int, z.natAbs ≤ s.factor.trunc.natAbs * N → (z + s.offset.trunc).natAbs < 2 ^ 63 := fun z hz =>
    Nat.lt_of_le_of_lt (Nat.le_trans (Int.natAbs_add_le _ _) (Nat.add_le_add_right hz _)) h3
  have hlt : ∀ n : Nat, n ≤ s.factor.trunc.natAbs * N → n < 2 ^ 63 := fun n hn =>
    Nat.lt_of_le_of_lt (Nat.le_trans hn (Nat.le_add_right _ _)) h3
  have ho : s.offset.trunc.natAbs < 2 ^ 63 := Nat.lt_of_le_of_lt (Nat.le_add_left _ _) h3
  have hp := hadd _ hx
  have hq := hadd _ hn
  have hx' := hlt _ hx
  have hn' := hlt _ hn
  have hf' := hlt _ hf
  clear hx hn hf hadd hlt hm h1 h2 h3 hN
  unfold physType
  rw [castI64_in ho, castI64_in hf']
  simp only [Option.bind_eq_bind, Option.bind_some]
  rw [chk64_in hx', Option.bind_some, chk64_in hp, Option.bind_some, chk64_in hn', Option.bind_some, chk64_in hq,
    Option.bind_some]
  by_cases hc : (s.signed || decide (mx * s.factor.trunc + s.offset.trunc < 0) ||
      decide (mn * s.factor.trunc + s.offset.trunc < 0)) = true
  · rw [if_pos hc, chk64_in (by rw [Int.natAbs_natCast]; exact hp), Option.bind_some,
      chk64_in (by rw [Int.natAbs_natCast]; exact hq), Option.bind_some]
    split <;> exact ⟨_, rfl⟩
  · rw [if_neg hc]
    exact ⟨_, rfl⟩

theorem getSigType_in (h : Host) {s : Sig} (h1 : 1 ≤ s.lengthBit) (h2 : s.lengthBit ≤ 62) (hf : s.factor.num ≠ 0)
    (hq : s.offset.num.natAbs * 10 ^ s.factor.scale < 2 ^ 63 * (s.factor.num.natAbs * 10 ^ s.offset.scale))
    (h3 : s.factor.trunc.natAbs * 2 ^ s.lengthBit + s.offset.trunc.natAbs < 2 ^ 63) :
    ∃ s', getSigType h s = some s' := by
  obtain ⟨mx, mn, ro, e, a, b⟩ := rawLimits_in h h1 h2
  have hr : ∃ z, rOffset h s = some z := by
    unfold rOffset
    rw [if_neg hf, castI64_in]
    · exact ⟨_, rfl⟩
    · rw [Int.natAbs_tdiv]
      show (_ : Nat) / (_ : Nat) < (_ : Nat)
      rw [Nat.div_lt_iff_lt_mul]
      · rw [Int.natAbs_mul, Int.natAbs_mul, Int.natAbs_pow, Int.natAbs_pow]
        exact hq
      · rw [Int.natAbs_mul, Int.natAbs_pow]
        exact Nat.mul_pos (Int.natAbs_pos.mpr hf) (Nat.pow_pos (by decide))
  obtain ⟨z, hr⟩ := hr
  obtain ⟨t, ht⟩ := physType_in h a b (Nat.two_pow_pos _) h3
  unfold getSigType
  rw [hr, e]
  simp only [Option.bind_eq_bind, Option.bind_some]
  rw [ht]
  simp only [Option.bind_some]
  split
  · exact ⟨_, rfl⟩
  · split <;> exact ⟨_, rfl⟩

/-! ### C26 -/

/-- What a parsed signal has to say.  Scaled signals are renamed: the raw field gets the suffix
`_ro`, the physical field the suffix `_phys`. -/
def Says (d : SigDesc) (s : Sig) : Prop :=
  (if d.factor.frac = [] ∧ d.offset.frac = [] ∧ d.factor.value = Dec.ofInt 1 ∧ d.offset.value = Dec.ofInt 0
    then s.name = d.name ∧ s.isSimple = true
    else s.name = d.name ++ "_ro".toList ∧ s.nameFloat = d.name ++ "_phys".toList ∧ s.isSimple = false) ∧
  s.startBit = d.start ∧ s.lengthBit = d.len ∧ s.signed = d.signed ∧
  (s.order = .intel ↔ d.intel = true) ∧
  s.factor = d.factor.value ∧ s.offset = d.offset.value ∧ s.minValue = d.min.value ∧ s.maxValue = d.max.value ∧
  s.unit = d.unit ∧ s.recS = d.recs ∧
  (s.multiplex = .none ↔ d.mux = .plain) ∧ (s.multiplex = .master ↔ d.mux = .master) ∧
  (s.isDouble = true ↔ d.factor.frac ≠ [] ∨ d.offset.frac ≠ [])

theorem says_of_type {h : Host} {d : SigDesc} {s : Sig} (hg : getSigType h (SigDesc.sig d) = some s) :
    Says d { markSimple s with unit := d.unit, recS := d.recs } := by
  obtain ⟨mx, mn, ro, ph, _, rfl, _⟩ := getSigType_fields hg
  have hsimp : (!(SigDesc.sig d).isDouble && (SigDesc.sig d).factor.eqInt 1 && (SigDesc.sig d).offset.eqInt 0) = true ↔
      (d.factor.frac = [] ∧ d.offset.frac = [] ∧ d.factor.value = Dec.ofInt 1 ∧ d.offset.value = Dec.ofInt 0) := by
    unfold SigDesc.sig
    by_cases h1 : d.factor.frac = []
    · by_cases h2 : d.offset.frac = []
      · simp [h1, h2, Dec.eqInt, Lit.value, Dec.ofInt]
      · simp [h1, h2]
    · simp [h1]
  have hdbl : (SigDesc.sig d).isDouble = true ↔ d.factor.frac ≠ [] ∨ d.offset.frac ≠ [] := by
    unfold SigDesc.sig; simp
  have hord : (SigDesc.sig d).order = .intel ↔ d.intel = true := by
    unfold SigDesc.sig; cases d.intel <;> simp
  have hm1 : (SigDesc.sig d).multiplex = .none ↔ d.mux = .plain := by
    unfold SigDesc.sig; cases d.mux <;> simp
  have hm2 : (SigDesc.sig d).multiplex = .master ↔ d.mux = .master := by
    unfold SigDesc.sig; cases d.mux <;> simp
  unfold Says markSimple
  by_cases hc : (d.factor.frac = [] ∧ d.offset.frac = [] ∧ d.factor.value = Dec.ofInt 1 ∧ d.offset.value = Dec.ofInt 0)
  · rw [if_pos hc]
    simp only [hsimp.mpr hc, if_true]
    refine ⟨⟨?_, ?_⟩, ?_, ?_, ?_, hord, ?_, ?_, ?_, ?_, ?_, ?_, hm1, hm2, hdbl⟩ <;> first | rfl | trivial
  · rw [if_neg hc]
    have hf : (!(SigDesc.sig d).isDouble && (SigDesc.sig d).factor.eqInt 1 && (SigDesc.sig d).offset.eqInt 0) = false := by
      cases hb : (!(SigDesc.sig d).isDouble && (SigDesc.sig d).factor.eqInt 1 && (SigDesc.sig d).offset.eqInt 0)
      · rfl
      · exact absurd (hsimp.mp hb) hc
    simp only [hf, Bool.false_eq_true, if_false]
    refine ⟨⟨?_, ?_, ?_⟩, ?_, ?_, ?_, hord, ?_, ?_, ?_, ?_, ?_, ?_, hm1, hm2, hdbl⟩ <;> first | rfl | trivial

/-- A signal line parses to what it says, if the numbers are in the range of the type selection:
widths 1..62, factor not 0, quotient of offset and factor and the physical range inside 64 bits,
at most nine digits behind the decimal point.

Full statement: every signal line with 1..64 bits parses to what it says.  Missing: widths 63 and 64
and numbers outside the range make `GetSigType` undefined (`C26_any_partial`, C12_undefined_widths),
tiny factors are replaced (`C26_refuted_tiny`), lines without receivers and with a unit containing
" : " are dropped (`C26_refuted`). -/
theorem C26_signal_partial (P : Platform) (d : SigDesc) (hd : LineOk d)
    (hs : d.start < 2 ^ 31) (hl1 : 1 ≤ d.len) (hl2 : d.len ≤ 62)
    (hf : d.factor.frac.length ≤ 9) (ho : d.offset.frac.length ≤ 9) (hz : d.factor.value.num ≠ 0)
    (hq : d.offset.value.num.natAbs * 10 ^ d.factor.frac.length <
      2 ^ 63 * (d.factor.value.num.natAbs * 10 ^ d.offset.frac.length))
    (hr : d.factor.value.trunc.natAbs * 2 ^ d.len + d.offset.value.trunc.natAbs < 2 ^ 63) :
    ∃ s, parseSignalLine P d.line = .ok (some s) ∧ Says d s := by
  obtain ⟨s, hg⟩ := getSigType_in P.toHost (s := SigDesc.sig d) hl1 hl2 hz hq hr
  refine ⟨{ markSimple s with unit := d.unit, recS := d.recs }, ?_, says_of_type hg⟩
  rw [parse_line P hd hs (by omega) hf ho, hg]

/-- Without the range conditions: the line is never dropped or read differently; the only other
outcome is undefined behaviour in the type selection. -/
theorem C26_any_partial (P : Platform) (d : SigDesc) (hd : LineOk d) (hs : d.start < 2 ^ 31) (hl : d.len < 256)
    (hf : d.factor.frac.length ≤ 9) (ho : d.offset.frac.length ≤ 9) :
    parseSignalLine P d.line = .ub ∨ ∃ s, parseSignalLine P d.line = .ok (some s) ∧ Says d s := by
  rw [parse_line P hd hs hl hf ho]
  cases hg : getSigType P.toHost (SigDesc.sig d) with
  | none => exact Or.inl rfl
  | some s => exact Or.inr ⟨_, rfl, says_of_type hg⟩

/-- A simple platform for examples. -/
def plat : Platform := { charMax := 127, oob := none, atoiOvf := id, atollOvf := id, ulongMax := 2 ^ 64 - 1, junk := 0, sortSigs := id }

/-- An ordinary signal line. -/
def sampleDesc : SigDesc :=
  { name := "Speed".toList, mux := .muxed 3, start := 7, len := 16, intel := false, signed := true,
    factor := ⟨false, 0, "25".toList⟩, offset := ⟨true, 40, []⟩, min := ⟨true, 8192, []⟩, max := ⟨false, 8191, "75".toList⟩,
    unit := "km:h".toList, recs := ["Dash".toList, "ABS".toList] }

theorem sample_ok : LineOk sampleDesc := by
  refine ⟨⟨by decide, by decide⟩, by unfold LitsOk; decide, ⟨by decide, ?_⟩, by decide, ?_⟩
  · intro a x z b e h
    have : colonSep sampleDesc.unit = true := by
      rw [e]
      clear e
      induction a with
      | nil => simp [colonSep, colonNext, (isWs_iff x).mpr h.1, (isWs_iff z).mpr h.2]
      | cons c a ih => rw [List.cons_append, colonSep, ih, Bool.or_true]
    revert this; decide
  · intro r hr
    have hr' : r ∈ ["Dash".toList, "ABS".toList] := hr
    simp only [List.mem_cons, List.not_mem_nil, or_false] at hr'
    rcases hr' with rfl | rfl
    · exact ⟨by decide, by decide⟩
    · exact ⟨by decide, by decide⟩

/-- The hypotheses of `C26_signal_partial` are met. -/
example : ∃ s, parseSignalLine plat sampleDesc.line = .ok (some s) ∧ Says sampleDesc s :=
  C26_signal_partial plat sampleDesc sample_ok (by decide) (by decide) (by decide) (by decide) (by decide) (by decide)
    (by decide) (by decide)

/-- The text of the sample line. -/
example : sampleDesc.line = " SG_ Speed m3 : 7|16@0- (0.25,-40) [-8192|8191.75] \"km:h\" Dash,ABS".toList := by decide

/-- Signal lines that are dropped although they are legal: no receivers, a unit with blank, colon and
blank, no blank before the colon. -/
theorem C26_refuted :
    parseSignalLine plat " SG_ A : 0|8@1+ (1,0) [0|255] \"\"".toList = .ok none ∧
    parseSignalLine plat " SG_ A : 0|8@1+ (1,0) [0|255] \"a : b\" X".toList = .ok none ∧
    parseSignalLine plat " SG_ A: 0|8@1+ (1,0) [0|255] \"\" X".toList = .ok none := by
  decide +kernel

/-- A factor below 1e-9 is replaced by 1 and the offset by 0, so the signal is taken for an unscaled one. -/
theorem C26_refuted_tiny : ∃ s, parseSignalLine plat " SG_ A : 0|8@1+ (0.0000000005,3) [0|255] \"\" X".toList = .ok (some s) ∧
    s.isSimple = true ∧ s.factor = Dec.ofInt 1 ∧ s.offset = Dec.ofInt 0 := by
  refine ⟨{ name := "A".toList, lengthBit := 8, isSimple := true, maxValue := Dec.ofInt 255, recS := ["X".toList] }, ?_⟩
  decide +kernel

end Verif
