import Verif.Proofs.Segs
import Verif.Proofs.ExprText
import Verif.Proofs.Digits
/-
Printed numbers: their tokens and values.
-/
namespace Verif
open Verif.Spec

/-! ### Hexadecimal numbers -/

/-- One step of reading digits. -/
def baseStep (b : Nat) (a : Option Nat) (c : Char) : Option Nat := do
  let a ← a
  let d ← hexVal c
  if d < b then some (a * b + d) else none

theorem baseVal_eq (b : Nat) (ds : Str) : baseVal b ds = ds.foldl (baseStep b) (if ds = [] then none else some 0) := rfl

theorem digitsAux_hex (dig : Nat → Char) (hd : ∀ n, n < 16 → hexVal (dig n) = some n) (fuel n : Nat) (acc : Str) (hf : n < 2 ^ fuel) (h0 : 0 < fuel)
    (a : Nat) (ha : a = 0) :
    (digitsAux dig 16 fuel n acc).foldl (baseStep 16) (some a) = acc.foldl (baseStep 16) (some n) := by
  subst ha
  have step : ∀ k x, x < 16 → baseStep 16 (some k) (dig x) = some (k * 16 + x) := by
    intro k x hx
    show (do let d ← hexVal (dig x); if d < 16 then some (k * 16 + d) else none) = _
    rw [hd x hx]
    exact if_pos hx
  induction fuel generalizing n acc with
  | zero => omega
  | succ fuel ih =>
    rw [digitsAux]
    split
    · rename_i h
      rw [List.foldl_cons, step 0 n h]
      simp
    · rename_i h
      have hf' : n / 16 < 2 ^ fuel := by
        rw [Nat.div_lt_iff_lt_mul (by omega)]
        rw [Nat.pow_succ] at hf
        have := Nat.two_pow_pos fuel
        omega
      have h0' : 0 < fuel := by
        cases fuel with
        | zero => simp at hf; omega
        | succ k => omega
      rw [ih _ _ hf' h0', List.foldl_cons, step _ _ (Nat.mod_lt _ (by omega))]
      congr 2
      omega

theorem digitsAux_ne (dig : Nat → Char) (b fuel n : Nat) (acc : Str) (h : 0 < fuel ∨ acc ≠ []) : digitsAux dig b fuel n acc ≠ [] := by
  induction fuel generalizing n acc with
  | zero => rcases h with h | h
            · omega
            · exact h
  | succ fuel ih =>
    rw [digitsAux]
    split
    · simp
    · exact ih _ _ (.inr (by simp))

theorem digitsAux_all (dig : Nat → Char) (b fuel n : Nat) (acc : Str) (P : Char → Prop) (hb : 0 < b) (hd : ∀ k, k < b → P (dig k)) (ha : ∀ c ∈ acc, P c) :
    ∀ c ∈ digitsAux dig b fuel n acc, P c := by
  induction fuel generalizing n acc with
  | zero => exact ha
  | succ fuel ih =>
    rw [digitsAux]
    split
    · rename_i h
      intro c hc
      rcases List.mem_cons.mp hc with rfl | hc
      · exact hd _ h
      · exact ha c hc
    · refine ih _ _ ?_
      intro c hc
      rcases List.mem_cons.mp hc with rfl | hc
      · exact hd _ (Nat.mod_lt _ hb)
      · exact ha c hc

theorem hexVal_hexDigit : ∀ n, n < 16 → hexVal (hexDigit n) = some n := by decide
theorem hexVal_hexDigitL : ∀ n, n < 16 → hexVal (hexDigitL n) = some n := by decide
theorem isWordCh_hexDigit : ∀ n, n < 16 → isWordCh (hexDigit n) = true := by decide
theorem isWordCh_hexDigitL : ∀ n, n < 16 → isWordCh (hexDigitL n) = true := by decide

theorem hexStr_spec (n : Nat) : hexStr n ≠ [] ∧ (∀ c ∈ hexStr n, isWordCh c = true) ∧ (hexStr n).foldl (baseStep 16) (some 0) = some n := by
  refine ⟨digitsAux_ne _ _ _ _ _ (.inl (by omega)), digitsAux_all _ _ _ _ _ _ (by omega) isWordCh_hexDigit (by simp), ?_⟩
  exact digitsAux_hex _ hexVal_hexDigit _ _ [] (lt_two_pow_log2 n) (by omega) 0 rfl

theorem hexStrL_spec (n : Nat) : hexStrL n ≠ [] ∧ (∀ c ∈ hexStrL n, isWordCh c = true) ∧ (hexStrL n).foldl (baseStep 16) (some 0) = some n := by
  refine ⟨digitsAux_ne _ _ _ _ _ (.inl (by omega)), digitsAux_all _ _ _ _ _ _ (by omega) isWordCh_hexDigitL (by simp), ?_⟩
  exact digitsAux_hex _ hexVal_hexDigitL _ _ [] (lt_two_pow_log2 n) (by omega) 0 rfl

theorem digitsAux_length16 (dig : Nat → Char) (fuel n k : Nat) (acc : Str) (hk : n < 16 ^ (k + 1)) :
    (digitsAux dig 16 fuel n acc).length ≤ acc.length + (k + 1) := by
  induction fuel generalizing n k acc with
  | zero => simp [digitsAux]
  | succ fuel ih =>
    rw [digitsAux]
    split
    · simp
    · cases k with
      | zero => simp at hk; omega
      | succ k =>
        have : n / 16 < 16 ^ (k + 1) := by
          rw [Nat.div_lt_iff_lt_mul (by omega)]
          rwa [Nat.pow_succ] at hk
        have := ih (n / 16) k (dig (n % 16) :: acc) this
        simp only [List.length_cons] at this
        omega

theorem constVal_hex (ds : Str) (h : ds ≠ []) : constVal ('0' :: 'x' :: ds) = ds.foldl (baseStep 16) (some 0) := by
  show baseVal 16 ds = _
  rw [baseVal_eq, if_neg h]

theorem constVal_altX (n : Nat) : constVal (fmtAltX n) = some n := by
  unfold fmtAltX
  split
  · rename_i h
    subst h
    decide
  · rw [constVal_hex _ (hexStrL_spec n).1, (hexStrL_spec n).2.2]

theorem constVal_02X (n : Nat) : constVal ('0' :: 'x' :: fmt02X n) = some n := by
  unfold fmt02X
  split
  · rw [constVal_hex _ (by simp), List.foldl_cons]
    have : baseStep 16 (some 0) '0' = some 0 := by decide
    rw [this, (hexStr_spec n).2.2]
  · rw [constVal_hex _ (hexStr_spec n).1, (hexStr_spec n).2.2]

theorem litOf_U {w : Str} {n : Nat} (hw : constVal w = some n) (h : n < 2 ^ 32) : litOf (w ++ "U".toList) = some ⟨.u32, (n : Nat)⟩ := by
  have hd : (w ++ "U".toList).dropLast = w := by
    show (w ++ ['U']).dropLast = _
    rw [List.dropLast_concat]
  have hg : (w ++ "U".toList).getLast? = some 'U' := by
    show (w ++ ['U']).getLast? = _
    rw [List.getLast?_concat]
  unfold litOf
  rw [if_pos (Or.inl hg), hd, hw]
  exact if_pos h

/-- A number token: begins with a digit, consists of word characters. -/
def NumW (w : Str) : Prop := inNumber w = true ∧ (∀ c ∈ w, isWordCh c = true)

theorem NumW.word {w : Str} (h : NumW w) : IsWord w := ⟨by intro e; rw [e] at h; exact absurd h.1 (by decide), h.2⟩

theorem numW_append {a b : Str} (h : NumW a) (hb : ∀ c ∈ b, isWordCh c = true) : NumW (a ++ b) := by
  refine ⟨?_, ?_⟩
  · cases a with
    | nil => cases h.1
    | cons c a => exact h.1
  · intro c hc
    rcases List.mem_append.mp hc with hc | hc
    · exact h.2 c hc
    · exact hb c hc

theorem wordU : ∀ c ∈ "U".toList, isWordCh c = true := by decide

theorem numW_decStr (n : Nat) : NumW (decStr n) := by
  have := decStr_words n [] (by simp)
  rw [List.append_nil] at this
  exact ⟨this.2.2, this.2.1⟩

theorem numW_decStrU (n : Nat) : NumW (decStr n ++ "U".toList) := numW_append (numW_decStr n) wordU

theorem numW_altX (n : Nat) : NumW (fmtAltX n ++ "U".toList) := by
  refine numW_append ?_ wordU
  unfold fmtAltX
  split
  · exact ⟨by decide, by decide⟩
  · refine ⟨rfl, ?_⟩
    intro c hc
    simp only [List.mem_cons] at hc
    rcases hc with rfl | rfl | hc
    · decide
    · decide
    · exact (hexStrL_spec n).2.1 c hc

theorem numW_02X (n : Nat) : NumW ("0x".toList ++ fmt02X n ++ "U".toList) := by
  refine numW_append ?_ wordU
  refine ⟨rfl, ?_⟩
  intro c hc
  rcases List.mem_append.mp hc with hc | hc
  · exact (by decide : ∀ c ∈ "0x".toList, isWordCh c = true) c hc
  · unfold fmt02X at hc
    split at hc
    · rcases List.mem_cons.mp hc with rfl | hc
      · decide
      · exact (hexStr_spec n).2.1 c hc
    · exact (hexStr_spec n).2.1 c hc

theorem litOf_altX {n : Nat} (h : n < 2 ^ 32) : litOf (fmtAltX n ++ "U".toList) = some ⟨.u32, (n : Nat)⟩ := litOf_U (constVal_altX n) h
theorem litOf_02X {n : Nat} (h : n < 2 ^ 32) : litOf ("0x".toList ++ fmt02X n ++ "U".toList) = some ⟨.u32, (n : Nat)⟩ := litOf_U (constVal_02X n) h

theorem altX_length {n : Nat} (h : n < 2 ^ 32) : (fmtAltX n).length ≤ 10 := by
  unfold fmtAltX
  split
  · simp
  · have := digitsAux_length16 hexDigitL (Nat.log2 n + 1) n 7 [] (by omega)
    simp only [List.length_cons, hexStrL]
    simp at this
    omega

theorem fmt02X_length {n : Nat} (h : n < 2 ^ 32) : (fmt02X n).length ≤ 9 := by
  have := digitsAux_length16 hexDigit (Nat.log2 n + 1) n 7 [] (by omega)
  unfold fmt02X hexStr
  split
  · simp only [List.length_cons]
    simp at this
    omega
  · simp at this
    omega

theorem isType_num {w : Str} (h : inNumber w = true) : isType w = false := by
  rw [Bool.eq_false_iff]
  intro ht
  have h1 : ∀ p ∈ typeNames, inNumber p.1 = false := by decide
  obtain ⟨v, hv⟩ := Option.isSome_iff_exists.mp ht
  have hm : ∃ p ∈ typeNames, p.1 = w := by
    have : ∀ l : List (Str × Option CTy), l.lookup w = some v → ∃ p ∈ l, p.1 = w := by
      intro l
      induction l with
      | nil => intro h; cases h
      | cons p l ih =>
        intro h
        rw [List.lookup_cons] at h
        split at h
        · rename_i e
          exact ⟨p, by simp, (beq_iff_eq.mp e).symm⟩
        · obtain ⟨q, hq, e⟩ := ih h
          exact ⟨q, by simp [hq], e⟩
    exact this _ hv
  obtain ⟨p, hp, rfl⟩ := hm
  rw [h1 p hp] at h
  cases h

theorem atom_num {w : Str} (h : inNumber w = true) : (if inNumber w then PExpr.num w else .id w) = .num w := if_pos h

theorem noDot_word {w : Str} (h : ∀ c ∈ w, isWordCh c = true) : w.contains '.' = false := by
  rw [Bool.eq_false_iff]
  intro e
  have := h '.' (List.contains_iff_mem.mp e)
  revert this
  decide

/-! ### Numbers with a dot -/

theorem lexGo_number (w rest cur : Str) (hc : inNumber cur = true) (hw : ∀ c ∈ w, (isWordCh c || c == '.') = true) (h : SepHead rest) :
    lexGo (w ++ rest) cur = .word (cur ++ w) :: lexGo rest [] := by
  induction w generalizing cur with
  | nil =>
    rw [List.nil_append, lexGo_flush h, List.append_nil]
    unfold flushWord
    rw [if_neg (by rintro rfl; cases hc)]
  | cons c w ih =>
    have h1 := hw c (by simp)
    have hcur : inNumber (cur ++ [c]) = true := by
      cases cur with
      | nil => cases hc
      | cons x cur => exact hc
    rw [List.cons_append, lexGo_step, if_pos (by rw [hc, Bool.and_true]; exact h1), ih _ hcur fun x hx => hw x (by simp [hx])]
    simp

/-- The tokens of a number with dots. -/
theorem lex_number {w rest : Str} (h0 : inNumber w = true) (hw : ∀ c ∈ w, (isWordCh c || c == '.') = true) (h : SepHead rest) :
    lex (w ++ rest) = .word w :: lex rest := by
  cases w with
  | nil => cases h0
  | cons c w =>
    have hd : isDigitCh c = true := h0
    have hwc : isWordCh c = true := by
      unfold isDigitCh at hd
      unfold isWordCh
      simp only [Bool.and_eq_true, decide_eq_true_eq] at hd
      simp [hd]
    unfold lex
    rw [List.cons_append, lexGo_step, if_pos (by rw [hwc]; rfl)]
    exact lexGo_number w rest _ hd (fun x hx => hw x (by simp [hx])) h

/-- A printed floating constant without its sign. -/
def DotNum (w : Str) : Prop := inNumber w = true ∧ (∀ c ∈ w, (isWordCh c || c == '.') = true) ∧ '.' ∈ w

/-- The digits printed for a factor or offset, without sign. -/
def decAbs (d : Dec) : Str := if d.num < 0 then (prtDec d).drop 1 else prtDec d

theorem padDigits_spec (n v : Nat) : (padDigits n v).length = n ∧ ∀ c ∈ padDigits n v, IsDigit c := by
  induction n generalizing v with
  | zero => simp [padDigits]
  | succ n ih =>
    constructor
    · simp [padDigits, ih]
    · intro c hc
      rw [padDigits] at hc
      rcases List.mem_append.mp hc with hc | hc
      · exact (ih _).2 c hc
      · rw [List.mem_singleton.mp hc]
        exact digitChar_isDigit (Nat.mod_lt _ (by omega))

theorem addTail_le (l : Str) (j acc : Nat) (h : acc ≤ j) : addTail l j acc ≤ j + l.length := by
  induction l generalizing j acc with
  | nil => simpa [addTail] using h
  | cons c l ih =>
    rw [addTail]
    have := ih (j + 1) (if '0' < c ∧ c ≤ '9' then j + 1 else acc) (by split <;> omega)
    simp only [List.length_cons]
    omega

/-- `prt_double` prints a sign, digits, a dot and digits. -/
theorem prtDouble_shape (neg : Bool) (q : Nat) :
    ∃ fr : Str, prtDouble neg q 9 true = (if neg then ['-'] else []) ++ (decStr (q / 10 ^ 10) ++ '.' :: fr) ∧ fr.length ≤ 9 ∧ ∀ c ∈ fr, IsDigit c := by
  obtain ⟨hl, hd⟩ := padDigits_spec 10 (q % 10 ^ 10)
  generalize hpd : padDigits 10 (q % 10 ^ 10) = pd at hl hd
  generalize hsg : (if neg then ['-'] else [] : Str) = sg
  have hsg' : ∀ c ∈ sg, c ≠ '.' := by
    subst hsg
    cases neg <;> decide
  have hds : ∀ c ∈ decStr (q / 10 ^ 10), c ≠ '.' := by
    intro c hc e
    have := (decStr_spec (q / 10 ^ 10)).2.1 c hc
    subst e
    revert this
    decide
  generalize hg : decStr (q / 10 ^ 10) = ds at hds
  have hf : fixed10 neg q = (sg ++ ds) ++ '.' :: pd := by
    unfold fixed10
    rw [hpd, hsg, hg]
  have hnd : ∀ c ∈ sg ++ ds, c ≠ '.' := by
    intro c hc
    rcases List.mem_append.mp hc with hc | hc
    · exact hsg' c hc
    · exact hds c hc
  have hidx : ((sg ++ ds) ++ '.' :: pd).findIdx? (· == '.') = some (sg ++ ds).length := by
    generalize sg ++ ds = l at hnd
    clear hf
    induction l with
    | nil => rw [List.nil_append, List.findIdx?_cons]; rfl
    | cons c l ih =>
      have h1 : (c == '.') = false := by simpa using hnd c (by simp)
      rw [List.cons_append, List.findIdx?_cons, h1, ih fun x hx => hnd x (by simp [hx])]
      simp
  unfold prtDouble prtDoubleText
  rw [hf, hidx]
  have hdrop : ((sg ++ ds) ++ '.' :: pd).drop ((sg ++ ds).length + 1) = pd := by
    have : (sg ++ ds) ++ '.' :: pd = ((sg ++ ds) ++ ['.']) ++ pd := by simp
    rw [this, List.drop_left' (by simp; omega)]
  dsimp only
  rw [hdrop]
  simp only [List.length_append, List.length_cons, hl]
  have htk : min (sg.length + ds.length + (10 + 1) - (sg.length + ds.length + 1)) 9 = 9 := by omega
  rw [htk]
  split
  · refine ⟨['0'], ?_, by simp, by decide⟩
    simp only [if_true]
    rw [List.take_left' (by simp)]
    simp
  · have h9 : addTail (List.take 9 pd) 0 0 ≤ 9 := by
      have := addTail_le (List.take 9 pd) 0 0 (Nat.le_refl _)
      simp [hl] at this
      exact this
    refine ⟨pd.take (addTail (List.take 9 pd) 0 0), ?_, by simp; omega, ?_⟩
    · generalize addTail (List.take 9 pd) 0 0 = k
      have : (sg ++ ds) ++ '.' :: pd = ((sg ++ ds) ++ ['.']) ++ pd := by simp
      rw [this, show sg.length + ds.length + k + 1 = ((sg ++ ds) ++ ['.']).length + k by simp; omega,
        List.take_length_add_append]
      simp
    · intro c hc
      exact hd c (List.mem_of_mem_take hc)

theorem prtDec_parts (d : Dec) : prtDec d = (if d.num < 0 then ['-'] else []) ++ decAbs d ∧ DotNum (decAbs d) := by
  obtain ⟨p, hp⟩ : ∃ p, prtDec d = prtDouble (decide (d.num < 0)) p 9 true := ⟨_, rfl⟩
  obtain ⟨fr, h1, -, h2⟩ := prtDouble_shape (decide (d.num < 0)) p
  rw [← hp] at h1
  generalize p / 10 ^ 10 = q at h1
  have hshape : DotNum (decStr q ++ '.' :: fr) := by
    refine ⟨?_, ?_, by simp⟩
    · have := (numW_decStr q).1
      cases h : decStr q with
      | nil => rw [h] at this; cases this
      | cons c r => rw [h] at this; exact this
    · intro c hc
      simp only [List.mem_append, List.mem_cons] at hc
      rcases hc with hc | rfl | hc
      · rw [(numW_decStr q).2 c hc]
        rfl
      · decide
      · rw [isWordCh_digit (h2 c hc)]
        rfl
  unfold decAbs
  by_cases hn : d.num < 0
  · simp only [hn, if_true, decide_true] at h1 ⊢
    rw [h1]
    exact ⟨rfl, hshape⟩
  · simp only [hn, if_false, decide_false, Bool.false_eq_true] at h1 ⊢
    rw [h1]
    exact ⟨rfl, hshape⟩

/-- Tokens of a printed number. -/
def signed (neg : Prop) [Decidable neg] (w : Str) : List Tok := if neg then [.p ['-'], .word w] else [.word w]

theorem lex_minus {w rest : Str} (h0 : inNumber w = true) : lex ('-' :: (w ++ rest)) = .p ['-'] :: lex (w ++ rest) := by
  cases w with
  | nil => cases h0
  | cons c w =>
    have hd : isDigitCh c = true := h0
    have h2 : twoCh '-' c = false := by
      refine twoCh_word ?_
      unfold isDigitCh at hd
      unfold isWordCh
      simp only [Bool.and_eq_true, decide_eq_true_eq] at hd
      simp [hd]
    unfold lex
    rw [List.cons_append, lexGo_step, if_neg (by decide), if_neg (by decide)]
    simp only [h2, Bool.false_eq_true, if_false]
    rfl

theorem lex_prtDec (d : Dec) {rest : Str} (h : SepHead rest) : lex (prtDec d ++ rest) = signed (d.num < 0) (decAbs d) ++ lex rest := by
  obtain ⟨h1, h2⟩ := prtDec_parts d
  rw [h1]
  unfold signed
  split
  · show lex ('-' :: (decAbs d ++ rest)) = _
    rw [lex_minus h2.1, lex_number h2.1 h2.2.1 h]
    rfl
  · show lex (decAbs d ++ rest) = _
    rw [lex_number h2.1 h2.2.1 h]
    rfl

theorem lex_intStr (z : Int) {rest : Str} (h : SepHead rest) : lex (intStr z ++ rest) = signed (z < 0) (decStr z.natAbs) ++ lex rest := by
  have hw := numW_decStr z.natAbs
  have hl : ∀ r, SepHead r → lex (decStr z.natAbs ++ r) = .word (decStr z.natAbs) :: lex r := fun r hr => lex_word hw.2 hw.word.1 hr
  unfold intStr signed
  split
  · show lex ('-' :: (decStr z.natAbs ++ rest)) = _
    rw [lex_minus hw.1, hl _ h]
    rfl
  · rw [hl _ h]
    rfl

theorem plain_dotNum {w : Str} (h : DotNum w) : PlainT w := by
  intro c hc
  rcases Bool.or_eq_true_iff.mp (h.2.1 c hc) with h | h
  · exact plainCh_word h
  · rw [beq_iff_eq.mp h]
    decide

theorem plain_prtDec (d : Dec) : PlainT (prtDec d) := by
  obtain ⟨h1, h2⟩ := prtDec_parts d
  rw [h1]
  refine PlainT.append ?_ (plain_dotNum h2)
  split
  · exact fun c hc => by rw [List.mem_singleton.mp hc]; decide
  · exact plainT_nil

theorem plain_intStr (z : Int) : PlainT (intStr z) := by
  have := plainT_word (numW_decStr z.natAbs).2
  unfold intStr
  split
  · exact PlainT.append (a := ['-']) (fun c hc => by rw [List.mem_singleton.mp hc]; decide) this
  · exact this

end Verif
