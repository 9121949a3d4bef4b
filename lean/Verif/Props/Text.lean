import Verif.Model.Formatter
import Verif.Proofs.Digits
/-
C33-C35, C47: text helpers.
-/
namespace Verif
open Spec

/-! ### C33: identifiers -/

theorem isFirstValid_iff (c : Char) : isFirstValid c = true ↔ IsLetter c := by
  unfold isFirstValid IsLetter
  simp only [Bool.or_eq_true, Bool.and_eq_true, decide_eq_true_eq, beq_iff_eq, Char.le_def, UInt32.le_iff_toNat_le]
  rw [Char.ext_iff, ← UInt32.toNat_inj, or_assoc]
  rfl

theorem isNonfirstValid_iff (c : Char) : isNonfirstValid c = true ↔ IsLetter c ∨ IsDigit c := by
  unfold isNonfirstValid
  rw [Bool.or_eq_true, isFirstValid_iff]
  unfold IsDigit
  simp only [Bool.and_eq_true, decide_eq_true_eq, Char.le_def, UInt32.le_iff_toNat_le]
  rfl

/-- What a character contributes after the first one. -/
def keepChar (c : Char) : Option Char :=
  if IsLetter c ∨ IsDigit c then some c else if c = ' ' then some '_' else none

theorem makeCNameLoop_ne {ret : Str} (h : ret ≠ []) (s : Str) :
    makeCNameLoop s ret = ret ++ s.filterMap keepChar := by
  induction s generalizing ret with
  | nil => simp [makeCNameLoop]
  | cons c rest ih =>
    have hl : ret.length > 0 := List.length_pos_iff.mpr h
    have hl0 : (ret.length == 0) = false := by simp; omega
    rw [makeCNameLoop, hl0]
    simp only [Bool.false_and, Bool.false_or, hl, decide_true, Bool.true_and]
    by_cases h1 : IsLetter c ∨ IsDigit c
    · rw [if_pos ((isNonfirstValid_iff c).mpr h1), ih (by simp)]
      have hk : keepChar c = some c := by rw [keepChar, if_pos h1]
      rw [List.filterMap_cons_some hk]
      simp
    · rw [if_neg (fun h => h1 ((isNonfirstValid_iff c).mp h))]
      by_cases h2 : c = ' '
      · rw [if_pos (by simpa using h2), ih (by simp)]
        have hk : keepChar c = some '_' := by rw [keepChar, if_neg h1, if_pos h2]
        rw [List.filterMap_cons_some hk]
        simp
      · rw [if_neg (by simpa using h2), ih h]
        have hk : keepChar c = none := by rw [keepChar, if_neg h1, if_neg h2]
        rw [List.filterMap_cons_none hk]

/-- **C33**: the sanitised name is the text without everything before the first letter, underscore or
blank, with the other characters that cannot occur in an identifier removed and blanks replaced by
underscores. -/
theorem C33_characterisation (s : Str) :
    makeCName s = (s.dropWhile fun c => !(decide (IsLetter c) || c == ' ')).filterMap keepChar := by
  unfold makeCName
  have key : makeCNameLoop s [] = (s.dropWhile fun c => !(decide (IsLetter c) || c == ' ')).filterMap keepChar := by
    induction s with
    | nil => rfl
    | cons c rest ih =>
      rw [makeCNameLoop]
      simp only [List.length_nil, beq_self_eq_true, Bool.true_and, gt_iff_lt, Nat.lt_irrefl, decide_false,
        Bool.false_and, Bool.or_false]
      by_cases h1 : IsLetter c
      · rw [if_pos ((isFirstValid_iff c).mpr h1), List.nil_append, makeCNameLoop_ne (by simp),
          List.dropWhile_cons_of_neg (by simp [h1])]
        have hk : keepChar c = some c := by rw [keepChar, if_pos (Or.inl h1)]
        rw [List.filterMap_cons_some hk]; rfl
      · rw [if_neg (fun h => h1 ((isFirstValid_iff c).mp h))]
        by_cases h2 : c = ' '
        · rw [if_pos (by simpa using h2), List.nil_append, makeCNameLoop_ne (by simp),
            List.dropWhile_cons_of_neg (by simp [h2])]
          have hd : ¬ (IsLetter c ∨ IsDigit c) := by subst h2; decide
          have hk : keepChar c = some '_' := by rw [keepChar, if_neg hd, if_pos h2]
          rw [List.filterMap_cons_some hk]; rfl
        · rw [if_neg (by simpa using h2), List.dropWhile_cons_of_pos (by simp [h1, h2]), ih]
  split
  · rename_i h; rw [List.length_eq_zero_iff.mp h]; rfl
  · exact key

/-- **C33**: the sanitised name is empty or a C identifier. -/
theorem C33_identifier (s : Str) : makeCName s = [] ∨ IsIdent (makeCName s) := by
  rw [C33_characterisation]
  cases hd : s.dropWhile (fun c => !(decide (IsLetter c) || c == ' ')) with
  | nil => left; rfl
  | cons c rest =>
    right
    have hc : IsLetter c ∨ c = ' ' := by
      have := List.head_dropWhile_not (fun c => !(decide (IsLetter c) || c == ' ')) (by rw [hd]; simp)
      simp only [hd, List.head_cons] at this
      by_cases hl : IsLetter c
      · exact Or.inl hl
      · exact Or.inr (by simpa [hl] using this)
    have hrest : ∀ x ∈ rest.filterMap keepChar, IsLetter x ∨ IsDigit x := by
      intro x hx
      obtain ⟨y, -, hy⟩ := List.mem_filterMap.mp hx
      unfold keepChar at hy
      split at hy
      · cases hy; assumption
      · split at hy
        · cases hy; decide
        · cases hy
    rcases hc with hc | hc
    · rw [List.filterMap_cons_some (by rw [keepChar, if_pos (Or.inl hc)])]
      exact ⟨hc, hrest⟩
    · have hd : ¬ (IsLetter c ∨ IsDigit c) := by subst hc; decide
      rw [List.filterMap_cons_some (by rw [keepChar, if_neg hd, if_pos hc])]
      exact ⟨by decide, hrest⟩

/-- **C33**: identifiers are unchanged. -/
theorem C33_unchanged (s : Str) (h : IsIdent s) : makeCName s = s := by
  rw [C33_characterisation]
  cases s with
  | nil => exact h.elim
  | cons c rest =>
    rw [List.dropWhile_cons_of_neg (by simp [h.1])]
    have hall : ∀ l : Str, (∀ x ∈ l, IsLetter x ∨ IsDigit x) → l.filterMap keepChar = l := by
      intro l hl
      induction l with
      | nil => rfl
      | cons a l ih =>
        have hk : keepChar a = some a := by rw [keepChar, if_pos (hl a (by simp))]
        rw [List.filterMap_cons_some hk, ih (fun x hx => hl x (by simp [hx]))]
    exact hall _ (by
      intro x hx
      rcases List.mem_cons.mp hx with rfl | hx
      · exact Or.inl h.1
      · exact h.2 x hx)

/-- **C33**: sanitising twice is the same as once. -/
theorem C33_idempotent (s : Str) : makeCName (makeCName s) = makeCName s := by
  rcases C33_identifier s with h | h
  · rw [h]; rfl
  · exact C33_unchanged _ h

example : makeCName "2 nd-gear äx1".toList = "_ndgear_x1".toList := by decide
example : IsIdent "_ndgear_x1".toList := ⟨by decide, by decide⟩

/-! ### C35: trimming -/

/-- **C35**: for non-empty lines trimming removes exactly the maximal tail of characters that are not
greater than a blank (as `char`). -/
theorem C35_trim (cm : Nat) (s : Str) (h : s ≠ []) :
    ∃ tail, s = strTrim cm s ++ tail ∧ (∀ c ∈ tail, c.toNat ≤ 32 ∨ cm < c.toNat) ∧
      (strTrim cm s = [] ∨ ∃ t c, strTrim cm s = t ++ [c] ∧ 32 < c.toNat ∧ c.toNat ≤ cm) := by
  unfold strTrim
  rw [if_neg (by simpa using h)]
  generalize hp : (fun c => !gtBlank cm c) = p
  have hsplit := List.takeWhile_append_dropWhile (p := p) (l := s.reverse)
  have hlen : (s.reverse.takeWhile p).length + (s.reverse.dropWhile p).length = s.length := by
    have := congrArg List.length hsplit
    rwa [List.length_append, List.length_reverse] at this
  have hs : s = (s.reverse.dropWhile p).reverse ++ (s.reverse.takeWhile p).reverse := by
    rw [← List.reverse_append, hsplit, List.reverse_reverse]
  have htake : s.take (s.length - (s.reverse.takeWhile p).length) = (s.reverse.dropWhile p).reverse := by
    conv => lhs; arg 2; rw [hs]
    rw [List.take_append_of_le_length (by rw [List.length_reverse]; omega),
      List.take_of_length_le (by rw [List.length_reverse]; omega)]
  have hres : (if (s.reverse.takeWhile p).length ≠ 0 then s.take (s.length - (s.reverse.takeWhile p).length) else s) =
      (s.reverse.dropWhile p).reverse := by
    by_cases h0 : (s.reverse.takeWhile p).length = 0
    · rw [if_neg (by simpa using h0)]
      conv => lhs; rw [hs]
      rw [List.length_eq_zero_iff.mp h0]; simp
    · rw [if_pos h0, htake]
  dsimp only
  rw [hres]
  refine ⟨(s.reverse.takeWhile p).reverse, hs, ?_, ?_⟩
  · intro c hc
    have := List.all_takeWhile (p := p) (l := s.reverse)
    rw [List.all_eq_true] at this
    have h1 := this c (List.mem_reverse.mp hc)
    rw [← hp] at h1
    simp only [gtBlank, Bool.not_eq_true', Bool.and_eq_false_iff, decide_eq_false_iff_not] at h1
    omega
  · cases hd : s.reverse.dropWhile p with
    | nil => left; rfl
    | cons c rest =>
      right
      refine ⟨rest.reverse, c, by simp, ?_⟩
      have := List.head_dropWhile_not p (l := s.reverse) (by rw [hd]; simp)
      simp only [hd, List.head_cons] at this
      rw [← hp] at this
      simpa [gtBlank] using this

/-- **C35**: the only change to an empty line: it becomes a line feed. -/
theorem C35_empty (cm : Nat) : strTrim cm [] = ['\n'] := rfl

/-- **C35**: on hosts with signed `char`, a tail of non-ASCII bytes is removed as well (`"Größe é"`,
here in Latin-1: the last word disappears); on hosts with unsigned `char` it is kept. -/
theorem C35_non_ascii : strTrim 127 "Temp é".toList = "Temp".toList ∧
    strTrim 255 "Temp é".toList = "Temp é".toList := by decide

example : strTrim 127 " SG_ x \r\t ".toList = " SG_ x".toList := by decide

/-! ### C34: printed factors and offsets -/

theorem padDigits_length (n v : Nat) : (padDigits n v).length = n := by
  induction n generalizing v with
  | zero => rfl
  | succ n ih => simp [padDigits, ih]

theorem padDigits_isDigit (n v : Nat) : ∀ c ∈ padDigits n v, IsDigit c := by
  induction n generalizing v with
  | zero => intro c hc; cases hc
  | succ n ih =>
    intro c hc
    rcases List.mem_append.mp hc with hc | hc
    · exact ih _ c hc
    · rw [List.mem_singleton.mp hc]; exact digitChar_isDigit (by omega)

theorem padDigits_val (n v : Nat) : digitsVal (padDigits n v) = v % 10 ^ n := by
  induction n generalizing v with
  | zero => simp [padDigits, digitsVal, Nat.mod_one]
  | succ n ih =>
    rw [padDigits, digitsVal_append, ih, digitsVal_cons, digitChar_toNat (by omega)]
    simp only [digitsVal, List.foldl_nil, List.length_nil, List.length_singleton, Nat.pow_one]
    rw [Nat.pow_succ, Nat.mul_comm (10 ^ n) 10, Nat.mod_mul]
    omega

/-- The kept fraction digits. -/
theorem addTail_spec (l : Str) (j acc : Nat) (hd : ∀ c ∈ l, IsDigit c) :
    ((∀ c ∈ l, c = '0') ∧ addTail l j acc = acc) ∨
    ∃ a c b, l = a ++ c :: b ∧ c ≠ '0' ∧ (∀ x ∈ b, x = '0') ∧ addTail l j acc = j + a.length + 1 := by
  induction l generalizing j acc with
  | nil => left; exact ⟨by simp, rfl⟩
  | cons x l ih =>
    have hx := hd x (by simp)
    have hcond : ('0' < x ∧ x ≤ '9') ↔ x ≠ '0' := by
      have e0 : ('0' < x) ↔ 48 < x.toNat := Iff.rfl
      have e9 : (x ≤ '9') ↔ x.toNat ≤ 57 := Iff.rfl
      rw [e0, e9]
      unfold IsDigit at hx
      constructor
      · intro h hx0
        rw [hx0] at h
        exact absurd h.1 (by decide)
      · intro h
        have : x.toNat ≠ 48 := fun h48 => h (Char.toNat_inj.mp h48)
        omega
    rw [addTail]
    rcases ih (j + 1) (if '0' < x ∧ x ≤ '9' then j + 1 else acc) (fun c hc => hd c (by simp [hc])) with ⟨hz, e⟩ | ⟨a, c, b, hl, hc, hb, e⟩
    · by_cases h0 : x = '0'
      · left
        refine ⟨?_, ?_⟩
        · intro c hc
          rcases List.mem_cons.mp hc with rfl | hc
          · exact h0
          · exact hz c hc
        · rw [e, if_neg (fun h => hcond.mp h h0)]
      · right
        refine ⟨[], x, l, rfl, h0, hz, ?_⟩
        rw [e, if_pos (hcond.mpr h0)]
        rfl
    · right
      exact ⟨x :: a, c, b, by rw [hl]; rfl, hc, hb, by rw [e, List.length_cons]; omega⟩

/-- **C34**: the printed literal consists of the sign, the integer part, and at most `precision`
fraction digits without trailing zero (`.0` if there is none and a dot is required); its value is the
value `± q / 10^10` of the ten-digit text cut off after `precision` digits. -/
theorem C34_printed (neg : Bool) (q p : Nat) (usedot : Bool) :
    ∃ ip fr : Str,
      prtDouble neg q p usedot =
        (if neg then ['-'] else []) ++ ip ++ (if fr = [] then (if usedot then ".0".toList else []) else '.' :: fr) ∧
      ip ≠ [] ∧ (∀ c ∈ ip, IsDigit c) ∧ (∀ c ∈ fr, IsDigit c) ∧ fr.length ≤ p ∧ fr.length ≤ 10 ∧
      (∀ t, fr ≠ t ++ ['0']) ∧ digitsVal ip = q / 10 ^ 10 ∧
      digitsVal ip * 10 ^ 10 + digitsVal fr * 10 ^ (10 - fr.length) ≤ q ∧
      q < digitsVal ip * 10 ^ 10 + digitsVal fr * 10 ^ (10 - fr.length) + 10 ^ (10 - min p 10) := by
  obtain ⟨hne, hdig, hval, -⟩ := decStr_spec (q / 10 ^ 10)
  generalize hsg : (if neg then ['-'] else [] : Str) = sg
  have hsgd : ∀ c ∈ sg, c ≠ '.' := by
    subst hsg; cases neg <;> simp
  have hipd : ∀ c ∈ decStr (q / 10 ^ 10), c ≠ '.' := by
    intro c hc h
    have := hdig c hc
    rw [h] at this
    exact absurd this (by decide)
  let fp := padDigits 10 (q % 10 ^ 10)
  have hfl : fp.length = 10 := padDigits_length _ _
  have hfd : ∀ c ∈ fp, IsDigit c := padDigits_isDigit _ _
  have hfv : digitsVal fp = q % 10 ^ 10 := by rw [padDigits_val]; omega
  have htext : fixed10 neg q = (sg ++ decStr (q / 10 ^ 10)) ++ '.' :: fp := by
    unfold fixed10; rw [hsg]
  have hidx : (fixed10 neg q).findIdx? (· == '.') = some (sg ++ decStr (q / 10 ^ 10)).length := by
    rw [htext, List.findIdx?_eq_some_iff_getElem]
    refine ⟨by simp, by simp, ?_⟩
    intro j hj
    rw [List.getElem_append_left (by omega)]
    have hm := List.getElem_mem (l := sg ++ decStr (q / 10 ^ 10)) (by omega : j < _)
    rcases List.mem_append.mp hm with hm | hm
    · simpa using hsgd _ hm
    · simpa using hipd _ hm
  have hdrop : (fixed10 neg q).drop ((sg ++ decStr (q / 10 ^ 10)).length + 1) = fp := by
    rw [htext, List.drop_append, List.drop_eq_nil_of_le (by omega)]
    simp
  have hlen : (fixed10 neg q).length - ((sg ++ decStr (q / 10 ^ 10)).length + 1) = 10 := by
    rw [htext, List.length_append, List.length_cons, hfl]; omega
  have htake0 : (fixed10 neg q).take (sg ++ decStr (q / 10 ^ 10)).length = sg ++ decStr (q / 10 ^ 10) := by
    rw [htext, List.take_left']
    rfl
  have htakek : ∀ k, (fixed10 neg q).take ((sg ++ decStr (q / 10 ^ 10)).length + k + 1) =
      sg ++ decStr (q / 10 ^ 10) ++ '.' :: fp.take k := by
    intro k
    rw [htext, List.take_append, List.take_of_length_le (by omega)]
    have : (sg ++ decStr (q / 10 ^ 10)).length + k + 1 - (sg ++ decStr (q / 10 ^ 10)).length = k + 1 := by omega
    rw [this]
    rfl
  have hq : q / 10 ^ 10 * 10 ^ 10 + q % 10 ^ 10 = q := by
    rw [Nat.mul_comm]; exact Nat.div_add_mod q (10 ^ 10)
  -- the digits considered
  have hm10 : min 10 p ≤ 10 := by omega
  generalize hk : min 10 p = k at hm10
  have hkp : k ≤ p := by omega
  have hmin : 10 - min p 10 = 10 - k := by omega
  have hsplit : fp = fp.take k ++ fp.drop k := (List.take_append_drop k fp).symm
  have hl1 : (fp.take k).length = k := by rw [List.length_take]; omega
  have hl2 : (fp.drop k).length = 10 - k := by rw [List.length_drop]; omega
  have hv := digitsVal_append (fp.take k) (fp.drop k)
  rw [← hsplit, hl2, hfv] at hv
  have hlt := digitsVal_lt (s := fp.drop k) (fun c hc => hfd c (List.mem_of_mem_drop hc))
  rw [hl2] at hlt
  have hres : prtDouble neg q p usedot =
      (let addtail := addTail (fp.take k) 0 0
       if addtail = 0 then (if usedot then sg ++ decStr (q / 10 ^ 10) ++ ".0".toList else sg ++ decStr (q / 10 ^ 10))
       else sg ++ decStr (q / 10 ^ 10) ++ '.' :: fp.take addtail) := by
    unfold prtDouble prtDoubleText
    rw [hidx]
    dsimp only
    rw [hlen, hdrop, htake0, htakek, hk]
  rw [hres]
  dsimp only
  rcases addTail_spec (fp.take k) 0 0 (fun c hc => hfd c (List.mem_of_mem_take hc)) with ⟨hz, e⟩ | ⟨a, c, b, hl, hc, hb, e⟩
  · refine ⟨decStr (q / 10 ^ 10), [], ?_, hne, hdig, by simp, by simp, by simp, by simp, hval, ?_, ?_⟩
    · rw [e, if_pos rfl, if_pos rfl]
      cases usedot <;> simp
    · rw [hval]
      simp only [digitsVal, List.foldl_nil]
      omega
    · have hz' := digitsVal_zeros hz
      rw [hz'] at hv
      rw [hval, hmin]
      have : digitsVal [] = 0 := rfl
      rw [this]
      omega
  · have hal : a.length + 1 ≤ k := by
      have := congrArg List.length hl
      rw [hl1, List.length_append, List.length_cons] at this
      omega
    have hka : fp.take (0 + a.length + 1) = a ++ [c] := by
      have h1 : fp.take (0 + a.length + 1) = (fp.take k).take (0 + a.length + 1) := by
        rw [List.take_take]; congr 1; omega
      rw [h1, hl, List.take_append, List.take_of_length_le (by omega)]
      have : 0 + a.length + 1 - a.length = 1 := by omega
      rw [this]
      rfl
    have hsum : a.length + 1 + b.length = k := by
      have := congrArg List.length hl
      rw [hl1, List.length_append, List.length_cons] at this
      omega
    have hvk : digitsVal (fp.take k) = digitsVal (a ++ [c]) * 10 ^ b.length := by
      rw [hl, show a ++ c :: b = (a ++ [c]) ++ b by simp, digitsVal_append, digitsVal_zeros hb]
      omega
    refine ⟨decStr (q / 10 ^ 10), a ++ [c], ?_, hne, hdig, ?_, ?_, ?_, ?_, hval, ?_, ?_⟩
    · rw [e, if_neg (by omega), if_neg (by simp), hka]
    · intro x hx
      apply hfd x
      apply List.mem_of_mem_take (i := k)
      rw [hl]
      rcases List.mem_append.mp hx with hx | hx
      · simp [hx]
      · simp [List.mem_singleton.mp hx]
    · simp; omega
    · simp; omega
    · intro t ht
      have := List.append_inj_right' ht (by simp)
      cases this
      exact hc rfl
    all_goals
      have hp : 10 - (a ++ [c]).length = b.length + (10 - k) := by simp; omega
      rw [hp, hval, Nat.pow_add, ← Nat.mul_assoc, ← hvk]
    · omega
    · rw [hmin]; omega

/-- **C47**: a factor or offset with at most nine decimal places is printed exactly. -/
theorem C47_exact_partial (neg : Bool) (q : Nat) (usedot : Bool) (h : 10 ∣ q) :
    ∃ ip fr : Str, prtDouble neg q 9 usedot =
        (if neg then ['-'] else []) ++ ip ++ (if fr = [] then (if usedot then ".0".toList else []) else '.' :: fr) ∧
      (∀ c ∈ ip, IsDigit c) ∧ (∀ c ∈ fr, IsDigit c) ∧ fr.length ≤ 9 ∧
      digitsVal ip * 10 ^ 10 + digitsVal fr * 10 ^ (10 - fr.length) = q := by
  obtain ⟨ip, fr, e, -, h1, h2, h3, -, -, -, h4, h5⟩ := C34_printed neg q 9 usedot
  refine ⟨ip, fr, e, h1, h2, h3, ?_⟩
  have hdvd : 10 ∣ digitsVal ip * 10 ^ 10 + digitsVal fr * 10 ^ (10 - fr.length) := by
    have hpow : ∀ k, 0 < k → 10 ∣ 10 ^ k := fun k hk =>
      ⟨10 ^ (k - 1), by rw [← Nat.pow_succ']; congr 1; omega⟩
    exact Nat.dvd_add (Nat.dvd_mul_left_of_dvd (hpow 10 (by omega)) _)
      (Nat.dvd_mul_left_of_dvd (hpow (10 - fr.length) (by omega)) _)
  have h10 : (10:Nat) ^ (10 - min 9 10) = 10 := rfl
  rw [h10] at h5
  omega

/-- **C47**: a factor of magnitude at least `10^-9` (all that the parser keeps) is never printed as
zero, so the `toS` macro does not divide by zero. -/
theorem C47_nonzero_partial (neg : Bool) (q : Nat) (usedot : Bool) (h : 10 ≤ q) :
    ∃ ip fr : Str, prtDouble neg q 9 usedot =
        (if neg then ['-'] else []) ++ ip ++ (if fr = [] then (if usedot then ".0".toList else []) else '.' :: fr) ∧
      (∀ c ∈ ip, IsDigit c) ∧ (∀ c ∈ fr, IsDigit c) ∧ 0 < digitsVal ip + digitsVal fr := by
  obtain ⟨ip, fr, e, -, h1, h2, h3, -, -, -, h4, h5⟩ := C34_printed neg q 9 usedot
  refine ⟨ip, fr, e, h1, h2, ?_⟩
  have h10 : (10:Nat) ^ (10 - min 9 10) = 10 := rfl
  rw [h10] at h5
  rcases Nat.eq_zero_or_pos (digitsVal ip + digitsVal fr) with h0 | h0
  · have e1 : digitsVal ip = 0 := by omega
    have e2 : digitsVal fr = 0 := by omega
    rw [e1, e2] at h5
    omega
  · exact h0

/-- **C47** is false: the factor 0.0000000019 is printed as 0.000000001, a relative error of 47 %. -/
theorem C47_refuted : prtDouble false 19 9 true = "0.000000001".toList := by decide

example : prtDouble true 125000000000 9 true = "-12.5".toList := by decide
example : prtDouble false 30000000000 9 true = "3.0".toList := by decide
example : prtDouble false 12345678901 5 true = "1.23456".toList := by decide

end Verif
