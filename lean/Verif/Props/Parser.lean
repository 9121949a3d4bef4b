import Verif.Model.Scanner
import Verif.Proofs.Split
import Verif.Spec.DbcText
/-
C24, C25: message lines.
-/
namespace Verif
open Spec

theorem isAlpha_iff (c : Char) : (isAlpha c || c == '_') = true ↔ IsLetter c := by
  unfold isAlpha IsLetter
  have h : c = '_' ↔ c.toNat = 95 := by
    constructor
    · rintro rfl; rfl
    · intro h; exact Char.toNat_inj.mp h
  simp only [Bool.or_eq_true, Bool.and_eq_true, decide_eq_true_eq, beq_iff_eq, h]
  omega

theorem isWord_iff (c : Char) : isWord c = true ↔ IsLetter c ∨ IsDigit c := by
  rw [← isAlpha_iff, ← isDig_iff]
  unfold isWord
  simp only [Bool.or_eq_true]
  constructor <;> rintro ((h | h) | h) <;> simp [h]

theorem isWord_dig {c : Char} (h : IsDigit c) : isWord c = true := (isWord_iff c).mpr (Or.inr h)

theorem decStr_word (n : Nat) : ∀ c ∈ decStr n, isWord c = true :=
  fun c hc => isWord_dig ((decStr_spec n).2.1 c hc)

theorem ident_word {s : Str} (h : IsIdent s) : IsWordStr s := by
  cases s with
  | nil => exact absurd h (by simp [IsIdent])
  | cons c cs =>
    refine ⟨by simp, fun x hx => ?_⟩
    rcases List.mem_cons.mp hx with rfl | hx
    · exact Or.inl h.1
    · exact h.2 x hx

/-- The pieces of a header line. -/
theorem msgLine_items (id : Nat) (name : Str) (dlc : Nat) (tx : Str)
    (hn : ∀ c ∈ name, isWord c = true) (ht : ∀ c ∈ tx, isWord c = true) :
    resplit mMessage (msgLine id name dlc tx) =
      ["BO_".toList, decStr id, name, [], decStr dlc] ++ (if tx = [] then [] else [tx]) := by
  have hw : ∀ s : Str, (∀ c ∈ s, isWord c = true) → ∀ c ∈ s, (!(isWord c || c == '.' || c == '-')) = false := by
    intro s h c hc; simp [h c hc]
  have e : msgLine id name dlc tx =
      "BO_".toList ++ ' ' :: (decStr id ++ ' ' :: (name ++ ':' :: ([] ++ ' ' :: (decStr dlc ++ ' ' :: tx)))) := by
    unfold msgLine
    simp only [List.append_assoc]
    rfl
  rw [e]
  unfold mMessage
  rw [resplit_one (by decide) (by decide), restSplit_one (hw _ (decStr_word id)) (by decide),
    restSplit_one (hw _ hn) (by decide), restSplit_one (by simp) (by decide),
    restSplit_one (hw _ (decStr_word dlc)) (by decide)]
  by_cases h : tx = []
  · rw [if_pos h, h]; rfl
  · rw [if_neg h, restSplit_one_last h (hw _ ht)]; rfl

theorem and_bits29 (n : Nat) : n &&& 0x60000000 = 0 ↔ n.testBit 29 = false ∧ n.testBit 30 = false := by
  constructor
  · intro h
    have h1 := congrArg (·.testBit 29) h
    have h2 := congrArg (·.testBit 30) h
    simp only [Nat.testBit_and, Nat.zero_testBit] at h1 h2
    rw [show (0x60000000 : Nat).testBit 29 = true by decide, Bool.and_true] at h1
    rw [show (0x60000000 : Nat).testBit 30 = true by decide, Bool.and_true] at h2
    exact ⟨h1, h2⟩
  · rintro ⟨h1, h2⟩
    apply Nat.eq_of_testBit_eq
    intro i
    rw [Nat.testBit_and, Nat.zero_testBit]
    have e : (0x60000000 : Nat) = 3 * 2 ^ 29 := by decide
    rw [e, Nat.testBit_mul_two_pow]
    by_cases hi : 29 ≤ i
    · by_cases h29 : i = 29
      · subst h29; rw [h1]; rfl
      · by_cases h30 : i = 30
        · subst h30; rw [h2]; rfl
        · have : (3 : Nat).testBit (i - 29) = false :=
            Nat.testBit_lt_two_pow (Nat.lt_of_lt_of_le (by decide : 3 < 2 ^ 2) (Nat.pow_le_pow_right (by decide) (by omega)))
          rw [this]; simp
    · simp [hi]

theorem ext_bit (n : Nat) (h : n < 2 ^ 32) : (((n >>> 29) % 256) &&& 4 == 4) = n.testBit 31 := by
  rw [Nat.shiftRight_eq_div_pow]
  have hb : n.testBit 31 = decide (n / 2 ^ 31 % 2 = 1) := by rw [Nat.testBit_eq_decide_div_mod_eq]
  rw [hb]
  have hq : n / 2 ^ 29 < 8 := by omega
  have h2 : n / 2 ^ 31 = n / 2 ^ 29 / 4 := by omega
  rw [h2]
  generalize n / 2 ^ 29 = q at hq
  have : q = 0 ∨ q = 1 ∨ q = 2 ∨ q = 3 ∨ q = 4 ∨ q = 5 ∨ q = 6 ∨ q = 7 := by omega
  rcases this with rfl | rfl | rfl | rfl | rfl | rfl | rfl | rfl <;> decide

/-- **C24**: whatever the line, an accepted header has a DLC from 1 to 64 and a 29-bit id. -/
theorem C24_limits (P : Platform) (line : Str) (m : Msg) (h : parseMessageLine P line = some m) :
    1 ≤ m.dlc ∧ m.dlc ≤ 64 ∧ m.msgId < 2 ^ 29 ∧ m.signals = [] ∧ m.recS = [] := by
  unfold parseMessageLine at h
  dsimp only at h
  split at h
  · cases h
  · split at h
    · cases h
    · rename_i hn
      cases h
      have hc := clearMsgId_eq (toU32 (atoll P ((resplit mMessage line).getD 1 [])))
      refine ⟨?_, ?_, ?_, rfl, rfl⟩
      · dsimp only; omega
      · dsimp only; omega
      · dsimp only; rw [hc]; omega

/-- What is read from a header line: exact for all numbers that `int` and `long long` can hold. -/
theorem parse_msgLine (P : Platform) (id : Nat) (name : Str) (dlc : Nat) (tx : Str)
    (hn : IsIdent name) (ht : ∀ c ∈ tx, IsLetter c ∨ IsDigit c) (hid : id < 2 ^ 63) (hdlc : dlc < 2 ^ 31) :
    parseMessageLine P (msgLine id name dlc tx) =
      if (id.testBit 29 = false ∧ id.testBit 30 = false) ∧ 1 ≤ dlc % 256 ∧ dlc % 256 ≤ 64 then
        some { name := name, dlc := dlc % 256, msgId := id % 2 ^ 29, isExt := id.testBit 31,
               tranS := if 1 < tx.length then [tx] else [] }
      else none := by
  have hi := msgLine_items id name dlc tx (fun c hc => (isWord_iff c).mpr ((ident_word hn).2 c hc))
    (fun c hc => (isWord_iff c).mpr (ht c hc))
  unfold parseMessageLine
  rw [hi]
  dsimp only
  have htb : ∀ i, i < 32 → (id % 2 ^ 32).testBit i = id.testBit i := by
    intro i hi; rw [Nat.testBit_mod_two_pow]; simp [hi]
  have htx : (if 6 ≤ (["BO_".toList, decStr id, name, [], decStr dlc] ++ (if tx = [] then [] else [tx])).length then
      (["BO_".toList, decStr id, name, [], decStr dlc] ++ (if tx = [] then [] else [tx])).getD 5 [] else []) = tx := by
    by_cases h : tx = []
    · rw [h]; rfl
    · rw [if_neg h]; rfl
  rw [htx, if_neg (by split <;> simp)]
  have h1 : (["BO_".toList, decStr id, name, [], decStr dlc] ++ (if tx = [] then [] else [tx])).getD 1 [] = decStr id := rfl
  have h2 : (["BO_".toList, decStr id, name, [], decStr dlc] ++ (if tx = [] then [] else [tx])).getD 2 [] = name := rfl
  have h4 : (["BO_".toList, decStr id, name, [], decStr dlc] ++ (if tx = [] then [] else [tx])).getD 4 [] = decStr dlc := rfl
  rw [h1, h2, h4, atoll_decStr P hid, atoi_decStr P hdlc, toU32_nat, toU8_nat, clearMsgId_eq, ext_bit _ (by omega),
    htb 31 (by decide)]
  have hb := and_bits29 (id % 2 ^ 32)
  rw [htb 29 (by decide), htb 30 (by decide)] at hb
  have h29 : id % 2 ^ 32 % 2 ^ 29 = id % 2 ^ 29 := by omega
  by_cases hc : (id.testBit 29 = false ∧ id.testBit 30 = false) ∧ 1 ≤ dlc % 256 ∧ dlc % 256 ≤ 64
  · rw [if_pos hc, if_neg]
    · rw [h29]
    · rintro (h | h | h)
      · exact h (hb.mpr hc.1)
      · omega
      · omega
  · rw [if_neg hc, if_pos]
    by_cases hb2 : id % 2 ^ 32 &&& 0x60000000 = 0
    · have := hb.mp hb2
      refine Or.inr ?_
      by_cases h0 : 1 ≤ dlc % 256
      · exact Or.inr (by
          have : ¬ dlc % 256 ≤ 64 := fun h => hc ⟨this, h0, h⟩
          show 64 < dlc % 2 ^ 8
          omega)
      · exact Or.inl (by show dlc % 2 ^ 8 = 0; omega)
    · exact Or.inl hb2

/-- **C24**: a header in DBC syntax with a 32-bit id and a DLC below 256 is accepted iff bits 29 and 30 of
the id are clear and the DLC is 1 to 64; it is marked extended iff bit 31 is set. -/
theorem C24_accept_partial (P : Platform) (id : Nat) (name : Str) (dlc : Nat) (tx : Str)
    (hn : IsIdent name) (ht : ∀ c ∈ tx, IsLetter c ∨ IsDigit c) (hid : id < 2 ^ 32) (hdlc : dlc < 256) :
    (parseMessageLine P (msgLine id name dlc tx) ≠ none ↔
      id.testBit 29 = false ∧ id.testBit 30 = false ∧ 1 ≤ dlc ∧ dlc ≤ 64) ∧
    (∀ m, parseMessageLine P (msgLine id name dlc tx) = some m → m.isExt = id.testBit 31) := by
  rw [parse_msgLine P id name dlc tx hn ht (by omega) (by omega), Nat.mod_eq_of_lt hdlc]
  refine ⟨?_, ?_⟩
  · split
    · rename_i h; simp [h]
    · rename_i h
      simp only [ne_eq, not_true_eq_false, false_iff]
      rintro ⟨h1, h2, h3, h4⟩
      exact h ⟨⟨h1, h2⟩, h3, h4⟩
  · intro m hm
    split at hm
    · cases hm; rfl
    · cases hm

/-- **C24** is false for large DLCs: 264 is accepted as 8. -/
theorem C24_refuted (P : Platform) :
    parseMessageLine P (msgLine 100 "Msg".toList 264 "ECU".toList) =
      some { name := "Msg".toList, dlc := 8, msgId := 100, tranS := ["ECU".toList] } := by
  rw [parse_msgLine P 100 _ 264 _ (by decide) (by decide) (by decide) (by decide)]
  rfl

/-- **C25**: id, name, DLC and transmitter of a valid header are read as written (transmitter names of
at least two characters). -/
theorem C25_header_partial (P : Platform) (ext : Bool) (id : Nat) (name : Str) (dlc : Nat) (tx : Str)
    (hid : id < 2 ^ 29) (hn : IsIdent name) (hdlc : 1 ≤ dlc ∧ dlc ≤ 64) (ht : IsIdent tx) (htl : 2 ≤ tx.length) :
    parseMessageLine P (msgLine (if ext then id + 2 ^ 31 else id) name dlc tx) =
      some { name := name, dlc := dlc, msgId := id, isExt := ext, tranS := [tx] } := by
  have hlt : (if ext then id + 2 ^ 31 else id) < 2 ^ 32 := by split <;> omega
  rw [parse_msgLine P _ name dlc tx hn (ident_word ht).2 (by omega) (by omega)]
  have hdm : dlc % 256 = dlc := by omega
  have hmod : (if ext then id + 2 ^ 31 else id) % 2 ^ 29 = id := by split <;> omega
  have hext : (if ext then id + 2 ^ 31 else id).testBit 31 = ext := by
    rw [Nat.testBit_eq_decide_div_mod_eq]
    cases ext
    · have : ¬ id / 2 ^ 31 % 2 = 1 := by omega
      simpa using this
    · have : (id + 2 ^ 31) / 2 ^ 31 % 2 = 1 := by omega
      simpa using this
  have h29 : ∀ k, 29 ≤ k → k < 31 → (if ext then id + 2 ^ 31 else id).testBit k = false := by
    intro k h1 h2
    rw [Nat.testBit_eq_decide_div_mod_eq]
    have : k = 29 ∨ k = 30 := by omega
    have : ¬ (if ext then id + 2 ^ 31 else id) / 2 ^ k % 2 = 1 := by
      rcases this with rfl | rfl <;> split <;> omega
    simpa using this
  rw [if_pos ⟨⟨h29 29 (by decide) (by decide), h29 30 (by decide) (by decide)⟩, by omega, by omega⟩, hdm, hmod, hext,
    if_pos (by omega)]

/-- **C25** is false for transmitter names of one character: they are dropped. -/
theorem C25_refuted (P : Platform) :
    parseMessageLine P (msgLine 100 "Msg".toList 8 "A".toList) = some { name := "Msg".toList, dlc := 8, msgId := 100 } := by
  rw [parse_msgLine P 100 _ 8 _ (by decide) (by decide) (by decide) (by decide)]
  rfl

/-- The hypotheses of `C24_accept_partial` and `C25_header_partial` are met by an extended CAN FD header. -/
example : IsIdent "Motor_1".toList ∧ IsIdent "Gateway".toList ∧ 2 ≤ "Gateway".toList.length ∧ 0x18FF1234 < 2 ^ 29 ∧
    msgLine (0x18FF1234 + 2 ^ 31) "Motor_1".toList 64 "Gateway".toList =
      "BO_ 2566853172 Motor_1: 64 Gateway".toList := by
  refine ⟨by decide, by decide, by decide, by decide, by decide⟩

/-- Lines that `C24_limits` speaks about exist beyond those of `msgLine`: no transmitter at all. -/
example (P : Platform) : parseMessageLine P "BO_ 100 Msg: 8 ".toList = some { name := "Msg".toList, dlc := 8, msgId := 100 } := by
  rw [show "BO_ 100 Msg: 8 ".toList = msgLine 100 "Msg".toList 8 [] by decide,
    parse_msgLine P 100 _ 8 _ (by decide) (by decide) (by decide) (by decide)]
  rfl

end Verif
