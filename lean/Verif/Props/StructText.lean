import Verif.Model.MainText
/-
C41: when the header can be printed.
-/
namespace Verif

/-! ### Statement -/

/-- How much longer than the longest name of a message (or than 27) the name of the rolling counter may
be counted: the declaration of the expected value `<name>_expt` has an extra `_expt` and, as a
bit-field, an extra ` : n`. -/
def Spec.rollExcess (ty : CTy) (bits : Nat) : Nat :=
  match ty with
  | .i8 => if bits < 8 then 3 else 0
  | .u8 => if bits < 8 then 4 else 0
  | .i16 | .i32 | .i64 => if bits < 8 then 4 else 0
  | .u16 | .u32 | .u64 => if bits < 8 then 5 else 1

/-- The rolling counter of the message has a name that is (nearly) the longest and not short. -/
def Spec.RollTooLong (m : Msg) : Prop :=
  ∃ r, m.sigAt m.rollSig = some r ∧ 27 < r.name.length + Spec.rollExcess r.typeRo r.lengthBit ∧
    ∀ s ∈ m.signals, s.name.length < r.name.length + Spec.rollExcess r.typeRo r.lengthBit

/-- The signal is scaled with integers, and one of them is no `int32_t`. -/
def Spec.ScaleTooLarge (s : Sig) : Prop :=
  s.isSimple = false ∧ s.isDouble = false ∧
    (s.factor.trunc < -(2 ^ 31) ∨ 2 ^ 31 ≤ s.factor.trunc ∨ s.offset.trunc < -(2 ^ 31) ∨ 2 ^ 31 ≤ s.offset.trunc)

/-! ### Proof -/

theorem fmtCastI32_none {d : Dec} : fmtCastI32 d = none ↔ d.trunc < -(2 ^ 31) ∨ 2 ^ 31 ≤ d.trunc := by
  unfold fmtCastI32
  split <;> simp <;> omega

theorem eqInt_trunc {d : Dec} {z : Int} (h : d.eqInt z = true) : d.trunc = z := by
  have : d.num = z * 10 ^ d.scale := by simpa [Dec.eqInt] using h
  unfold Dec.trunc
  rw [this]
  have h10 : (10 : Int) ^ d.scale ≠ 0 := Int.pow_ne_zero (by decide)
  exact Int.mul_tdiv_cancel _ h10

theorem infoComment_none (s : Sig) : infoComment s = none ↔ Spec.ScaleTooLarge s := by
  have h1 : infoComment s = none ↔ infoScale s = none := Option.map_eq_none_iff
  rw [h1]
  unfold infoScale infoOffset Spec.ScaleTooLarge
  cases hs : s.isSimple <;> cases hd : s.isDouble <;>
    simp only [Bool.and_self, Bool.and_true, Bool.and_false, Bool.not_false, Bool.not_true, Bool.false_eq_true, if_true, if_false,
      reduceCtorEq, false_and, and_false, true_and, iff_false]
  · -- integer scaling
    by_cases ho : s.offset.eqInt 0 = true
    · have := eqInt_trunc ho
      rw [if_pos ho]
      by_cases hf : s.factor.eqInt 1 = true
      · have := eqInt_trunc hf
        simp only [Option.bind_some, if_pos hf, reduceCtorEq, false_iff]; omega
      · simp only [Option.bind_some, if_neg hf, Option.map_eq_none_iff, fmtCastI32_none]; omega
    · rw [if_neg ho]
      cases hc : fmtCastI32 s.offset with
      | none => have := fmtCastI32_none.1 hc; simp only [Option.map_none, Option.bind_none, true_iff]; omega
      | some o =>
        have h2 : ¬ (s.offset.trunc < -(2 ^ 31) ∨ 2 ^ 31 ≤ s.offset.trunc) := fun h => by rw [fmtCastI32_none.2 h] at hc; cases hc
        by_cases hf : s.factor.eqInt 1 = true
        · have := eqInt_trunc hf
          simp only [Option.map_some, Option.bind_some, if_pos hf, reduceCtorEq, false_iff]; omega
        · simp only [Option.map_some, Option.bind_some, if_neg hf, Option.map_eq_none_iff, fmtCastI32_none]; omega
  · by_cases ho : s.offset.eqInt 0 = true <;> by_cases hf : s.factor.eqInt 1 = true <;>
      simp only [ho, hf, if_true, if_false, Option.bind_some, Bool.false_eq_true, reduceCtorEq, not_false_eq_true]
  · by_cases ho : s.offset.eqInt 0 = true <;> by_cases hf : s.factor.eqInt 1 = true <;>
      simp only [ho, hf, if_true, if_false, Option.bind_some, Bool.false_eq_true, reduceCtorEq, not_false_eq_true]

theorem writeField_none (g : GenDesc) (s : Sig) (bits : Bool) (n : Nat) :
    writeSigStructField g s bits n = none ↔ Spec.ScaleTooLarge s ∨ n + 16 < (fieldText s bits).length := by
  unfold writeSigStructField
  rw [← infoComment_none]
  cases infoComment s with
  | none => simp only [Option.bind_none, true_or]
  | some i =>
    simp only [Option.bind_some, reduceCtorEq, false_or]
    split <;> rename_i h <;> simp only [reduceCtorEq, false_iff, true_iff] <;> omega

theorem foldl_max (l : List Sig) (n : Nat) :
    n ≤ l.foldl (fun n s => if s.name.length > n then s.name.length else n) n ∧
    (∀ s ∈ l, s.name.length ≤ l.foldl (fun n s => if s.name.length > n then s.name.length else n) n) ∧
    (l.foldl (fun n s => if s.name.length > n then s.name.length else n) n = n ∨
      ∃ s ∈ l, l.foldl (fun n s => if s.name.length > n then s.name.length else n) n = s.name.length) := by
  induction l generalizing n with
  | nil => simp
  | cons a l ih =>
    obtain ⟨h1, h2, h3⟩ := ih (if a.name.length > n then a.name.length else n)
    rw [List.foldl_cons]
    split at h1 <;> rename_i hc
    · rw [if_pos hc] at h2 h3 ⊢
      refine ⟨by omega, fun s hs => ?_, ?_⟩
      · rcases List.mem_cons.1 hs with rfl | hs
        · exact h1
        · exact h2 s hs
      · rcases h3 with h3 | ⟨s, hs, h3⟩
        · exact Or.inr ⟨a, by simp, h3⟩
        · exact Or.inr ⟨s, by simp [hs], h3⟩
    · rw [if_neg hc] at h2 h3 ⊢
      refine ⟨h1, fun s hs => ?_, ?_⟩
      · rcases List.mem_cons.1 hs with rfl | hs
        · omega
        · exact h2 s hs
      · rcases h3 with h3 | ⟨s, hs, h3⟩
        · exact Or.inl h3
        · exact Or.inr ⟨s, by simp [hs], h3⟩

theorem maxName (m : Msg) : 27 ≤ maxSigNameLen m ∧ (∀ s ∈ m.signals, s.name.length ≤ maxSigNameLen m) ∧
    (maxSigNameLen m = 27 ∨ ∃ s ∈ m.signals, maxSigNameLen m = s.name.length) := foldl_max m.signals 27

theorem printType_length (t : CTy) : 6 ≤ (printType t).length ∧ (printType t).length ≤ 8 := by
  cases t <;> decide

theorem bitText_length (n : Nat) (h : n < 8) : (strPrint (" : ".toList ++ fmtD n)).length = 4 := by
  have : n = 0 ∨ n = 1 ∨ n = 2 ∨ n = 3 ∨ n = 4 ∨ n = 5 ∨ n = 6 ∨ n = 7 := by omega
  rcases this with rfl | rfl | rfl | rfl | rfl | rfl | rfl | rfl <;> decide

theorem fieldText_length (s : Sig) (bits : Bool) :
    (fieldText s bits).length = (printType s.typeRo).length + s.name.length + (if bits = true ∧ s.lengthBit < 8 then 8 else 4) := by
  unfold fieldText
  by_cases hb : bits = true ∧ s.lengthBit < 8
  · rw [if_pos hb, if_pos (by simp [hb]), List.length_append, List.length_append, bitText_length _ hb.2]
    simp only [List.length_append]
    have h1 : "  ".toList.length = 2 := by decide
    have h2 : " ".toList.length = 1 := by decide
    have h3 : ";".toList.length = 1 := by decide
    omega
  · rw [if_neg hb, if_neg (by simpa using hb)]
    simp only [List.length_append, List.length_nil]
    have h1 : "  ".toList.length = 2 := by decide
    have h2 : " ".toList.length = 1 := by decide
    have h3 : ";".toList.length = 1 := by decide
    omega

/-- Fields of the signals always fit. -/
theorem field_fits {m : Msg} {s : Sig} (hs : s ∈ m.signals) (bits : Bool) : (fieldText s bits).length ≤ maxSigNameLen m + 16 := by
  have := (maxName m).2.1 s hs
  have := printType_length s.typeRo
  rw [fieldText_length]
  split <;> omega

theorem rollCopy_none (r : Sig) (n : Nat) (hn : r.name.length ≤ n) :
    n + 16 < (fieldText (rollCopy r) true).length ∨ n + 16 < (fieldText (rollCopy r) false).length ↔
      n < r.name.length + Spec.rollExcess r.typeRo r.lengthBit := by
  rw [fieldText_length, fieldText_length]
  have h5 : (rollCopy r).name.length = r.name.length + 5 := by simp [rollCopy]
  have ht : (rollCopy r).typeRo = r.typeRo := rfl
  have hl : (rollCopy r).lengthBit = r.lengthBit := rfl
  rw [h5, ht, hl]
  have hlen : ∀ t : CTy, (printType t).length = (match t with | .i8 => 6 | .u8 | .i16 | .i32 | .i64 => 7 | _ => 8) := by
    intro t; cases t <;> decide
  rw [hlen]
  by_cases h8 : r.lengthBit < 8 <;> cases hy : r.typeRo <;>
    simp only [Spec.rollExcess, true_and, Bool.false_eq_true, false_and, if_false, if_true, h8] <;> omega

theorem allSome_none {α : Type} (l : List (Option α)) : allSome l = none ↔ none ∈ l := by
  induction l with
  | nil => simp [allSome]
  | cons a l ih =>
    cases a with
    | none => simp [allSome]
    | some a => simp [allSome, ih]

theorem sigAt_mem {m : Msg} {i : Option Nat} {s : Sig} (h : m.sigAt i = some s) : s ∈ m.signals := by
  unfold Msg.sigAt at h
  cases i with
  | none => simp at h
  | some k => exact List.mem_of_getElem? (by simpa using h)

theorem scaleTooLarge_roll (r : Sig) : Spec.ScaleTooLarge (rollCopy r) ↔ Spec.ScaleTooLarge r := by
  unfold Spec.ScaleTooLarge rollCopy
  exact Iff.rfl

theorem structPart_none (g : GenDesc) (m : Msg) (bits : Bool) :
    structPartOps g m bits = none ↔ (∃ s ∈ m.signals, Spec.ScaleTooLarge s) ∨
      ∃ r, m.sigAt m.rollSig = some r ∧ maxSigNameLen m + 16 < (fieldText (rollCopy r) bits).length := by
  have hfs : allSome (m.signals.map fun s => writeSigStructField g s bits (maxSigNameLen m)) = none ↔ ∃ s ∈ m.signals, Spec.ScaleTooLarge s := by
    rw [allSome_none, List.mem_map]
    constructor
    · rintro ⟨s, hs, h⟩
      refine ⟨s, hs, ?_⟩
      rcases (writeField_none ..).1 h with h | h
      · exact h
      · have := field_fits hs bits; omega
    · rintro ⟨s, hs, h⟩
      exact ⟨s, hs, (writeField_none ..).2 (Or.inl h)⟩
  unfold structPartOps
  cases hf : allSome (m.signals.map fun s => writeSigStructField g s bits (maxSigNameLen m)) with
  | none => exact ⟨fun _ => Or.inl (hfs.1 hf), fun _ => rfl⟩
  | some fs =>
    have hno : ¬ ∃ s ∈ m.signals, Spec.ScaleTooLarge s := fun h => by
      have := hfs.2 h
      rw [hf] at this
      cases this
    cases hr : m.sigAt m.rollSig with
    | none => simp only [Option.bind_some, reduceCtorEq, hno, false_and, exists_false, or_self]
    | some r =>
      have hw := writeField_none g (rollCopy r) bits (maxSigNameLen m)
      rw [scaleTooLarge_roll] at hw
      have hnr : ¬ Spec.ScaleTooLarge r := fun h => hno ⟨r, sigAt_mem hr, h⟩
      rw [Option.bind_some]
      dsimp only
      rw [Option.map_eq_none_iff, hw]
      simp only [hnr, hno, false_or]
      constructor
      · intro h
        exact ⟨r, rfl, h⟩
      · rintro ⟨r', hr', h⟩
        obtain rfl := Option.some.inj hr'
        exact h

theorem structOps_none (g : GenDesc) (m : Msg) :
    structOps g m = none ↔ (∃ s ∈ m.signals, Spec.ScaleTooLarge s) ∨ Spec.RollTooLong m := by
  have h1 : structOps g m = none ↔ structPartOps g m true = none ∨ structPartOps g m false = none := by
    unfold structOps
    cases structPartOps g m true <;> cases structPartOps g m false <;> simp only [Option.bind_none, Option.bind_some, Option.map_none, Option.map_some, reduceCtorEq, or_self, or_true, true_or]
  rw [h1, structPart_none, structPart_none]
  have h2 : Spec.RollTooLong m ↔ ∃ r, m.sigAt m.rollSig = some r ∧ (maxSigNameLen m + 16 < (fieldText (rollCopy r) true).length ∨
      maxSigNameLen m + 16 < (fieldText (rollCopy r) false).length) := by
    unfold Spec.RollTooLong
    constructor
    · rintro ⟨r, hr, h3, h4⟩
      refine ⟨r, hr, (rollCopy_none r _ ((maxName m).2.1 r (sigAt_mem hr))).2 ?_⟩
      rcases (maxName m).2.2 with h | ⟨s, hs, h⟩
      · omega
      · have := h4 s hs; omega
    · rintro ⟨r, hr, h⟩
      have h := (rollCopy_none r _ ((maxName m).2.1 r (sigAt_mem hr))).1 h
      obtain ⟨h5, h6, _⟩ := maxName m
      refine ⟨r, hr, by omega, fun s hs => ?_⟩
      have := h6 s hs; omega
  rw [h2]
  constructor
  · rintro ((h | ⟨r, hr, h⟩) | (h | ⟨r, hr, h⟩))
    · exact Or.inl h
    · exact Or.inr ⟨r, hr, Or.inl h⟩
    · exact Or.inl h
    · exact Or.inr ⟨r, hr, Or.inr h⟩
  · rintro (h | ⟨r, hr, h | h⟩)
    · exact Or.inl (Or.inl h)
    · exact Or.inl (Or.inr ⟨r, hr, h⟩)
    · exact Or.inr (Or.inr ⟨r, hr, h⟩)

theorem physToRaw_some {s : Sig} {drv : Str} (h1 : s.isSimple = false) (h : ¬ Spec.ScaleTooLarge s) : (printPhysicalToRaw s drv).isSome := by
  unfold printPhysicalToRaw
  cases hd : s.isDouble with
  | true => rfl
  | false =>
    have h2 : ¬ (s.factor.trunc < -(2 ^ 31) ∨ 2 ^ 31 ≤ s.factor.trunc) := fun h' => h ⟨h1, hd, by omega⟩
    have h3 : ¬ (s.offset.trunc < -(2 ^ 31) ∨ 2 ^ 31 ≤ s.offset.trunc) := fun h' => h ⟨h1, hd, by omega⟩
    cases hf : fmtCastI32 s.factor with
    | none => exact absurd (fmtCastI32_none.1 hf) h2
    | some f =>
      cases ho : fmtCastI32 s.offset with
      | none => exact absurd (fmtCastI32_none.1 ho) h3
      | some o =>
        rw [if_neg (by decide), Option.bind_some]
        split <;> rfl

theorem sigMacro_some {g : GenDesc} {m : Msg} (ss : List Sig) (h : ∀ s ∈ ss, ¬ Spec.ScaleTooLarge s) (seen : List Str) :
    (sigMacroOps g m ss seen).isSome := by
  induction ss generalizing seen with
  | nil => rfl
  | cons s ss ih =>
    have hc : (convMacroOps g s seen).isSome := by
      unfold convMacroOps
      split
      · rename_i hs
        rw [Option.isSome_map]
        exact physToRaw_some (drv := g.drvUp) (by simp at hs; exact hs.1) (h s (by simp))
      · rfl
    obtain ⟨c, hc⟩ := Option.isSome_iff_exists.1 hc
    unfold sigMacroOps
    rw [hc, Option.bind_some, Option.isSome_map]
    exact ih (fun s hs => h s (by simp [hs])) c.2

theorem headerMsg_none (g : GenDesc) (msgs : List Msg) (seen : List Str) :
    headerMsgOps g msgs seen = none ↔
      ∃ m ∈ msgs, m.frameNotEmpty = true ∧ (Spec.RollTooLong m ∨ ∃ s ∈ m.signals, Spec.ScaleTooLarge s) := by
  induction msgs generalizing seen with
  | nil => simp [headerMsgOps]
  | cons m msgs ih =>
    unfold headerMsgOps
    simp only [List.mem_cons, exists_eq_or_imp]
    cases hn : m.frameNotEmpty with
    | false =>
      rw [if_neg (by decide), Option.map_eq_none_iff, ih]
      simp
    | true =>
      rw [if_pos rfl]
      by_cases h2 : Spec.RollTooLong m ∨ ∃ s ∈ m.signals, Spec.ScaleTooLarge s
      · simp only [h2, and_self, true_or, iff_true]
        have := (structOps_none g m).2 h2.symm
        rw [this]
        cases sigMacroOps g m m.signals seen <;> rfl
      · simp only [h2, and_false, false_or]
        obtain ⟨mac, hm⟩ := Option.isSome_iff_exists.1
          (sigMacro_some (g := g) (m := m) m.signals (fun s hs' h => h2 (Or.inr ⟨s, hs', h⟩)) seen)
        rw [hm, Option.bind_some]
        cases hs : structOps g m with
        | none => exact absurd ((structOps_none g m).1 hs).symm h2
        | some st => rw [Option.bind_some, Option.map_eq_none_iff, ih]

/-! ### Theorems -/

/-- C41, exact: printing the header fails (exception in `std::string::insert`, or undefined conversion to
`int32_t`) exactly when some message with signals has a rolling counter whose name is too long compared
with the others, or an integer factor or offset that is no `int32_t`. -/
theorem C41_exact (g : GenDesc) (maxDlc : Nat) (msgs : List Msg) :
    mainHeaderOps g maxDlc msgs = none ↔
      ∃ m ∈ msgs, m.frameNotEmpty = true ∧ (Spec.RollTooLong m ∨ ∃ s ∈ m.signals, Spec.ScaleTooLarge s) := by
  rw [← headerMsg_none g msgs []]
  exact Option.map_eq_none_iff

/-- C41 for the struct fields of the signals themselves: they never overflow the padding. -/
theorem C41_signals_partial (g : GenDesc) (m : Msg) (s : Sig) (hs : s ∈ m.signals) (h : ¬ Spec.ScaleTooLarge s) (bits : Bool) :
    (writeSigStructField g s bits (maxSigNameLen m)).isSome := by
  cases hw : writeSigStructField g s bits (maxSigNameLen m) with
  | none =>
    rcases (writeField_none ..).1 hw with h' | h'
    · exact absurd h' h
    · have := field_fits hs bits; omega
  | some _ => rfl

/-- No failure when rolling counters have at most 22 characters. -/
theorem C41_short_partial (g : GenDesc) (maxDlc : Nat) (msgs : List Msg) (hr : ∀ m ∈ msgs, ∀ r, m.sigAt m.rollSig = some r → r.name.length ≤ 22)
    (hs : ∀ m ∈ msgs, ∀ s ∈ m.signals, ¬ Spec.ScaleTooLarge s) : (mainHeaderOps g maxDlc msgs).isSome := by
  cases h : mainHeaderOps g maxDlc msgs with
  | some _ => rfl
  | none =>
    obtain ⟨m, hm, _, h | ⟨s, hs', h⟩⟩ := (C41_exact g maxDlc msgs).1 h
    · obtain ⟨r, hr', h1, _⟩ := h
      have := hr m hm r hr'
      unfold Spec.rollExcess at h1
      split at h1 <;> split at h1 <;> omega
    · exact absurd h (hs m hm s hs')

/-- C41 is false: a 4-bit rolling counter with a name of 24 characters. -/
def longRoll : Msg :=
  { name := "M".toList, dlc := 1, msgId := 1, frameNotEmpty := true, rollSig := some 0,
    signals := [{ name := "ROLLING_COUNTER_ENGINE_1".toList, lengthBit := 4, isSimple := true }] }

theorem C41_refuted : (mainHeaderOps (configureGen "drv".toList [] [] 0 0) 1 [longRoll]) = none := by
  rw [C41_exact]
  exact ⟨longRoll, by simp, rfl, Or.inl ⟨_, rfl, by decide, by decide⟩⟩

/-- C41 is false: an integer factor of 3·10⁹. -/
theorem C41_refuted_scale :
    (mainHeaderOps (configureGen "drv".toList [] [] 0 0) 8
      [({ name := "M".toList, dlc := 8, msgId := 1, frameNotEmpty := true, signals := [{ name := "A_ro".toList, lengthBit := 8, factor := Dec.ofInt 3000000000 }] } : Msg)]) = none := by
  rw [C41_exact]
  exact ⟨_, List.mem_singleton.2 rfl, rfl, Or.inr ⟨_, List.mem_singleton.2 rfl, rfl, rfl, Or.inr (Or.inl (by decide))⟩⟩

/-- The conditions of `C41_short_partial` hold for a message with a rolling counter and a scaled signal. -/
example : (mainHeaderOps (configureGen "drv".toList [] [] 0 0) 8
    [({ name := "M".toList, dlc := 8, msgId := 1, frameNotEmpty := true, rollSig := some 0, signals := [{ name := "RC".toList, lengthBit := 4, isSimple := true }, { name := "A_ro".toList, startBit := 8, lengthBit := 8, factor := Dec.ofInt 3 }] } : Msg)]).isSome := by
  refine C41_short_partial _ _ _ ?_ ?_
  · intro m hm r hr
    obtain rfl := List.mem_singleton.1 hm
    have : r = _ := (Option.some.inj hr).symm
    subst this
    decide
  · intro m hm s hs
    obtain rfl := List.mem_singleton.1 hm
    rcases List.mem_cons.1 hs with rfl | hs
    · rintro ⟨h, _⟩; cases h
    · obtain rfl := List.mem_singleton.1 hs
      rintro ⟨_, _, h⟩
      revert h
      decide

end Verif
