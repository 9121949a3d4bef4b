import Verif.Model.SigPrinterText
import Verif.Proofs.CSyntax
import Verif.Spec.Text
/-
The printed conversion expressions are renderings of the syntax trees of
`Verif/Model/SigPrinter.lean`, and the C grammar reads the trees back.
-/
namespace Verif
open Verif.Spec

/-- Name of a type. -/
def ctyText : CTy → Str
  | .i8 => "int8_t".toList
  | .i16 => "int16_t".toList
  | .i32 => "int32_t".toList
  | .i64 => "int64_t".toList
  | .u8 => "uint8_t".toList
  | .u16 => "uint16_t".toList
  | .u32 => "uint32_t".toList
  | .u64 => "uint64_t".toList

/-- Text of a tree. -/
def render : CExpr → Str
  | .dat i => "_d[".toList ++ fmtD i ++ "]".toList
  | .fld n => "_m->".toList ++ n
  | .mask w => "(".toList ++ mskText w ++ ")".toList
  | .band a b => "(".toList ++ render a ++ " & ".toList ++ render b ++ ")".toList
  | .bor a b => render a ++ " | ".toList ++ render b
  | .shr a n => "(".toList ++ render a ++ " >> ".toList ++ fmtD n ++ "U)".toList
  | .shl a n => "(".toList ++ render a ++ " << ".toList ++ fmtD n ++ "U)".toList
  | .cast t a => "(".toList ++ ctyText t ++ ")".toList ++ render a

/-! ### Lengths: nothing is cut -/

theorem digitsAux_length (dig : Nat → Char) (fuel n k : Nat) (acc : Str) (hk : n < 10 ^ (k + 1)) :
    (digitsAux dig 10 fuel n acc).length ≤ acc.length + (k + 1) := by
  induction fuel generalizing n k acc with
  | zero => simp [digitsAux]
  | succ fuel ih =>
    rw [digitsAux]
    split
    · simp
    · cases k with
      | zero => simp at hk; omega
      | succ k =>
        have : n / 10 < 10 ^ (k + 1) := by
          rw [Nat.div_lt_iff_lt_mul (by omega)]
          rwa [Nat.pow_succ] at hk
        have := ih (n / 10) k (dig (n % 10) :: acc) this
        simp only [List.length_cons] at this
        omega

theorem decStr_length {n k : Nat} (h : n < 10 ^ (k + 1)) : (decStr n).length ≤ k + 1 := by
  have := digitsAux_length digitChar (Nat.log2 n + 1) n k [] h
  simpa [decStr] using this

theorem fmtD_length (n : Nat) : (fmtD n).length ≤ 11 := by
  unfold fmtD
  split
  · have := decStr_length (k := 9) (n := n) (by omega)
    omega
  · have := decStr_length (k := 9) (n := 4294967296 - n) (by omega)
    rw [List.length_cons]
    omega

theorem fmtD_small {n : Nat} (h : n < 2 ^ 31) : fmtD n = decStr n := by
  unfold fmtD
  rw [if_pos (by omega)]

theorem mskText_length (w : Nat) : (mskText w).length ≤ 5 := by
  unfold mskText
  split <;> decide

theorem workbuff_short {t : Str} (h : t.length ≤ 2047) : workbuff t = t := List.take_of_length_le h

theorem wb_datShr (bn n w : Nat) : workbuff (txtDatShr bn n (mskText w)) = render (.band (.shr (.dat bn) n) (.mask w)) := by
  rw [workbuff_short]
  · unfold txtDatShr; simp [render]
  · have := fmtD_length bn
    have := fmtD_length n
    have := mskText_length w
    unfold txtDatShr; simp
    omega

theorem wb_datShr' (bn n w : Nat) :
    workbuff (" | ".toList ++ txtDatShr bn n (mskText w)) = " | ".toList ++ render (.band (.shr (.dat bn) n) (.mask w)) := by
  rw [workbuff_short]
  · unfold txtDatShr; simp [render]
  · have := fmtD_length bn
    have := fmtD_length n
    have := mskText_length w
    unfold txtDatShr; simp
    omega

theorem wb_dat (bn w : Nat) : workbuff (txtDat bn (mskText w)) = render (.band (.dat bn) (.mask w)) := by
  rw [workbuff_short]
  · unfold txtDat; simp [render]
  · have := fmtD_length bn
    have := mskText_length w
    unfold txtDat; simp
    omega

theorem wb_datShl (bn w n : Nat) : workbuff (txtDatShl (t64Text n) bn (mskText w) n) = render (.shl (t64 n (.band (.dat bn) (.mask w))) n) := by
  rw [workbuff_short]
  · unfold t64Text t64
    have e : ctyText .u64 = "uint64_t".toList := rfl
    unfold txtDatShl
    split
    · rw [render, render, e]
      simp [render]
    · simp [render]
  · have := fmtD_length bn
    have := fmtD_length n
    have := mskText_length w
    unfold t64Text
    split <;> unfold txtDatShl <;> simp <;> omega

theorem wb_fldShl {name : Str} (hn : name.length ≤ 2000) (w n : Nat) :
    workbuff (txtFldShl name (mskText w) n) = render (.shl (.band (.fld name) (.mask w)) n) := by
  rw [workbuff_short]
  · unfold txtFldShl; simp [render]
  · have := fmtD_length n
    have := mskText_length w
    unfold txtFldShl; simp
    omega

theorem wb_fld {name : Str} (hn : name.length ≤ 2000) (w : Nat) :
    workbuff (txtFld name (mskText w)) = render (.band (.fld name) (.mask w)) := by
  rw [workbuff_short]
  · unfold txtFld; simp [render]
  · have := mskText_length w
    unfold txtFld; simp
    omega

theorem wb_fldShr {name : Str} (hn : name.length ≤ 2000) (w n : Nat) :
    workbuff (txtFldShr name n (mskText w)) = render (.band (.shr (.fld name) n) (.mask w)) := by
  rw [workbuff_short]
  · unfold txtFldShr; simp [render]
  · have := fmtD_length n
    have := mskText_length w
    unfold txtFldShr; simp
    omega

/-! ### Text and trees move together -/

/-- The text of a slot. -/
def SlotText : Slot → Str → Prop
  | .empty, t => t = []
  | .expr e, t => t = render e
  | .err, t => ∃ u, t = errText ++ u

/-- The text of a to-signal expression. -/
def SigTextIs : SigText → Str → Prop
  | .expr e, t => t = render e
  | .err, t => t = errText

/-- Slot by slot. -/
def SlotTexts (tb : List Slot) (tt : List Str) : Prop :=
  tt.length = tb.length ∧ ∀ (i : Nat) sl, tb[i]? = some sl → ∃ t, tt[i]? = some t ∧ SlotText sl t

theorem render_ne_nil (e : CExpr) : render e ≠ [] := by
  cases e <;> unfold render <;> simp

theorem render_bor (a b : CExpr) : render (.bor a b) = render a ++ " | ".toList ++ render b := by rw [render]

theorem SlotTexts.set {tb : List Slot} {tt : List Str} (h : SlotTexts tb tt) (i : Nat) {sl : Slot} {t : Str} (hs : SlotText sl t) :
    SlotTexts (tb.set i sl) (tt.set i t) := by
  refine ⟨by simp [h.1], ?_⟩
  intro k sk hk
  rw [List.getElem?_set] at hk
  rw [List.getElem?_set]
  split at hk
  · rename_i e
    subst e
    split at hk
    · rename_i hl
      rw [if_pos rfl, if_pos (by rw [h.1]; exact hl)]
      cases hk
      exact ⟨t, rfl, hs⟩
    · cases hk
  · rename_i e
    rw [if_neg e]
    exact h.2 k sk hk

theorem SlotText.append {sl : Slot} {t : Str} (h : SlotText sl t) (e : CExpr) :
    SlotText (sl.append e) (appendToByteLine t (render e)) := by
  cases sl with
  | empty =>
    cases h
    rfl
  | expr a =>
    cases h
    have hl : (render a).length > 0 := List.length_pos_iff.mpr (render_ne_nil a)
    unfold appendToByteLine
    rw [if_pos hl]
    show _ = render (.bor a e)
    rw [render]
  | err =>
    obtain ⟨u, rfl⟩ := h
    have hl : (errText ++ u).length > 0 := by
      have : errText ≠ [] := by decide
      exact List.length_pos_iff.mpr (by simp [this])
    unfold appendToByteLine
    rw [if_pos hl]
    exact ⟨u ++ (" | ".toList ++ render e), by simp only [List.append_assoc]⟩

/-- Appending at an index of the vector. -/
theorem appendAt_text {tb : List Slot} {tt : List Str} (h : SlotTexts tb tt) (bn : Nat) (e : CExpr) :
    (appendAt tb bn e = none ∧ appendTextAt tt bn (render e) = none) ∨
    ∃ tb' tt', appendAt tb bn e = some tb' ∧ appendTextAt tt bn (render e) = some tt' ∧ SlotTexts tb' tt' := by
  unfold appendAt appendTextAt
  cases hb : tb[bn]? with
  | none =>
    have : tt[bn]? = none := by
      rw [List.getElem?_eq_none_iff] at hb ⊢
      rw [h.1]
      exact hb
    rw [this]
    exact Or.inl ⟨rfl, rfl⟩
  | some sl =>
    obtain ⟨t, ht, hs⟩ := h.2 bn sl hb
    rw [ht]
    exact Or.inr ⟨_, _, rfl, rfl, h.set bn (hs.append e)⟩

theorem SlotTexts.setErr {tb : List Slot} {tt : List Str} (h : SlotTexts tb tt) : SlotTexts (setErr tb) (tt.set 0 errText) :=
  h.set 0 ⟨[], by simp⟩

/-- Outcomes of the byte loop correspond. -/
def LoopIs : LoopRes → LoopTxt → Prop
  | .done e tb slen bn, .done t tt slen' bn' => t = render e ∧ SlotTexts tb tt ∧ slen = slen' ∧ bn = bn'
  | .err tb, .err tt => SlotTexts tb tt
  | .oob, .oob => True
  | _, _ => False

theorem byteLoop_text {name : Str} (hn : name.length ≤ 2000) (o : BitLayout) (fuel : Nat) (acc : CExpr) (tb : List Slot) (tt : List Str)
    (slen bn : Nat) (h : SlotTexts tb tt) :
    LoopIs (byteLoop name o fuel acc tb slen bn) (byteLoopText name o fuel (render acc) tt slen bn) := by
  induction fuel generalizing acc tb tt slen bn with
  | zero => exact ⟨rfl, h, rfl, rfl⟩
  | succ fuel ih =>
    rw [byteLoop, byteLoopText]
    by_cases h8 : slen < 8
    · rw [if_pos h8, if_pos h8]
      exact ⟨rfl, h, rfl, rfl⟩
    rw [if_neg h8, if_neg h8]
    dsimp only
    rw [h.1]
    by_cases hl : tb.length < shiftByte o bn
    · rw [if_pos hl, if_pos hl]
      exact h.setErr
    rw [if_neg hl, if_neg hl]
    by_cases h0 : slen - 8 = 0
    · rw [if_pos h0, if_pos h0, wb_fld hn, wb_dat]
      rcases appendAt_text h (shiftByte o bn) (.band (.fld name) (.mask 8)) with ⟨e1, e2⟩ | ⟨tb', tt', e1, e2, h'⟩
      · rw [e1, e2]
        trivial
      · rw [e1, e2]
        have := ih (.bor acc (.band (.dat (shiftByte o bn)) (.mask 8))) tb' tt' (slen - 8) (shiftByte o bn) h'
        rw [render] at this
        exact this
    · rw [if_neg h0, if_neg h0, wb_fldShr hn, wb_datShl]
      rcases appendAt_text h (shiftByte o bn) (.band (.shr (.fld name) (slen - 8)) (.mask 8)) with ⟨e1, e2⟩ | ⟨tb', tt', e1, e2, h'⟩
      · rw [e1, e2]
        trivial
      · rw [e1, e2]
        have := ih (.bor acc (.shl (t64 (slen - 8) (.band (.dat (shiftByte o bn)) (.mask 8))) (slen - 8))) tb' tt' (slen - 8) (shiftByte o bn) h'
        rw [render] at this
        exact this

/-- Outcomes of printing a signal correspond. -/
def PrintIs : PrintRes → Option (Str × List Str) → Prop
  | .ok x tb, some (t, tt) => SigTextIs x t ∧ SlotTexts tb tt
  | .oob, none => True
  | _, _ => False

/-- The printed text is the rendering of the tree. -/
theorem printSignal_text (s : Sig) (hn : s.name.length ≤ 2000) (tb : List Slot) (tt : List Str) (h : SlotTexts tb tt) :
    PrintIs (printSignalExpr s tb) (printSignalText s tt) := by
  unfold printSignalExpr printSignalText
  rw [h.1]
  by_cases h0 : tb.length = 0
  · rw [if_pos h0, if_pos h0]
    exact ⟨rfl, h⟩
  rw [if_neg h0, if_neg h0]
  dsimp only
  by_cases h1 : tb.length ≤ startb s / 8
  · rw [if_pos h1, if_pos h1]
    exact ⟨rfl, h.setErr⟩
  rw [if_neg h1, if_neg h1]
  by_cases h2 : startb s % 8 + 1 > s.lengthBit
  · rw [if_pos h2, if_pos h2, wb_fldShl hn, wb_datShr]
    rcases appendAt_text h (startb s / 8) (.shl (.band (.fld s.name) (.mask s.lengthBit)) (startb s % 8 + 1 - s.lengthBit)) with
      ⟨e1, e2⟩ | ⟨tb', tt', e1, e2, h'⟩
    · rw [e1, e2]
      trivial
    · rw [e1, e2]
      exact ⟨rfl, h'⟩
  rw [if_neg h2, if_neg h2]
  by_cases h3 : startb s % 8 + 1 = s.lengthBit
  · rw [if_pos h3, if_pos h3, wb_fld hn, wb_dat]
    rcases appendAt_text h (startb s / 8) (.band (.fld s.name) (.mask s.lengthBit)) with ⟨e1, e2⟩ | ⟨tb', tt', e1, e2, h'⟩
    · rw [e1, e2]
      trivial
    · rw [e1, e2]
      exact ⟨rfl, h'⟩
  rw [if_neg h3, if_neg h3, wb_fldShr hn, wb_datShl]
  rcases appendAt_text h (startb s / 8) (.band (.shr (.fld s.name) (s.lengthBit - (startb s % 8 + 1))) (.mask (startb s % 8 + 1))) with
    ⟨e1, e2⟩ | ⟨tb', tt', e1, e2, h'⟩
  · rw [e1, e2]
    trivial
  rw [e1, e2]
  dsimp only
  have hl := byteLoop_text hn s.order (s.lengthBit - (startb s % 8 + 1))
    (.shl (t64 (s.lengthBit - (startb s % 8 + 1)) (.band (.dat (startb s / 8)) (.mask (startb s % 8 + 1)))) (s.lengthBit - (startb s % 8 + 1)))
    tb' tt' (s.lengthBit - (startb s % 8 + 1)) (startb s / 8) h'
  revert hl
  generalize byteLoop s.name s.order _ _ _ _ _ = L
  generalize byteLoopText s.name s.order _ _ _ _ _ = T
  intro hl
  cases L <;> cases T <;> first | exact hl.elim | skip
  · rename_i acc tb1 slen bn t tt1 slen' bn'
    obtain ⟨rfl, h1, rfl, rfl⟩ := hl
    dsimp only
    by_cases h4 : slen > 0
    · rw [if_pos h4, if_pos h4, wb_fldShl hn, wb_datShr']
      rcases appendAt_text h1 (shiftByte s.order bn) (.shl (.band (.fld s.name) (.mask slen)) (8 - slen)) with
        ⟨e1, e2⟩ | ⟨tb2, tt2, e1, e2, h'⟩
      · rw [e1, e2]
        trivial
      · rw [e1, e2]
        refine ⟨?_, h'⟩
        show render acc ++ (" | ".toList ++ render _) = render (.bor acc _)
        rw [render_bor, List.append_assoc]
    · rw [if_neg h4, if_neg h4]
      exact ⟨rfl, h1⟩
  · exact ⟨rfl, hl⟩
  · trivial

/-- Outcomes of printing all signals correspond. -/
def BuildIs : BuildRes → Option (List Str × List Str) → Prop
  | .ok xs tb, some (ts, tt) => ts.length = xs.length ∧ (∀ (i : Nat) x, xs[i]? = some x → ∃ t, ts[i]? = some t ∧ SigTextIs x t) ∧ SlotTexts tb tt
  | .oob, none => True
  | _, _ => False

theorem buildLoop_text (ss : List Sig) (hn : ∀ s ∈ ss, s.name.length ≤ 2000) (xs : List SigText) (ts : List Str) (tb : List Slot) (tt : List Str)
    (hx : ts.length = xs.length ∧ ∀ (i : Nat) x, xs[i]? = some x → ∃ t, ts[i]? = some t ∧ SigTextIs x t) (h : SlotTexts tb tt) :
    BuildIs (buildLoop ss xs tb) (buildTextLoop ss ts tt) := by
  induction ss generalizing xs ts tb tt with
  | nil => exact ⟨hx.1, hx.2, h⟩
  | cons s ss ih =>
    rw [buildLoop, buildTextLoop]
    have hp := printSignal_text s (hn s (by simp)) tb tt h
    revert hp
    generalize printSignalExpr s tb = L
    generalize printSignalText s tt = T
    intro hp
    cases L with
    | oob =>
      cases T with
      | none => trivial
      | some y => exact hp.elim
    | ok x tb' =>
      cases T with
      | none => exact hp.elim
      | some y =>
        obtain ⟨t, tt'⟩ := y
        refine ih (fun s hs => hn s (by simp [hs])) _ _ _ _ ⟨by simp [hx.1], ?_⟩ hp.2
        intro i z hz
        rw [List.getElem?_append] at hz ⊢
        rw [hx.1]
        split at hz
        · rename_i hi
          rw [if_pos hi]
          exact hx.2 i z hz
        · rename_i hi
          rw [if_neg hi]
          cases hk : i - xs.length with
          | zero =>
            rw [hk] at hz
            cases hz
            exact ⟨t, rfl, hp.1⟩
          | succ k =>
            rw [hk] at hz
            simp at hz

/-- The texts of a message are the renderings of its trees. -/
theorem build_text (m : Msg) (hn : ∀ s ∈ m.signals, s.name.length ≤ 2000) : BuildIs (buildExprs m) (buildText m) := by
  refine buildLoop_text m.signals hn [] [] _ _ ⟨rfl, by simp⟩ ⟨by simp, ?_⟩
  intro i sl h
  rw [List.getElem?_replicate] at h ⊢
  split at h
  · rename_i hi
    rw [if_pos hi]
    cases h
    exact ⟨[], rfl, rfl⟩
  · cases h

/-! ### The C grammar reads the trees back -/

/-- The parsed form of a tree. -/
def toP : CExpr → PExpr
  | .dat i => .index (.id "_d".toList) (.num (decStr i))
  | .fld n => .arrow (.id "_m".toList) n
  | .mask w => .num (mskText w)
  | .band a b => .bin "&".toList (toP a) (toP b)
  | .bor a b => .bin "|".toList (toP a) (toP b)
  | .shr a n => .bin ">>".toList (toP a) (.num (decStr n ++ "U".toList))
  | .shl a n => .bin "<<".toList (toP a) (.num (decStr n ++ "U".toList))
  | .cast t a => .cast (ctyText t) (toP a)

/-- An operand: no `|` inside, names are identifiers, numbers print as themselves. -/
def Operand : CExpr → Prop
  | .dat i => i < 2 ^ 31
  | .fld n => IsIdent n
  | .mask w => w ≤ 8
  | .band a b => Operand a ∧ Operand b
  | .bor _ _ => False
  | .shr a n => Operand a ∧ n < 2 ^ 31
  | .shl a n => Operand a ∧ n < 2 ^ 31
  | .cast _ a => Operand a

/-- Operands joined with `|`. -/
def Chain : CExpr → Prop
  | .bor a b => Chain a ∧ Operand b
  | e => Operand e

theorem isWordCh_letter {c : Char} (h : IsLetter c) : isWordCh c = true := by
  unfold IsLetter at h
  unfold isWordCh
  rcases h with h | h | h
  · simp [h]
  · simp [h]
  · have : c = '_' := by
      apply Char.ext
      apply UInt32.toNat_inj.mp
      exact h
    simp [this]

theorem isWordCh_digit {c : Char} (h : IsDigit c) : isWordCh c = true := by
  unfold IsDigit at h
  unfold isWordCh
  simp [h]

theorem ident_words {n : Str} (h : IsIdent n) : n ≠ [] ∧ (∀ c ∈ n, isWordCh c = true) ∧ inNumber n = false := by
  cases n with
  | nil => exact h.elim
  | cons c n =>
    refine ⟨by simp, ?_, ?_⟩
    · intro x hx
      rcases List.mem_cons.mp hx with rfl | hx
      · exact isWordCh_letter h.1
      · rcases h.2 x hx with h | h
        · exact isWordCh_letter h
        · exact isWordCh_digit h
    · have := h.1
      unfold IsLetter at this
      unfold inNumber isDigitCh
      simp
      omega

theorem decStr_words (n : Nat) (sfx : Str) (hs : ∀ c ∈ sfx, isWordCh c = true) :
    decStr n ++ sfx ≠ [] ∧ (∀ c ∈ decStr n ++ sfx, isWordCh c = true) ∧ inNumber (decStr n ++ sfx) = true := by
  obtain ⟨h0, hd, -, -⟩ := decStr_spec n
  refine ⟨by simp [h0], ?_, ?_⟩
  · intro c hc
    rcases List.mem_append.mp hc with hc | hc
    · exact isWordCh_digit (hd c hc)
    · exact hs c hc
  · cases hn : decStr n with
    | nil => exact absurd hn h0
    | cons c r =>
      have := hd c (by rw [hn]; simp)
      unfold IsDigit at this
      simp [inNumber, isDigitCh, this]

theorem mskText_words (w : Nat) : mskText w ≠ [] ∧ (∀ c ∈ mskText w, isWordCh c = true) ∧ inNumber (mskText w) = true ∧ isType (mskText w) = false := by
  unfold mskText
  split <;> decide +kernel

/-- Tokens of a rendered tree. -/
def toks : CExpr → List Tok
  | .dat i => [.word "_d".toList, .p ['['], .word (decStr i), .p [']']]
  | .fld n => [.word "_m".toList, .p ['-', '>'], .word n]
  | .mask w => [.p ['('], .word (mskText w), .p [')']]
  | .band a b => .p ['('] :: toks a ++ .p ['&'] :: toks b ++ [.p [')']]
  | .bor a b => toks a ++ .p ['|'] :: toks b
  | .shr a n => .p ['('] :: toks a ++ [.p ['>', '>'], .word (decStr n ++ "U".toList), .p [')']]
  | .shl a n => .p ['('] :: toks a ++ [.p ['<', '<'], .word (decStr n ++ "U".toList), .p [')']]
  | .cast t a => .p ['('] :: .word (ctyText t) :: .p [')'] :: toks a

theorem sepHead_lit {c : Char} {r : Str} (h : sepCh c = true) : SepHead (c :: r) := h

theorem sep_close (r : Str) : SepHead (")".toList ++ r) := (by decide : sepCh ')' = true)
theorem sep_amp (r : Str) : SepHead (" & ".toList ++ r) := (by decide : sepCh ' ' = true)
theorem sep_bar (r : Str) : SepHead (" | ".toList ++ r) := (by decide : sepCh ' ' = true)
theorem sep_shr (r : Str) : SepHead (" >> ".toList ++ r) := (by decide : sepCh ' ' = true)
theorem sep_shl (r : Str) : SepHead (" << ".toList ++ r) := (by decide : sepCh ' ' = true)
theorem sep_lb (r : Str) : SepHead ("[".toList ++ r) := (by decide : sepCh '[' = true)
theorem sep_rb (r : Str) : SepHead ("]".toList ++ r) := (by decide : sepCh ']' = true)
theorem lex_lb (r : Str) : lex ("[".toList ++ r) = .p ['['] :: lex r := lex_solo (by decide) r
theorem lex_rb (r : Str) : lex ("]".toList ++ r) = .p [']'] :: lex r := lex_solo (by decide) r

theorem lex_amp (r : Str) : lex (" & ".toList ++ r) = .p ['&'] :: lex r := by
  show lex (' ' :: '&' :: ' ' :: r) = _
  rw [lex_blank, lex_one (by decide) (by decide)]

theorem lex_bar (r : Str) : lex (" | ".toList ++ r) = .p ['|'] :: lex r := by
  show lex (' ' :: '|' :: ' ' :: r) = _
  rw [lex_blank, lex_one (by decide) (by decide)]

theorem lex_shr (r : Str) : lex (" >> ".toList ++ r) = .p ['>', '>'] :: lex r := by
  show lex (' ' :: '>' :: '>' :: ' ' :: r) = _
  rw [lex_blank, lex_two (by decide) (by decide), lex_blank]

theorem lex_shl (r : Str) : lex (" << ".toList ++ r) = .p ['<', '<'] :: lex r := by
  show lex (' ' :: '<' :: '<' :: ' ' :: r) = _
  rw [lex_blank, lex_two (by decide) (by decide), lex_blank]

theorem lex_open (r : Str) : lex ("(".toList ++ r) = .p ['('] :: lex r := lex_solo (by decide) r
theorem lex_close (r : Str) : lex (")".toList ++ r) = .p [')'] :: lex r := lex_solo (by decide) r

theorem lex_countU {n : Nat} (h : n < 2 ^ 31) (r : Str) :
    lex (fmtD n ++ ("U)".toList ++ r)) = .word (decStr n ++ "U".toList) :: .p [')'] :: lex r := by
  rw [fmtD_small h]
  have e : decStr n ++ ("U)".toList ++ r) = (decStr n ++ "U".toList) ++ (")".toList ++ r) := by
    rw [List.append_assoc]
    rfl
  obtain ⟨h0, hw, -⟩ := decStr_words n "U".toList (by decide)
  rw [e, lex_word hw h0 (sep_close _), lex_close]

theorem ctyText_words (t : CTy) : ctyText t ≠ [] ∧ (∀ c ∈ ctyText t, isWordCh c = true) ∧ isType (ctyText t) = true ∧
    typeNames.lookup (ctyText t) = some (some t) := by
  cases t <;> decide +kernel

/-- Lexing a rendered operand. -/
theorem lex_render (e : CExpr) (h : Operand e) (r : Str) (hr : SepHead r) : lex (render e ++ r) = toks e ++ lex r := by
  induction e generalizing r with
  | dat i =>
    have h : i < 2 ^ 31 := h
    have h1 : lex (render (.dat i) ++ r) = lex ("_d".toList ++ ("[".toList ++ (decStr i ++ ("]".toList ++ r)))) := by
      rw [render, fmtD_small h]
      congr 1
      simp
    obtain ⟨h0, hw, -⟩ := decStr_words i [] (by simp)
    rw [List.append_nil] at h0 hw
    rw [h1, lex_word (w := "_d".toList) (by decide) (by decide) (sep_lb _), lex_lb, lex_word hw h0 (sep_rb _), lex_rb]
    rfl
  | fld n =>
    obtain ⟨h0, hw, -⟩ := ident_words h
    have h1 : lex (render (.fld n) ++ r) = lex ("_m".toList ++ ('-' :: '>' :: (n ++ r))) := by
      rw [render]
      congr 1
    rw [h1, lex_word (w := "_m".toList) (by decide) (by decide) (sepHead_lit (by decide)), lex_two (by decide) (by decide), lex_word hw h0 hr]
    rfl
  | mask w =>
    obtain ⟨h0, hw, -⟩ := mskText_words w
    have h1 : lex (render (.mask w) ++ r) = lex ("(".toList ++ (mskText w ++ (")".toList ++ r))) := by
      rw [render]
      congr 1
      simp only [List.append_assoc]
    rw [h1, lex_open, lex_word hw h0 (sep_close _), lex_close]
    rfl
  | band a b iha ihb =>
    have h1 : lex (render (.band a b) ++ r) = lex ("(".toList ++ (render a ++ (" & ".toList ++ (render b ++ (")".toList ++ r))))) := by
      rw [render]
      congr 1
      simp only [List.append_assoc]
    rw [h1, lex_open, iha h.1 _ (sep_amp _), lex_amp, ihb h.2 _ (sep_close _), lex_close, toks]
    simp only [List.append_assoc, List.cons_append, List.nil_append]
  | bor a b => exact h.elim
  | shr a n ih =>
    have h1 : lex (render (.shr a n) ++ r) = lex ("(".toList ++ (render a ++ (" >> ".toList ++ (fmtD n ++ ("U)".toList ++ r))))) := by
      rw [render]
      congr 1
      simp only [List.append_assoc]
    rw [h1, lex_open, ih h.1 _ (sep_shr _), lex_shr, lex_countU h.2, toks]
    simp only [List.append_assoc, List.cons_append, List.nil_append]
  | shl a n ih =>
    have h1 : lex (render (.shl a n) ++ r) = lex ("(".toList ++ (render a ++ (" << ".toList ++ (fmtD n ++ ("U)".toList ++ r))))) := by
      rw [render]
      congr 1
      simp only [List.append_assoc]
    rw [h1, lex_open, ih h.1 _ (sep_shl _), lex_shl, lex_countU h.2, toks]
    simp only [List.append_assoc, List.cons_append, List.nil_append]
  | cast t a ih =>
    obtain ⟨h0, hw, -⟩ := ctyText_words t
    have h1 : lex (render (.cast t a) ++ r) = lex ("(".toList ++ (ctyText t ++ (")".toList ++ (render a ++ r)))) := by
      rw [render]
      congr 1
      simp only [List.append_assoc]
    rw [h1, lex_open, lex_word hw h0 (sep_close _), lex_close, ih h _ hr, toks]
    rfl

theorem lex_chain (e : CExpr) (h : Chain e) (r : Str) (hr : SepHead r) : lex (render e ++ r) = toks e ++ lex r := by
  induction e generalizing r with
  | bor a b iha _ =>
    have h1 : lex (render (.bor a b) ++ r) = lex (render a ++ (" | ".toList ++ (render b ++ r))) := by
      rw [render]
      congr 1
      simp only [List.append_assoc]
    rw [h1, iha h.1 _ (sep_bar _), lex_bar, lex_render b h.2 _ hr, toks]
    simp only [List.append_assoc, List.cons_append]
  | _ => exact lex_render _ h r hr

theorem toks_notWord {e : CExpr} (h : Operand e) (r : List Tok) (w : Str) (r'' : List Tok) : toks e ++ r ≠ .word w :: .p [')'] :: r'' := by
  cases e <;> simp [toks]
  exact h.elim

theorem parse_operand (e : CExpr) (h : Operand e) (r : List Tok) (hr : NoPost r) : Parses (.at 0) (toks e ++ r) (toP e, r) := by
  induction e generalizing r with
  | dat i =>
    obtain ⟨-, -, hn⟩ := decStr_words i [] (by simp)
    rw [List.append_nil] at hn
    refine Parses.wordE (w := "_d".toList) ?_
    refine Parses.indexE (i := .num (decStr i)) (r' := r) ?_ (Parses.post_stop hr)
    refine Parses.climb (lv := 0) ?_ topLevel (by decide) (fun k _ _ => noOp_cons (by rw [show opLevel [']'] = none by decide]; simp) _)
    refine Parses.wordE ?_
    rw [hn]
    exact Parses.post_stop (noPost_cons (by decide) _)
  | fld n =>
    refine Parses.wordE (w := "_m".toList) ?_
    exact Parses.arrowE (Parses.post_stop hr)
  | mask w =>
    obtain ⟨-, -, hn, ht⟩ := mskText_words w
    refine Parses.parenWord ht ?_
    rw [hn]
    exact Parses.post_stop hr
  | band a b iha ihb =>
    have e : toks (.band a b) ++ r = .p ['('] :: (toks a ++ .p ['&'] :: (toks b ++ .p [')'] :: r)) := by
      simp [toks]
    rw [e]
    exact Parses.binParen (op := ['&']) (lv := 5) (by decide) (by decide) (toks_notWord h.1 _)
      (iha h.1 _ (noPost_cons (by decide) _)) (ihb h.2 _ (noPost_cons (by decide) _)) (Parses.post_stop hr)
  | bor a b => exact h.elim
  | shr a n ih =>
    have e : toks (.shr a n) ++ r = .p ['('] :: (toks a ++ .p ['>', '>'] :: (.word (decStr n ++ "U".toList) :: .p [')'] :: r)) := by
      simp [toks]
    obtain ⟨-, -, hn⟩ := decStr_words n "U".toList (by decide)
    have hw : Parses (.at 0) (.word (decStr n ++ "U".toList) :: .p [')'] :: r) (.num (decStr n ++ "U".toList), .p [')'] :: r) := by
      refine Parses.wordE ?_
      rw [hn]
      exact Parses.post_stop (noPost_cons (by decide) _)
    rw [e]
    exact Parses.binParen (op := ['>', '>']) (lv := 2) (by decide) (by decide) (toks_notWord h.1 _)
      (ih h.1 _ (noPost_cons (by decide) _)) hw (Parses.post_stop hr)
  | shl a n ih =>
    have e : toks (.shl a n) ++ r = .p ['('] :: (toks a ++ .p ['<', '<'] :: (.word (decStr n ++ "U".toList) :: .p [')'] :: r)) := by
      simp [toks]
    obtain ⟨-, -, hn⟩ := decStr_words n "U".toList (by decide)
    have hw : Parses (.at 0) (.word (decStr n ++ "U".toList) :: .p [')'] :: r) (.num (decStr n ++ "U".toList), .p [')'] :: r) := by
      refine Parses.wordE ?_
      rw [hn]
      exact Parses.post_stop (noPost_cons (by decide) _)
    rw [e]
    exact Parses.binParen (op := ['<', '<']) (lv := 2) (by decide) (by decide) (toks_notWord h.1 _)
      (ih h.1 _ (noPost_cons (by decide) _)) hw (Parses.post_stop hr)
  | cast t a ih => exact Parses.castE (ctyText_words t).2.2.1 (ih h r hr)

/-- What may follow a chain. -/
def EndTok (r : List Tok) : Prop := NoPost r ∧ ∀ k, NoOp k r

/-- A chain followed by more `|`. -/
theorem parse_chainMore (e : CExpr) (h : Chain e) (r : List Tok) {x} (hr : NoPost r) (hb : ∀ k, k < 8 → NoOp k r)
    (hx : Parses (.more 8 (toP e)) r x) : Parses (.at 8) (toks e ++ r) x := by
  induction e generalizing r with
  | bor a b iha _ =>
    have e : toks (.bor a b) ++ r = toks a ++ .p ['|'] :: (toks b ++ r) := by simp [toks]
    rw [e]
    refine iha h.1 _ (noPost_cons (by decide) _) ?_ ?_
    · intro k hk
      refine noOp_cons ?_ _
      rw [show opLevel ['|'] = some 8 by decide]
      intro e
      injection e with e
      omega
    · refine Parses.more_step (lv := 8) (by decide) (r' := r) (b := toP b) ?_ hx
      exact (parse_operand b h.2 r hr).climb 7 (by omega) fun k _ hk => hb k (by omega)
  | _ =>
    refine Parses.up (lv := 7) ?_ hx
    exact (parse_operand _ h r hr).climb 7 (by omega) fun k _ hk => hb k (by omega)

/-- The C grammar reads a rendered chain as its tree. -/
theorem parse_chain (e : CExpr) (h : Chain e) (r : List Tok) (hr : EndTok r) : Parses (.at topLevel) (toks e ++ r) (toP e, r) :=
  (parse_chainMore e h r hr.1 (fun k _ => hr.2 k) (Parses.more_stop (hr.2 8))).climb topLevel (by decide) fun k _ _ => hr.2 k

theorem endTok_close (r : List Tok) : EndTok (.p [')'] :: r) := ⟨noPost_cons (by decide) _, fun k => noOp_close k r⟩
theorem endTok_nil : EndTok [] := ⟨noPost_nil, noOp_nil⟩

/-! ### Meaning -/

theorem hexVal_digit {c : Char} (h : IsDigit c) : hexVal c = some (c.toNat - 48) := by
  unfold hexVal
  exact if_pos h

theorem baseVal_digits (ds : Str) (h0 : ds ≠ []) (h : ∀ c ∈ ds, IsDigit c) : baseVal 10 ds = some (digitsVal ds) := by
  unfold baseVal digitsVal
  rw [if_neg h0]
  generalize 0 = a
  clear h0
  induction ds generalizing a with
  | nil => rfl
  | cons c ds ih =>
    have hc := h c (by simp)
    rw [List.foldl_cons, List.foldl_cons, ← ih (fun x hx => h x (by simp [hx]))]
    congr 1
    show (do let d ← hexVal c; if d < 10 then some (a * 10 + d) else none) = _
    rw [hexVal_digit hc]
    have : c.toNat - 48 < 10 := by
      unfold IsDigit at hc
      omega
    exact if_pos this

theorem constVal_decStr (n : Nat) : constVal (decStr n) = some n := by
  obtain ⟨h0, hd, hv, hz⟩ := decStr_spec n
  unfold constVal
  split
  · rename_i ds e
    have := (hz _ _ e rfl).2
    cases this
  · rename_i ds _ e
    obtain ⟨rfl, rfl⟩ := hz _ _ e rfl
    decide
  · rw [baseVal_digits _ h0 hd, hv]

theorem litOf_decStr {n : Nat} (h : n < 2 ^ 31) : litOf (decStr n) = some ⟨.i32, (n : Nat)⟩ := by
  obtain ⟨h0, hd, hv, hz⟩ := decStr_spec n
  have hl : ¬ ((decStr n).getLast? = some 'U' ∨ (decStr n).getLast? = some 'u') := by
    intro hh
    rcases hh with hh | hh
    · have := hd _ (List.mem_of_getLast? hh)
      exact absurd this (by decide)
    · have := hd _ (List.mem_of_getLast? hh)
      exact absurd this (by decide)
  unfold litOf
  rw [if_neg hl, constVal_decStr]
  exact if_pos h

theorem litOf_decStrU {n : Nat} (h : n < 2 ^ 32) : litOf (decStr n ++ "U".toList) = some ⟨.u32, (n : Nat)⟩ := by
  have hd : (decStr n ++ "U".toList).dropLast = decStr n := by
    show (decStr n ++ ['U']).dropLast = _
    rw [List.dropLast_concat]
  have hg : (decStr n ++ "U".toList).getLast? = some 'U' := by
    show (decStr n ++ ['U']).getLast? = _
    rw [List.getLast?_concat]
  unfold litOf
  rw [if_pos (Or.inl hg), hd, constVal_decStr]
  exact if_pos h

theorem litOf_mask {w : Nat} (h : w ≤ 8) : litOf (mskText w) = maskVal w := by
  have : w = 0 ∨ w = 1 ∨ w = 2 ∨ w = 3 ∨ w = 4 ∨ w = 5 ∨ w = 6 ∨ w = 7 ∨ w = 8 := by omega
  rcases this with rfl | rfl | rfl | rfl | rfl | rfl | rfl | rfl | rfl <;> decide +kernel

/-- Memory as printed expressions see it. -/
def penv (env : CEnv) : PEnv := ⟨.id "_d".toList, env.dat, env.fld⟩

theorem eval_toP (env : CEnv) (e : CExpr) (h : Chain e) : (toP e).eval (penv env) = e.eval env := by
  have key : ∀ e, Operand e → (toP e).eval (penv env) = e.eval env := by
    intro e
    induction e with
    | dat i =>
      intro h
      have h : i < 2 ^ 31 := h
      rw [toP, PExpr.eval, PExpr.eval, litOf_decStr h, CExpr.eval, penv, if_pos rfl]
      show (if (0 : Int) ≤ (i : Nat) then (do let b ← env.dat[((i : Nat) : Int).toNat]?; return (⟨.u8, (b : Nat)⟩ : CVal)) else none) = _
      rw [if_pos (by omega)]
      show (do let b ← env.dat[i]?; some (⟨.u8, (b : Nat)⟩ : CVal)) = _
      cases env.dat[i]? <;> rfl
    | fld n =>
      intro _
      rw [toP, PExpr.eval, if_pos rfl, CExpr.eval]
      rfl
    | mask w =>
      intro h
      rw [toP, PExpr.eval, CExpr.eval, litOf_mask h]
    | band a b iha ihb =>
      intro h
      rw [toP, PExpr.eval, CExpr.eval, iha h.1, ihb h.2]
      rfl
    | bor a b => exact fun h => h.elim
    | shr a n ih =>
      intro h
      have h2 : n < 2 ^ 32 := by have := h.2; omega
      rw [toP, PExpr.eval, CExpr.eval, ih h.1, PExpr.eval, litOf_decStrU h2]
      cases a.eval env with
      | none => rfl
      | some v =>
        show (if (0 : Int) ≤ (n : Nat) then v.shr ((n : Int)).toNat else none) = _
        rw [if_pos (by omega)]
        rfl
    | shl a n ih =>
      intro h
      have h2 : n < 2 ^ 32 := by have := h.2; omega
      rw [toP, PExpr.eval, CExpr.eval, ih h.1, PExpr.eval, litOf_decStrU h2]
      cases a.eval env with
      | none => rfl
      | some v =>
        show (if (0 : Int) ≤ (n : Nat) then v.shl ((n : Int)).toNat else none) = _
        rw [if_pos (by omega)]
        rfl
    | cast t a ih =>
      intro h
      rw [toP, PExpr.eval, CExpr.eval, ih h, (ctyText_words t).2.2.2]
      rfl
  induction e with
  | bor a b iha _ =>
    rw [toP, PExpr.eval, CExpr.eval, iha h.1, key b h.2]
    rfl
  | _ => exact key _ h

/-! ### Error text -/

/-- The error text is no expression, whatever follows. -/
theorem errText_noParse (u : Str) (e : PExpr) (r : List Tok) (h : Parses (.at topLevel) (lex (errText ++ u)) (e, r)) : r ≠ [] := by
  have hl : ∃ us, lex (errText ++ u) = .word "Error".toList :: .word "in".toList :: us := by
    refine ⟨lex (" DBC file !!!! Dlc of this message must be greater.".toList ++ u), ?_⟩
    have hs : SepHead (" DBC file !!!! Dlc of this message must be greater.".toList ++ u) := (by decide : sepCh ' ' = true)
    have e1 : errText ++ u = "Error".toList ++ (' ' :: ("in".toList ++ (" DBC file !!!! Dlc of this message must be greater.".toList ++ u))) := rfl
    rw [e1, lex_word (by decide) (by decide) (sepHead_lit (by decide)), lex_blank,
      lex_word (w := "in".toList) (by decide) (by decide) hs]
  obtain ⟨us, hl⟩ := hl
  rw [hl] at h
  have h2 : Parses (.at topLevel) (.word "Error".toList :: .word "in".toList :: us) (.id "Error".toList, .word "in".toList :: us) :=
    (Parses.wordE (w := "Error".toList) (Parses.post_stop (noPost_word _))).climb topLevel (by decide) fun k _ _ => noOp_word _
  have := h.det h2
  injection this with _ h3
  rw [h3]
  simp

/-! ### The trees of a message are chains -/

def SlotChain : Slot → Prop
  | .expr e => Chain e
  | _ => True

def SigChain : SigText → Prop
  | .expr e => Chain e
  | .err => True

theorem chain_of_operand {e : CExpr} (h : Operand e) : Chain e := by
  cases e <;> first | exact h | exact h.elim

theorem SlotChain.append {sl : Slot} (h : SlotChain sl) {e : CExpr} (he : Operand e) : SlotChain (sl.append e) := by
  cases sl with
  | empty => exact chain_of_operand he
  | expr a => exact ⟨h, he⟩
  | err => trivial

theorem appendAt_chain {tb tb' : List Slot} {bn : Nat} {e : CExpr} (h : appendAt tb bn e = some tb') (hc : ∀ sl ∈ tb, SlotChain sl)
    (he : bn < tb.length → Operand e) : (∀ sl ∈ tb', SlotChain sl) ∧ bn < tb.length ∧ tb'.length = tb.length := by
  unfold appendAt at h
  cases hb : tb[bn]? with
  | none =>
    rw [hb] at h
    cases h
  | some sl =>
    rw [hb] at h
    cases h
    have hl : bn < tb.length := (List.getElem?_eq_some_iff.mp hb).1
    refine ⟨?_, hl, by simp⟩
    intro x hx
    rcases List.mem_or_eq_of_mem_set hx with hx | rfl
    · exact hc x hx
    · exact (hc sl (List.mem_of_getElem? hb)).append (he hl)

theorem t64_operand {e : CExpr} (n : Nat) (h : Operand e) : Operand (t64 n e) := by
  unfold t64
  split
  · exact h
  · exact h

theorem byteLoop_chain {name : Str} (hn : IsIdent name) (o : BitLayout) (fuel : Nat) (acc : CExpr) (tb : List Slot) (slen bn : Nat)
    (hf : slen ≤ fuel) (hs : slen < 2 ^ 31) (hl : tb.length ≤ 2 ^ 31) (hc : ∀ sl ∈ tb, SlotChain sl) (ha : Chain acc) :
    match byteLoop name o fuel acc tb slen bn with
    | .done acc tb' slen _ => Chain acc ∧ (∀ sl ∈ tb', SlotChain sl) ∧ slen < 8 ∧ tb'.length = tb.length
    | .err tb' => (∀ sl ∈ tb', SlotChain sl) ∧ tb'.length = tb.length
    | .oob => True := by
  induction fuel generalizing acc tb slen bn with
  | zero =>
    rw [byteLoop]
    exact ⟨ha, hc, by omega, rfl⟩
  | succ fuel ih =>
    rw [byteLoop]
    by_cases h8 : slen < 8
    · rw [if_pos h8]
      exact ⟨ha, hc, h8, rfl⟩
    rw [if_neg h8]
    dsimp only
    by_cases h1 : tb.length < shiftByte o bn
    · rw [if_pos h1]
      refine ⟨?_, by simp [setErr]⟩
      intro x hx
      rcases List.mem_or_eq_of_mem_set hx with hx | rfl
      · exact hc x hx
      · trivial
    rw [if_neg h1]
    by_cases h0 : slen - 8 = 0
    · rw [if_pos h0]
      cases hp : appendAt tb (shiftByte o bn) (.band (.fld name) (.mask 8)) with
      | none => trivial
      | some tb' =>
        obtain ⟨h2, h3, h4⟩ := appendAt_chain hp hc (fun _ => ⟨hn, Nat.le_refl 8⟩)
        have hi : shiftByte o bn < 2 ^ 31 := by omega
        have := ih (.bor acc (.band (.dat (shiftByte o bn)) (.mask 8))) tb' (slen - 8) (shiftByte o bn) (by omega) (by omega) (by omega) h2
          ⟨ha, hi, Nat.le_refl 8⟩
        rw [h4] at this
        exact this
    · rw [if_neg h0]
      cases hp : appendAt tb (shiftByte o bn) (.band (.shr (.fld name) (slen - 8)) (.mask 8)) with
      | none => trivial
      | some tb' =>
        obtain ⟨h2, h3, h4⟩ := appendAt_chain hp hc (fun _ => ⟨⟨hn, by omega⟩, Nat.le_refl 8⟩)
        have hi : shiftByte o bn < 2 ^ 31 := by omega
        have := ih (.bor acc (.shl (t64 (slen - 8) (.band (.dat (shiftByte o bn)) (.mask 8))) (slen - 8))) tb' (slen - 8) (shiftByte o bn)
          (by omega) (by omega) (by omega) h2 ⟨ha, t64_operand _ ⟨hi, Nat.le_refl 8⟩, by omega⟩
        rw [h4] at this
        exact this

theorem printSignal_chain (s : Sig) (hn : IsIdent s.name) (hs : s.lengthBit < 2 ^ 31) (tb : List Slot) (hl : tb.length ≤ 2 ^ 31)
    (hc : ∀ sl ∈ tb, SlotChain sl) :
    match printSignalExpr s tb with
    | .ok x tb' => SigChain x ∧ (∀ sl ∈ tb', SlotChain sl) ∧ tb'.length = tb.length
    | .oob => True := by
  unfold printSignalExpr
  have herr : ∀ sl ∈ setErr tb, SlotChain sl := by
    intro x hx
    rcases List.mem_or_eq_of_mem_set hx with hx | rfl
    · exact hc x hx
    · trivial
  by_cases h0 : tb.length = 0
  · rw [if_pos h0]
    exact ⟨trivial, hc, rfl⟩
  rw [if_neg h0]
  dsimp only
  by_cases h1 : tb.length ≤ startb s / 8
  · rw [if_pos h1]
    exact ⟨trivial, herr, by simp [setErr]⟩
  rw [if_neg h1]
  have h8 : startb s % 8 + 1 ≤ 8 := by omega
  have hb : startb s / 8 < 2 ^ 31 := by omega
  generalize startb s / 8 = bn at *
  generalize startb s % 8 + 1 = bbc at *
  by_cases h2 : bbc > s.lengthBit
  · rw [if_pos h2]
    cases hp : appendAt tb bn (.shl (.band (.fld s.name) (.mask s.lengthBit)) (bbc - s.lengthBit)) with
    | none => trivial
    | some tb' =>
      obtain ⟨h3, h4, h5⟩ := appendAt_chain hp hc (fun _ => ⟨⟨hn, (by omega : s.lengthBit ≤ 8)⟩, by omega⟩)
      exact ⟨⟨⟨hb, by omega⟩, (by omega : s.lengthBit ≤ 8)⟩, h3, h5⟩
  rw [if_neg h2]
  by_cases h3 : bbc = s.lengthBit
  · rw [if_pos h3]
    cases hp : appendAt tb bn (.band (.fld s.name) (.mask s.lengthBit)) with
    | none => trivial
    | some tb' =>
      obtain ⟨h3, h4, h5⟩ := appendAt_chain hp hc (fun _ => ⟨hn, (by omega : s.lengthBit ≤ 8)⟩)
      exact ⟨⟨hb, (by omega : s.lengthBit ≤ 8)⟩, h3, h5⟩
  rw [if_neg h3]
  cases hp : appendAt tb bn (.band (.shr (.fld s.name) (s.lengthBit - bbc)) (.mask bbc)) with
  | none => trivial
  | some tb' =>
    obtain ⟨h3, h4, h5⟩ := appendAt_chain hp hc (fun _ => ⟨⟨hn, by omega⟩, h8⟩)
    dsimp only
    have hL := byteLoop_chain hn s.order (s.lengthBit - bbc) (.shl (t64 (s.lengthBit - bbc) (.band (.dat bn) (.mask bbc))) (s.lengthBit - bbc))
      tb' (s.lengthBit - bbc) bn (Nat.le_refl _) (by omega) (by omega) h3 ⟨t64_operand _ ⟨hb, h8⟩, by omega⟩
    revert hL
    generalize byteLoop s.name s.order _ _ _ _ _ = L
    intro hL
    cases L with
    | oob => trivial
    | err tb1 => exact ⟨trivial, hL.1, hL.2.trans h5⟩
    | done acc tb1 slen bn1 =>
      obtain ⟨ha, hc1, hs8, hl1⟩ := hL
      dsimp only
      by_cases h6 : slen > 0
      · rw [if_pos h6]
        cases hp : appendAt tb1 (shiftByte s.order bn1) (.shl (.band (.fld s.name) (.mask slen)) (8 - slen)) with
        | none => trivial
        | some tb2 =>
          obtain ⟨h7, h8, h9⟩ := appendAt_chain hp hc1 (fun _ => ⟨⟨hn, (by omega : slen ≤ 8)⟩, by omega⟩)
          have hi : shiftByte s.order bn1 < 2 ^ 31 := by omega
          exact ⟨⟨ha, ⟨hi, by omega⟩, (by omega : slen ≤ 8)⟩, h7, by omega⟩
      · rw [if_neg h6]
        exact ⟨ha, hc1, by omega⟩

theorem buildLoop_chain (ss : List Sig) (hn : ∀ s ∈ ss, IsIdent s.name ∧ s.lengthBit < 2 ^ 31) (xs : List SigText) (tb : List Slot)
    (hl : tb.length ≤ 2 ^ 31) (hx : ∀ x ∈ xs, SigChain x) (hc : ∀ sl ∈ tb, SlotChain sl) :
    match buildLoop ss xs tb with
    | .ok xs' tb' => (∀ x ∈ xs', SigChain x) ∧ (∀ sl ∈ tb', SlotChain sl) ∧ tb'.length = tb.length ∧ xs'.length = xs.length + ss.length
    | .oob => True := by
  induction ss generalizing xs tb with
  | nil => exact ⟨hx, hc, rfl, by simp⟩
  | cons s ss ih =>
    rw [buildLoop]
    have hp := printSignal_chain s (hn s (by simp)).1 (hn s (by simp)).2 tb hl hc
    revert hp
    generalize printSignalExpr s tb = L
    intro hp
    cases L with
    | oob => trivial
    | ok x tb' =>
      obtain ⟨h1, h2, h3⟩ := hp
      have := ih (fun s hs => hn s (by simp [hs])) (xs ++ [x]) tb' (by omega) (by
        intro y hy
        rcases List.mem_append.mp hy with hy | hy
        · exact hx y hy
        · rw [List.mem_singleton.mp hy]
          exact h1) h2
      dsimp only
      revert this
      generalize buildLoop ss (xs ++ [x]) tb' = R
      intro this
      cases R with
      | oob => trivial
      | ok xs' tb'' =>
        refine ⟨this.1, this.2.1, by omega, ?_⟩
        have := this.2.2.2
        simp only [List.length_append, List.length_cons, List.length_nil] at this ⊢
        omega

end Verif
