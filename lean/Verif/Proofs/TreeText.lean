import Verif.Proofs.Stms
import Verif.Proofs.Tree
import Verif.Proofs.NumText
import Verif.Proofs.LineText
/-
The text of the search tree of `Receive`, read as C statements.
-/
namespace Verif
open Spec

/-! ### Conditional statements -/

/-- What comes behind is no `else`. -/
def NoElse (r : List Tok) : Prop := ∀ q, r ≠ .word "else".toList :: q

theorem NoElse.close (r : List Tok) : NoElse (.p ['}'] :: r) := fun _ h => by cases h

/-- One statement, with no `else` behind it. -/
def PStmE (ts : List Tok) (s : CStm) : Prop := ∀ r, NoElse r → ∃ F, ∀ f, F ≤ f → parseStm f false (ts ++ r) = some (s, r)

/-- Statements in a row, with no `else` behind them. -/
def PSeqE (ts : List Tok) (l : List CStm) : Prop :=
  ∀ r x, NoElse r → (∃ F, ∀ f, F ≤ f → parseStm f true r = some x) → ∃ F, ∀ f, F ≤ f → parseStm f true (ts ++ r) = some (seqs l x.1, x.2)

theorem PStm.toE {ts : List Tok} {s : CStm} (h : PStm ts s) : PStmE ts s := fun r _ => h r

theorem PSeq.toE {ts : List Tok} {l : List CStm} (h : PSeq ts l) : PSeqE ts l := fun r x _ => h r x

theorem PSeqE.one {ts : List Tok} {s : CStm} (hn : notBrace ts = true) (h : PStmE ts s) : PSeqE ts [s] := by
  rintro r x hr ⟨F, hx⟩
  obtain ⟨G, hG⟩ := h r hr
  refine ⟨F + G + 1, fun f hf => ?_⟩
  obtain ⟨k, rfl⟩ : ∃ k, f = k + 1 := ⟨f - 1, by omega⟩
  unfold parseStm
  cases ts with
  | nil => cases hn
  | cons t ts =>
    have : ∀ q, t :: ts ++ r ≠ .p ['}'] :: q := by
      intro q e
      injection e with e1 e2
      subst e1
      cases hn
    split
    · rename_i q e
      exact absurd e (this _)
    · rw [hG k (by omega)]
      simp only [hx k (by omega)]
      rfl

/-- A sequence in front of one that does not begin with `else`. -/
theorem PSeqE.thenSeq {ts us : List Tok} {k l : List CStm} (h1 : PSeqE ts k) (h2 : PSeq us l) (hn : ∀ r, NoElse (us ++ r)) : PSeq (ts ++ us) (k ++ l) := by
  intro r x hx
  rw [List.append_assoc, seqs_append]
  exact h1 _ _ (hn r) (h2 _ _ hx)

/-- `{ … }` -/
theorem PStm.block {ts : List Tok} {l : List CStm} (h : PSeqE ts l) : PStm (.p ['{'] :: (ts ++ [.p ['}']])) (seqs l .skip) := by
  intro r
  obtain ⟨F, hF⟩ := h (.p ['}'] :: r) (.skip, r) (NoElse.close r) (PSeq.close r)
  refine ⟨F + 1, fun f hf => ?_⟩
  obtain ⟨k, rfl⟩ : ∃ k, f = k + 1 := ⟨f - 1, by omega⟩
  have e : .p ['{'] :: (ts ++ [.p ['}']]) ++ r = .p ['{'] :: (ts ++ .p ['}'] :: r) := by simp
  rw [e]
  unfold parseStm
  exact hF k (by omega)

theorem if_words : "if".toList ≠ "return".toList ∧ "if".toList ≠ "for".toList := by decide

/-- `if (c) a` -/
theorem PStmE.ifs {tc ta : List Tok} {c : PExpr} {a : CStm} (hc : PA topLevel tc c) (ha : PStm ta a) :
    PStmE (.word "if".toList :: .p ['('] :: (tc ++ .p [')'] :: ta)) (.ifs c a .skip) := by
  intro r hr
  obtain ⟨F1, g1⟩ := hc.exprThen (p := [')']) (by decide) (by decide) (ta ++ r)
  obtain ⟨F2, g2⟩ := ha r
  refine ⟨F1 + F2 + 1, fun f hf => ?_⟩
  obtain ⟨k, rfl⟩ : ∃ k, f = k + 1 := ⟨f - 1, by omega⟩
  have e : .word "if".toList :: .p ['('] :: (tc ++ .p [')'] :: ta) ++ r = .word "if".toList :: .p ['('] :: (tc ++ .p [')'] :: (ta ++ r)) := by simp
  rw [e]
  unfold parseStm
  simp only [if_words.1, if_words.2, if_false, if_true, g1 k (by omega), g2 k (by omega)]
  cases r with
  | nil => rfl
  | cons t q =>
    cases t with
    | p s => rfl
    | word v =>
      have : v ≠ "else".toList := fun e => hr q (by rw [e])
      simp only [this, if_false]

/-- `if (c) a else b` -/
theorem PStmE.ifElse {tc ta tb : List Tok} {c : PExpr} {a b : CStm} (hc : PA topLevel tc c) (ha : PStm ta a) (hb : PStmE tb b) :
    PStmE (.word "if".toList :: .p ['('] :: (tc ++ .p [')'] :: (ta ++ .word "else".toList :: tb))) (.ifs c a b) := by
  intro r hr
  obtain ⟨F1, g1⟩ := hc.exprThen (p := [')']) (by decide) (by decide) (ta ++ .word "else".toList :: (tb ++ r))
  obtain ⟨F2, g2⟩ := ha (.word "else".toList :: (tb ++ r))
  obtain ⟨F3, g3⟩ := hb r hr
  refine ⟨F1 + F2 + F3 + 1, fun f hf => ?_⟩
  obtain ⟨k, rfl⟩ : ∃ k, f = k + 1 := ⟨f - 1, by omega⟩
  have e : .word "if".toList :: .p ['('] :: (tc ++ .p [')'] :: (ta ++ .word "else".toList :: tb)) ++ r =
      .word "if".toList :: .p ['('] :: (tc ++ .p [')'] :: (ta ++ .word "else".toList :: (tb ++ r))) := by simp
  rw [e]
  unfold parseStm
  simp only [if_words.1, if_words.2, if_false, if_true, g1 k (by omega), g2 k (by omega), g3 k (by omega)]
  rfl

/-! ### The tree as statements -/

/-- A number as printed. -/
def hexU (n : Nat) : Str := "0x".toList ++ hexStr n ++ "U".toList

theorem numW_hexU (n : Nat) : NumW (hexU n) := by
  refine ⟨rfl, fun c hc => ?_⟩
  unfold hexU at hc
  rcases List.mem_append.1 hc with hc | hc
  · rcases List.mem_append.1 hc with hc | hc
    · have : ∀ c ∈ "0x".toList, isWordCh c = true := by decide
      exact this c hc
    · exact (hexStr_spec n).2.1 c hc
  · exact wordU c hc

theorem litOf_hexU {n : Nat} (h : n < 2 ^ 32) : litOf (hexU n) = some ⟨.u32, (n : Nat)⟩ := by
  refine litOf_U ?_ h
  show constVal ('0' :: 'x' :: hexStr n) = some n
  rw [constVal_hex _ (hexStr_spec n).1, (hexStr_spec n).2.2]

/-- Expression of a condition. -/
def condE : RCond → PExpr
  | .eq i => .bin ['=', '='] (.id "_id".toList) (.num (hexU i))
  | .range a b => .bin ['&', '&'] (.bin ['>', '='] (.id "_id".toList) (.num (hexU a))) (.bin ['<'] (.id "_id".toList) (.num (hexU b)))

/-- Tokens of a condition. -/
def condToks : RCond → List Tok
  | .eq i => [.word "_id".toList, .p ['=', '='], .word (hexU i)]
  | .range a b => par [.word "_id".toList, .p ['>', '='], .word (hexU a)] ++ .p ['&', '&'] :: par [.word "_id".toList, .p ['<'], .word (hexU b)]

theorem PA.numW {w : Str} (h : NumW w) : PPst [.word w] (.num w) := by
  have := PPst.word w
  unfold atom at this
  rwa [atom_num h.1] at this

theorem PA.ident {w : Str} (h : inNumber w = false) : PPst [.word w] (.id w) := by
  have := PPst.word w
  unfold atom at this
  rwa [h] at this

theorem cond_parse (c : RCond) : PA topLevel (condToks c) (condE c) := by
  cases c with
  | eq i => exact (PA.bin (k := 4) (op := ['=', '=']) rfl rfl ((PA.ident (w := "_id".toList) rfl).pa 4) ((PA.numW (numW_hexU i)).pa 4)).mono (by decide)
  | range a b =>
    have h1 := PA.bin (k := 3) (op := ['>', '=']) rfl rfl ((PA.ident (w := "_id".toList) rfl).pa 3) ((PA.numW (numW_hexU a)).pa 3)
    have h2 := PA.bin (k := 3) (op := ['<']) rfl rfl ((PA.ident (w := "_id".toList) rfl).pa 3) ((PA.numW (numW_hexU b)).pa 3)
    exact (PA.bin (k := 8) (op := ['&', '&']) rfl rfl ((PPst.paren rfl (h1.mono (by decide))).pa 8) ((PPst.paren rfl (h2.mono (by decide))).pa 8)).mono (by decide)

/-- Name of the function that is called for a message. -/
def callName (drv : Str) (m : Msg) : Str := "Unpack_".toList ++ m.name ++ "_".toList ++ drv

/-- The call for a message. -/
def callE (drv : Str) (m : Msg) : PExpr :=
  .assign ['='] (.id "recid".toList) (.call (.id (callName drv m))
    (.bin [','] (.bin [','] (.addr (.arrow (.id "_m".toList) m.name)) (.id "_d".toList)) (.id "dlc_".toList)))

/-- Tokens of the call for a message. -/
def callToks (drv : Str) (m : Msg) : List Tok :=
  [.word "recid".toList, .p ['='], .word (callName drv m), .p ['('], .p ['&'], .p ['('], .word "_m".toList, .p ['-', '>'], .word m.name, .p [')'],
   .p [','], .word "_d".toList, .p [','], .word "dlc_".toList, .p [')'], .p [';']]

theorem call_parse (drv : Str) (m : Msg) : PStm (callToks drv m) (.expr (callE drv m)) := by
  have a1 : PA 0 ([.p ['&'], .p ['('], .word "_m".toList, .p ['-', '>'], .word m.name, .p [')']]) (.addr (.arrow (.id "_m".toList) m.name)) :=
    PA.addr (PPst.paren (ts := [.word "_m".toList, .p ['-', '>'], .word m.name]) rfl ((PPst.arrow (PA.ident (w := "_m".toList) rfl) m.name).pa topLevel)).at0
  have a2 := PL.bin (k := 12) (op := [',']) rfl rfl (a1.mono (l := 12) (by decide)).toPL ((PA.ident (w := "_d".toList) rfl).pa 12)
  have a3 := (PL.bin (k := 12) (op := [',']) rfl rfl a2 ((PA.ident (w := "dlc_".toList) rfl).pa 12)).toPA
  have f := PPst.call (PA.ident (w := callName drv m) rfl) rfl a3
  have e := PA.assign (op := ['=']) rfl ((PA.ident (w := "recid".toList) rfl).pa 11) (f.pa 12)
  have := PStm.expr (by rfl) (e.mono (l := topLevel) (by decide))
  exact this

/-- The statements of a tree. -/
def treeStms (drv : Str) : CTree → List CStm
  | .null => []
  | .cond c hi .null => [.ifs (condE c) (seqs (treeStms drv hi) .skip) .skip]
  | .cond c hi (.express c' m) => [.ifs (condE c) (seqs (treeStms drv hi) .skip) (.ifs (condE c') (seqs [.expr (callE drv m)] .skip) .skip)]
  | .cond c hi (.single m) => [.ifs (condE c) (seqs (treeStms drv hi) .skip) (seqs [.expr (callE drv m)] .skip)]
  | .cond c hi (.cond c' h' l') => [.ifs (condE c) (seqs (treeStms drv hi) .skip) (seqs (treeStms drv (.cond c' h' l')) .skip)]
  | .express _ m => [.expr (callE drv m)]
  | .single m => [.expr (callE drv m)]

/-- Tokens of a line. -/
def lineToks (drv : Str) : RLine → List Tok
  | .ifOpen c => .word "if".toList :: .p ['('] :: (condToks c ++ [.p [')'], .p ['{']])
  | .elseIf c => .p ['}'] :: .word "else".toList :: .word "if".toList :: .p ['('] :: (condToks c ++ [.p [')'], .p ['{']])
  | .els => [.p ['}'], .word "else".toList, .p ['{']]
  | .close => [.p ['}']]
  | .call m => callToks drv m

/-- Tokens of the lines of a tree. -/
def treeToks (drv : Str) (t : CTree) (i : Nat) : List Tok := (writeCode t i).flatMap fun p => lineToks drv p.2

theorem tree_parse (drv : Str) (t : CTree) : ∀ i, PSeqE (treeToks drv t i) (treeStms drv t) := by
  induction t with
  | null => intro i; exact PSeq.nil.toE
  | express c m => intro i; exact (PSeq.one (ts := callToks drv m ++ []) rfl (by rw [List.append_nil]; exact call_parse drv m)).toE
  | single m => intro i; exact (PSeq.one (ts := callToks drv m ++ []) rfl (by rw [List.append_nil]; exact call_parse drv m)).toE
  | cond c hi lo ih1 ih2 =>
    intro i
    have h1 := PStm.block (ih1 (i + 1))
    have call : ∀ m, PStm (.p ['{'] :: (callToks drv m ++ [.p ['}']])) (seqs [.expr (callE drv m)] .skip) :=
      fun m => PStm.block (PSeq.one rfl (call_parse drv m)).toE
    cases lo with
    | null =>
      have := PStmE.ifs (cond_parse c) h1
      have e : treeToks drv (.cond c hi .null) i = .word "if".toList :: .p ['('] :: (condToks c ++ .p [')'] :: (.p ['{'] :: (treeToks drv hi (i + 1) ++ [.p ['}']]))) := by
        simp [treeToks, writeCode, lineToks]
      rw [e, treeStms]
      exact PSeqE.one rfl this
    | express c' m =>
      have := PStmE.ifElse (cond_parse c) h1 (PStmE.ifs (cond_parse c') (call m))
      have e : treeToks drv (.cond c hi (.express c' m)) i = .word "if".toList :: .p ['('] :: (condToks c ++ .p [')'] :: ((.p ['{'] :: (treeToks drv hi (i + 1) ++ [.p ['}']])) ++
          .word "else".toList :: (.word "if".toList :: .p ['('] :: (condToks c' ++ .p [')'] :: (.p ['{'] :: (callToks drv m ++ [.p ['}']])))))) := by
        simp [treeToks, writeCode, lineToks]
      rw [e, treeStms]
      exact PSeqE.one rfl this
    | single m =>
      have := PStmE.ifElse (cond_parse c) h1 (call m).toE
      have e : treeToks drv (.cond c hi (.single m)) i = .word "if".toList :: .p ['('] :: (condToks c ++ .p [')'] :: ((.p ['{'] :: (treeToks drv hi (i + 1) ++ [.p ['}']])) ++
          .word "else".toList :: (.p ['{'] :: (callToks drv m ++ [.p ['}']])))) := by
        simp [treeToks, writeCode, lineToks]
      rw [e, treeStms]
      exact PSeqE.one rfl this
    | cond c' h' l' =>
      have := PStmE.ifElse (cond_parse c) h1 (PStm.block (ih2 (i + 1))).toE
      have e : treeToks drv (.cond c hi (.cond c' h' l')) i = .word "if".toList :: .p ['('] :: (condToks c ++ .p [')'] :: ((.p ['{'] :: (treeToks drv hi (i + 1) ++ [.p ['}']])) ++
          .word "else".toList :: (.p ['{'] :: (treeToks drv (.cond c' h' l') (i + 1) ++ [.p ['}']])))) := by
        have hw : writeCode (.cond c hi (.cond c' h' l')) i = (i, .ifOpen c) :: (writeCode hi (i + 1) ++
            ((i, .els) :: (writeCode (.cond c' h' l') (i + 1) ++ [(i, .close)]))) := by rw [writeCode]
        unfold treeToks
        rw [hw]
        generalize writeCode (.cond c' h' l') (i + 1) = w
        simp [lineToks]
      rw [e, treeStms]
      exact PSeqE.one rfl this

end Verif
