import Verif.Proofs.ExprText
import Verif.Spec.CProg
/-
Rules for reading expressions, statements, struct members and declarations.
-/
namespace Verif
open Verif.Spec

/-! ### Expressions -/

/-- Level `k` reads exactly `ts`, in front of what cannot continue it. -/
def PA (k : Nat) (ts : List Tok) (e : PExpr) : Prop :=
  ∀ r, NoPost r → (∀ j, j ≤ k → NoOp j r) → Parses (.at k) (ts ++ r) (e, r)

/-- A postfix expression, to be continued. -/
def PPst (ts : List Tok) (e : PExpr) : Prop := ∀ r x, Parses (.post e) r x → Parses (.at 0) (ts ++ r) x

/-- Operands joined by operators of level `k`, to be continued. -/
def PL (k : Nat) (ts : List Tok) (e : PExpr) : Prop :=
  ∀ r x, NoPost r → (∀ j, j < k → NoOp j r) → Parses (.more k e) r x → Parses (.at k) (ts ++ r) x

/-- What a word is as an expression. -/
def atom (w : Str) : PExpr := if inNumber w then .num w else .id w

theorem PPst.word (w : Str) : PPst [.word w] (atom w) := fun _ _ h => Parses.wordE h

theorem PPst.parenWord {w : Str} (h : isType w = false) : PPst [.p ['('], .word w, .p [')']] (atom w) := fun _ _ hx => Parses.parenWord h hx

/-- The tokens are not just one word. -/
def notSingle : List Tok → Bool
  | [] => false
  | [.word _] => false
  | .word _ :: .p [')'] :: _ => false
  | _ => true

theorem notSingle_ne {ts : List Tok} (h : notSingle ts = true) (r : List Tok) : ∀ w r'', ts ++ .p [')'] :: r ≠ .word w :: .p [')'] :: r'' := by
  intro w r'' e
  match ts, h with
  | [t], h =>
    injection e with e1 e2
    subst e1
    cases h
  | t :: u :: q, h =>
    injection e with e1 e2
    injection e2 with e2 e3
    subst e1
    subst e2
    cases h

theorem NoOp.close (k : Nat) (r : List Tok) : NoOp k (.p [')'] :: r) := noOp_close k r

theorem PPst.paren {ts : List Tok} {e : PExpr} (hs : notSingle ts = true) (h : PA topLevel ts e) : PPst (.p ['('] :: (ts ++ [.p [')']])) e := by
  intro r x hx
  show Parses (.at 0) (.p ['('] :: ((ts ++ [.p [')']]) ++ r)) x
  rw [List.append_assoc]
  exact Parses.paren (notSingle_ne hs r) (h _ (noPost_cons (by decide) r) fun j _ => noOp_close j r) hx

theorem PPst.arrow {ts : List Tok} {e : PExpr} (h : PPst ts e) (n : Str) : PPst (ts ++ [.p ['-', '>'], .word n]) (.arrow e n) := by
  intro r x hx
  rw [List.append_assoc]
  exact h _ _ (Parses.arrowE hx)

theorem Parses.dotE {acc : PExpr} {w : Str} {r : List Tok} {x} (h : Parses (.post (.dot acc w)) r x) :
    Parses (.post acc) (.p ['.'] :: .word w :: r) x := by
  obtain ⟨f, h⟩ := h
  refine ⟨f + 1, ?_⟩
  unfold parseGo
  simp only [h]

theorem Parses.incrE {acc : PExpr} {r : List Tok} {x} (h : Parses (.post (.incr acc)) r x) : Parses (.post acc) (.p ['+', '+'] :: r) x := by
  obtain ⟨f, h⟩ := h
  refine ⟨f + 1, ?_⟩
  unfold parseGo
  simp only [h]

theorem Parses.call0E {acc : PExpr} {r : List Tok} {x} (h : Parses (.post (.call0 acc)) r x) : Parses (.post acc) (.p ['('] :: .p [')'] :: r) x := by
  obtain ⟨f, h⟩ := h
  refine ⟨f + 1, ?_⟩
  unfold parseGo
  simp only [h]

theorem Parses.callE {acc e : PExpr} {r r' : List Tok} {x} (hr : ∀ q, r ≠ .p [')'] :: q) (h1 : Parses (.at topLevel) r (e, .p [')'] :: r'))
    (h2 : Parses (.post (.call acc e)) r' x) : Parses (.post acc) (.p ['('] :: r) x := by
  obtain ⟨f, h1, h2⟩ := h1.both h2
  refine ⟨f + 1, ?_⟩
  unfold parseGo
  split
  all_goals first
    | (rename_i heq; injection heq with e1 e2; simp at e1; done)
    | skip
  · rename_i heq
    injection heq with e1 e2
    exact absurd e2 (hr _)
  · rename_i heq
    injection heq with e1 e2
    subst e2
    simp only [h1, h2]
  · simp_all

theorem PPst.dot {ts : List Tok} {e : PExpr} (h : PPst ts e) (n : Str) : PPst (ts ++ [.p ['.'], .word n]) (.dot e n) := by
  intro r x hx
  rw [List.append_assoc]
  exact h _ _ (Parses.dotE hx)

theorem PPst.incr {ts : List Tok} {e : PExpr} (h : PPst ts e) : PPst (ts ++ [.p ['+', '+']]) (.incr e) := by
  intro r x hx
  rw [List.append_assoc]
  exact h _ _ (Parses.incrE hx)

theorem PPst.call0 {ts : List Tok} {e : PExpr} (h : PPst ts e) : PPst (ts ++ [.p ['('], .p [')']]) (.call0 e) := by
  intro r x hx
  rw [List.append_assoc]
  exact h _ _ (Parses.call0E hx)

/-- The head is no closing parenthesis. -/
def notClose : List Tok → Bool
  | [] => false
  | .p [')'] :: _ => false
  | _ => true

theorem PPst.call {ts us : List Tok} {e a : PExpr} (h : PPst ts e) (hn : notClose us = true) (ha : PA topLevel us a) :
    PPst (ts ++ (.p ['('] :: (us ++ [.p [')']]))) (.call e a) := by
  intro r x hx
  rw [List.append_assoc]
  refine h _ _ ?_
  show Parses (.post e) (.p ['('] :: ((us ++ [.p [')']]) ++ r)) x
  rw [List.append_assoc]
  refine Parses.callE ?_ (ha _ (noPost_cons (by decide) r) fun j _ => noOp_close j r) hx
  intro q e
  cases us with
  | nil => cases hn
  | cons u us =>
    injection e with e1 e2
    subst e1
    cases hn

theorem PPst.index {ts us : List Tok} {e a : PExpr} (h : PPst ts e) (ha : PA topLevel us a) :
    PPst (ts ++ (.p ['['] :: (us ++ [.p [']']]))) (.index e a) := by
  intro r x hx
  rw [List.append_assoc]
  refine h _ _ ?_
  show Parses (.post e) (.p ['['] :: ((us ++ [.p [']']]) ++ r)) x
  rw [List.append_assoc]
  exact Parses.indexE (ha _ (noPost_cons (by decide) r) fun j _ => noOp_cons (by
    have : opLevel [']'] = none := by decide
    rw [this]
    simp) r) hx

theorem PPst.at0 {ts : List Tok} {e : PExpr} (h : PPst ts e) : PA 0 ts e := fun r hr _ => h r _ (Parses.post_stop hr)

theorem PA.mono {k : Nat} {ts : List Tok} {e : PExpr} (h : PA k ts e) {l : Nat} (hl : k ≤ l) : PA l ts e := by
  intro r hr hn
  exact (h r hr fun j hj => hn j (by omega)).climb l hl fun j _ hj => hn j hj

theorem PA.cast {w : Str} {ts : List Tok} {e : PExpr} (hw : isType w = true) (h : PA 0 ts e) : PA 0 (.p ['('] :: .word w :: .p [')'] :: ts) (.cast w e) :=
  fun r hr hn => Parses.castE hw (h r hr hn)

theorem Parses.negE {a : PExpr} {r r' : List Tok} (h : Parses (.at 0) r (a, r')) : Parses (.at 0) (.p ['-'] :: r) (.neg a, r') := by
  obtain ⟨f, h⟩ := h
  exact ⟨f + 1, by unfold parseGo; simp only [h]⟩

theorem Parses.addrE {a : PExpr} {r r' : List Tok} (h : Parses (.at 0) r (a, r')) : Parses (.at 0) (.p ['&'] :: r) (.addr a, r') := by
  obtain ⟨f, h⟩ := h
  exact ⟨f + 1, by unfold parseGo; simp only [h]⟩

theorem Parses.derefE {a : PExpr} {r r' : List Tok} (h : Parses (.at 0) r (a, r')) : Parses (.at 0) (.p ['*'] :: r) (.deref a, r') := by
  obtain ⟨f, h⟩ := h
  exact ⟨f + 1, by unfold parseGo; simp only [h]⟩

theorem PA.neg {ts : List Tok} {e : PExpr} (h : PA 0 ts e) : PA 0 (.p ['-'] :: ts) (.neg e) := fun r hr hn => Parses.negE (h r hr hn)
theorem PA.addr {ts : List Tok} {e : PExpr} (h : PA 0 ts e) : PA 0 (.p ['&'] :: ts) (.addr e) := fun r hr hn => Parses.addrE (h r hr hn)
theorem PA.deref {ts : List Tok} {e : PExpr} (h : PA 0 ts e) : PA 0 (.p ['*'] :: ts) (.deref e) := fun r hr hn => Parses.derefE (h r hr hn)

theorem PA.toPL {k : Nat} {ts : List Tok} {e : PExpr} (h : PA k ts e) : PL (k + 1) ts e :=
  fun r x hr hn hx => (h r hr fun j hj => hn j (by omega)).up hx

theorem PL.toPA {k : Nat} {ts : List Tok} {e : PExpr} (h : PL k ts e) : PA k ts e :=
  fun r hr hn => h r _ hr (fun j hj => hn j (by omega)) (Parses.more_stop (hn k (Nat.le_refl _)))

/-- Operators that are neither postfix operators nor of special form. -/
def plainOp (op : Str) : Bool :=
  decide (op ≠ ['['] ∧ op ≠ ['-', '>'] ∧ op ≠ ['.'] ∧ op ≠ ['('] ∧ op ≠ ['+', '+']) && decide (op ≠ ['?']) && !isAssign op

theorem PL.bin {k : Nat} {op : Str} {ts us : List Tok} {a b : PExpr} (ho : opLevel op = some (k + 1)) (hp : plainOp op = true)
    (h1 : PL (k + 1) ts a) (h2 : PA k us b) : PL (k + 1) (ts ++ (.p op :: us)) (.bin op a b) := by
  intro r x hr hn hx
  simp only [plainOp, Bool.and_eq_true, decide_eq_true_eq, Bool.not_eq_true'] at hp
  rw [List.append_assoc]
  refine h1 _ _ (noPost_cons hp.1.1 _) (fun j hj => noOp_cons (by
    rw [ho]
    intro e
    injection e with e
    omega) _) ?_
  exact Parses.more_step ho (h2 r hr fun j hj => hn j (by omega)) hx hp.1.2 hp.2

theorem PA.bin {k : Nat} {op : Str} {ts us : List Tok} {a b : PExpr} (ho : opLevel op = some (k + 1)) (hp : plainOp op = true)
    (h1 : PA k ts a) (h2 : PA k us b) : PA (k + 1) (ts ++ (.p op :: us)) (.bin op a b) := (PL.bin ho hp h1.toPL h2).toPA

theorem PA.assign {op : Str} {ts us : List Tok} {a b : PExpr} (ha : isAssign op = true) (h1 : PA 11 ts a) (h2 : PA 12 us b) :
    PA 12 (ts ++ (.p op :: us)) (.assign op a b) := by
  intro r hr hn
  rw [List.append_assoc]
  have ho : opLevel op = some 12 ∧ (op ≠ ['['] ∧ op ≠ ['-', '>'] ∧ op ≠ ['.'] ∧ op ≠ ['('] ∧ op ≠ ['+', '+']) := by
    have e : op = ['='] ∨ op = ['|', '='] := by simpa [isAssign] using ha
    rcases e with rfl | rfl <;> decide
  refine (h1 _ (noPost_cons ho.2 _) fun j hj => noOp_cons (by
    rw [ho.1]
    intro e
    injection e with e
    omega) _).up ?_
  exact Parses.assignE ha (h2 r hr hn)

theorem PA.cond {ts us vs : List Tok} {c a b : PExpr} (h1 : PA 10 ts c) (h2 : PA topLevel us a) (h3 : PA 11 vs b) :
    PA 11 (ts ++ (.p ['?'] :: (us ++ (.p [':'] :: vs)))) (.cond c a b) := by
  intro r hr hn
  have e : ts ++ (.p ['?'] :: (us ++ (.p [':'] :: vs))) ++ r = ts ++ .p ['?'] :: (us ++ .p [':'] :: (vs ++ r)) := by simp
  rw [e]
  have ho : opLevel ['?'] = some 11 := by decide
  have ho' : opLevel [':'] = none := by decide
  refine (h1 _ (noPost_cons (by decide) _) fun j hj => noOp_cons (by
    rw [ho]
    intro e
    injection e with e
    omega) _).up ?_
  exact Parses.condE (h2 _ (noPost_cons (by decide) _) fun j _ => noOp_cons (by rw [ho']; simp) _) (h3 r hr hn)

theorem PA.chain {e : CExpr} (h : Chain e) : PA topLevel (toks e) (toP e) := by
  intro r hr hn
  refine (parse_chainMore e h r hr (fun k hk => hn k (by unfold topLevel; omega)) (Parses.more_stop (hn 8 (by decide)))).climb topLevel (by decide) ?_
  exact fun k _ hk => hn k hk

/-! ### Statements -/

/-- The text is one statement. -/
def PStm (ts : List Tok) (s : CStm) : Prop := ∀ r, ∃ F, ∀ f, F ≤ f → parseStm f false (ts ++ r) = some (s, r)

/-- Statements in a row, in front of another. -/
def seqs (l : List CStm) (s : CStm) : CStm := l.foldr .seq s

theorem seqs_append (a b : List CStm) (s : CStm) : seqs (a ++ b) s = seqs a (seqs b s) := by
  simp [seqs]

/-- The text is a sequence of statements. -/
def PSeq (ts : List Tok) (l : List CStm) : Prop :=
  ∀ r x, (∃ F, ∀ f, F ≤ f → parseStm f true r = some x) → ∃ F, ∀ f, F ≤ f → parseStm f true (ts ++ r) = some (seqs l x.1, x.2)

theorem PSeq.nil : PSeq [] [] := fun _ _ h => h

theorem PSeq.append {ts us : List Tok} {k l : List CStm} (h1 : PSeq ts k) (h2 : PSeq us l) : PSeq (ts ++ us) (k ++ l) := by
  intro r x hx
  rw [List.append_assoc, seqs_append]
  exact h1 _ _ (h2 _ _ hx)

/-- The head is no closing brace. -/
def notBrace : List Tok → Bool
  | [] => false
  | .p ['}'] :: _ => false
  | _ => true

theorem PSeq.one {ts : List Tok} {s : CStm} (hn : notBrace ts = true) (h : PStm ts s) : PSeq ts [s] := by
  rintro r x ⟨F, hx⟩
  obtain ⟨G, hG⟩ := h r
  refine ⟨F + G + 1, fun f hf => ?_⟩
  obtain ⟨k, rfl⟩ : ∃ k, f = k + 1 := ⟨f - 1, by omega⟩
  unfold parseStm
  cases ts with
  | nil => cases hn
  | cons t ts =>
    have : ∀ q, t :: ts ++ r ≠ .p ['}'] :: q := by
      intro q e
      injection e with e1 e2
      subst e1
      cases hn
    split
    · rename_i q e
      exact absurd e (this _)
    · rw [hG k (by omega)]
      simp only [hx k (by omega)]
      rfl

theorem PSeq.close (r : List Tok) : ∃ F, ∀ f, F ≤ f → parseStm f true (.p ['}'] :: r) = some (.skip, r) :=
  ⟨1, fun f hf => by
    obtain ⟨k, rfl⟩ : ∃ k, f = k + 1 := ⟨f - 1, by omega⟩
    rfl⟩

theorem PA.exprThen {ts : List Tok} {e : PExpr} (h : PA topLevel ts e) {p : Str} (hp : opLevel p = none)
    (hq : p ≠ ['['] ∧ p ≠ ['-', '>'] ∧ p ≠ ['.'] ∧ p ≠ ['('] ∧ p ≠ ['+', '+']) (r : List Tok) :
    ∃ F, ∀ f, F ≤ f → exprThen f p (ts ++ .p p :: r) = some (e, r) := by
  obtain ⟨F, hF⟩ := h (.p p :: r) (noPost_cons hq r) fun j _ => noOp_cons (by rw [hp]; simp) r
  refine ⟨F, fun f hf => ?_⟩
  unfold Spec.exprThen
  rw [parseGo_mono hF f hf]
  simp

/-- How an expression statement may begin. -/
def exprHead : List Tok → Bool
  | .word w :: _ => !(isType w) && decide (w ≠ "return".toList ∧ w ≠ "for".toList ∧ w ≠ "if".toList)
  | .p s :: _ => decide (s ≠ ['{'] ∧ s ≠ ['}'] ∧ s ≠ [';'])
  | [] => false

theorem PStm.expr {ts : List Tok} {e : PExpr} (hh : exprHead ts = true) (h : PA topLevel ts e) : PStm (ts ++ [.p [';']]) (.expr e) := by
  intro r
  obtain ⟨F, hF⟩ := h.exprThen (p := [';']) (by decide) (by decide) r
  refine ⟨F + 1, fun f hf => ?_⟩
  obtain ⟨k, rfl⟩ : ∃ k, f = k + 1 := ⟨f - 1, by omega⟩
  have hF := hF k (by omega)
  rw [List.append_assoc]
  show parseStm (k + 1) false (ts ++ .p [';'] :: r) = _
  cases ts with
  | nil => cases hh
  | cons t ts =>
    rw [List.cons_append] at hF ⊢
    unfold parseStm
    cases t with
    | word w =>
      simp only [exprHead, Bool.and_eq_true, decide_eq_true_eq, Bool.not_eq_true'] at hh
      simp only [hh.2.1, hh.2.2.1, hh.2.2.2, hh.1, if_false, Bool.false_eq_true, hF]
      rfl
    | p s =>
      simp only [exprHead, decide_eq_true_eq] at hh
      split
      · rename_i e
        injection e with e1 _
        injection e1 with e1
        exact absurd e1 hh.1
      · rename_i e
        injection e with e1 _
        injection e1 with e1
        exact absurd e1 hh.2.2
      · rename_i e
        cases e
      · simp only [hF]
        rfl

theorem PStm.ret {ts : List Tok} {e : PExpr} (h : PA topLevel ts e) : PStm (.word "return".toList :: (ts ++ [.p [';']])) (.ret e) := by
  intro r
  obtain ⟨F, hF⟩ := h.exprThen (p := [';']) (by decide) (by decide) r
  refine ⟨F + 1, fun f hf => ?_⟩
  obtain ⟨k, rfl⟩ : ∃ k, f = k + 1 := ⟨f - 1, by omega⟩
  have hF := hF k (by omega)
  show parseStm (k + 1) false (.word "return".toList :: ((ts ++ [.p [';']]) ++ r)) = _
  rw [List.append_assoc]
  unfold parseStm
  simp only [if_true]
  show Option.map _ (Spec.exprThen k [';'] (ts ++ .p [';'] :: r)) = _
  rw [hF]
  rfl

theorem PStm.decl0 {t n : Str} (ht : isType t = true) : PStm [.word t, .word n, .p [';']] (.decl t n none) := by
  intro r
  refine ⟨1, fun f hf => ?_⟩
  obtain ⟨k, rfl⟩ : ∃ k, f = k + 1 := ⟨f - 1, by omega⟩
  have h1 : t ≠ "return".toList ∧ t ≠ "for".toList ∧ t ≠ "if".toList := by
    refine ⟨?_, ?_, ?_⟩ <;> · rintro rfl; revert ht; decide
  show parseStm (k + 1) false (.word t :: .word n :: .p [';'] :: r) = _
  unfold parseStm
  simp only [h1.1, h1.2.1, h1.2.2, if_false, ht, if_true]
  rfl

/-- `T const n = e;` -/
theorem PStm.declConst {t c n : Str} {ts : List Tok} {e : PExpr} (ht : isType t = true) (h : PA topLevel ts e) :
    PStm (.word t :: .word c :: .word n :: .p ['='] :: (ts ++ [.p [';']])) (.decl t n (some e)) := by
  intro r
  obtain ⟨F, hF⟩ := h.exprThen (p := [';']) (by decide) (by decide) r
  refine ⟨F + 1, fun f hf => ?_⟩
  obtain ⟨k, rfl⟩ : ∃ k, f = k + 1 := ⟨f - 1, by omega⟩
  have hF := hF k (by omega)
  have h1 : t ≠ "return".toList ∧ t ≠ "for".toList ∧ t ≠ "if".toList := by
    refine ⟨?_, ?_, ?_⟩ <;> · rintro rfl; revert ht; decide
  show parseStm (k + 1) false (.word t :: .word c :: .word n :: .p ['='] :: ((ts ++ [.p [';']]) ++ r)) = _
  rw [List.append_assoc]
  unfold parseStm
  simp only [h1.1, h1.2.1, h1.2.2, if_false, ht, if_true]
  show Option.map _ (Spec.exprThen k [';'] (ts ++ .p [';'] :: r)) = _
  rw [hF]
  rfl

/-- `for (a; b; c);` -/
theorem PStm.loop {ta tb tc : List Tok} {a b c : PExpr} (h1 : PA topLevel ta a) (h2 : PA topLevel tb b) (h3 : PA topLevel tc c) :
    PStm (.word "for".toList :: .p ['('] :: (ta ++ .p [';'] :: (tb ++ .p [';'] :: (tc ++ [.p [')'], .p [';']])))) (.loop a b c .skip) := by
  intro r
  obtain ⟨F1, g1⟩ := h1.exprThen (p := [';']) (by decide) (by decide) (tb ++ .p [';'] :: (tc ++ .p [')'] :: .p [';'] :: r))
  obtain ⟨F2, g2⟩ := h2.exprThen (p := [';']) (by decide) (by decide) (tc ++ .p [')'] :: .p [';'] :: r)
  obtain ⟨F3, g3⟩ := h3.exprThen (p := [')']) (by decide) (by decide) (.p [';'] :: r)
  refine ⟨F1 + F2 + F3 + 2, fun f hf => ?_⟩
  obtain ⟨k, rfl⟩ : ∃ k, f = k + 1 := ⟨f - 1, by omega⟩
  have e : .word "for".toList :: .p ['('] :: (ta ++ .p [';'] :: (tb ++ .p [';'] :: (tc ++ [.p [')'], .p [';']]))) ++ r =
      .word "for".toList :: .p ['('] :: (ta ++ .p [';'] :: (tb ++ .p [';'] :: (tc ++ .p [')'] :: .p [';'] :: r))) := by
    simp
  rw [e]
  unfold parseStm
  have hne : "for".toList ≠ "return".toList := by decide
  simp only [hne, if_false, if_true, g1 k (by omega), g2 k (by omega), g3 k (by omega)]
  obtain ⟨j, rfl⟩ : ∃ j, k = j + 1 := ⟨k - 1, by omega⟩
  rfl

/-! ### Struct members -/

/-- The text is a list of struct members. -/
def PMem (ts : List Tok) (l : List (Str × MTy)) : Prop :=
  (∀ r ms, parseMembers r = some ms → parseMembers (ts ++ r) = some (l ++ ms)) ∧
  ∀ r, closeBlock 0 (ts ++ r) = (closeBlock 0 r).map fun x => (ts ++ x.1, x.2)

theorem PMem.nil : PMem [] [] := ⟨fun _ _ h => h, fun r => by
  show closeBlock 0 r = (closeBlock 0 r).map fun x => (x.1, x.2)
  simp⟩

theorem PMem.append {ts us : List Tok} {k l : List (Str × MTy)} (h1 : PMem ts k) (h2 : PMem us l) : PMem (ts ++ us) (k ++ l) := by
  constructor
  · intro r ms h
    rw [List.append_assoc, List.append_assoc]
    exact h1.1 _ _ (h2.1 _ _ h)
  · intro r
    rw [List.append_assoc, h1.2, h2.2, Option.map_map]
    congr 1
    funext x
    simp [Function.comp]

/-- Tokens without braces. -/
def noBraces : List Tok → Bool
  | [] => true
  | .p s :: r => decide (s ≠ ['{'] ∧ s ≠ ['}']) && noBraces r
  | .word _ :: r => noBraces r

theorem closeBlock_skip {ts : List Tok} (h : noBraces ts = true) (r : List Tok) :
    closeBlock 0 (ts ++ r) = (closeBlock 0 r).map fun x => (ts ++ x.1, x.2) := by
  induction ts with
  | nil =>
    show closeBlock 0 r = (closeBlock 0 r).map fun x => (x.1, x.2)
    simp
  | cons t ts ih =>
    have ht : t ≠ .p ['{'] ∧ t ≠ .p ['}'] ∧ noBraces ts = true := by
      cases t with
      | word w => exact ⟨by simp, by simp, h⟩
      | p s =>
        simp only [noBraces, Bool.and_eq_true, decide_eq_true_eq] at h
        exact ⟨by simpa using h.1.1, by simpa using h.1.2, h.2⟩
    rw [List.cons_append, closeBlock, if_neg ht.1, if_neg ht.2.1, ih ht.2.2, Option.map_map]
    rfl

/-- The type of a member declared with a type name. -/
def memTy (t : Str) : MTy :=
  match typeNames.lookup t with
  | some (some ty) => .int ty none
  | some none => .flt
  | none => .named t

theorem PMem.plain {t n : Str} (ht : typeNames.lookup t = some none → t = "sigfloat_t".toList) : PMem [.word t, .word n, .p [';']] [(n, memTy t)] := by
  refine ⟨fun r ms h => ?_, closeBlock_skip (by rfl)⟩
  show parseMembers (.word t :: .word n :: .p [';'] :: r) = _
  rw [parseMembers, h]
  unfold memTy
  dsimp only
  cases hl : typeNames.lookup t with
  | none => rfl
  | some o =>
    cases o with
    | some ty => rfl
    | none =>
      dsimp only
      rw [if_pos (ht hl)]
      rfl

theorem PMem.bits {t n w : Str} {ty : CTy} {v : CVal} (ht : typeNames.lookup t = some (some ty)) (hw : litOf w = some v)
    (hv : 1 ≤ v.val ∧ v.val ≤ ty.bits) : PMem [.word t, .word n, .p [':'], .word w, .p [';']] [(n, .int ty (some v.val.toNat))] := by
  refine ⟨fun r ms h => ?_, closeBlock_skip (by rfl)⟩
  show parseMembers (.word t :: .word n :: .p [':'] :: .word w :: .p [';'] :: r) = _
  rw [parseMembers, h]
  simp only [ht, hw, hv, and_self, if_true]
  rfl

/-! ### Declarations -/

/-- The text is a list of declarations. -/
def PItems (ts : List Tok) (l : List Item) : Prop :=
  ∀ r is, (∃ F, ∀ f, F ≤ f → parseUnit f r = some is) → ∃ F, ∀ f, F ≤ f → parseUnit f (ts ++ r) = some (l ++ is)

theorem PItems.nil : PItems [] [] := fun _ _ h => h

theorem PItems.append {ts us : List Tok} {k l : List Item} (h1 : PItems ts k) (h2 : PItems us l) : PItems (ts ++ us) (k ++ l) := by
  intro r is h
  rw [List.append_assoc, List.append_assoc]
  exact h1 _ _ (h2 _ _ h)

theorem PItems.unit {ts : List Tok} {l : List Item} (h : PItems ts l) : ∃ F, ∀ f, F ≤ f → parseUnit f ts = some l := by
  have := h [] [] ⟨1, fun f hf => by
    obtain ⟨k, rfl⟩ : ∃ k, f = k + 1 := ⟨f - 1, by omega⟩
    rfl⟩
  simpa using this

/-- The text is one declaration. -/
theorem PItems.one {ts : List Tok} {i : Item} (h0 : ts ≠ []) (h : ∀ r, ∃ F, ∀ f, F ≤ f → parseItem f (ts ++ r) = some (i, r)) : PItems ts [i] := by
  rintro r is ⟨F, hF⟩
  obtain ⟨G, hG⟩ := h r
  refine ⟨F + G + 1, fun f hf => ?_⟩
  obtain ⟨k, rfl⟩ : ∃ k, f = k + 1 := ⟨f - 1, by omega⟩
  cases ts with
  | nil => exact absurd rfl h0
  | cons t ts =>
    rw [List.cons_append]
    rw [List.cons_append] at hG
    rw [parseUnit, hG k (by omega)]
    · simp only [hF k (by omega)]
      rfl
    · simp

theorem PItems.struct {ts : List Tok} {l : List (Str × MTy)} {n : Str} (h : PMem ts l) (hn : (l.map (·.1)).Nodup) :
    PItems (.word "typedef".toList :: .word "struct".toList :: .p ['{'] :: (ts ++ [.p ['}'], .word n, .p [';']])) [.struct n l] := by
  refine PItems.one (by simp) fun r => ⟨0, fun f _ => ?_⟩
  have e : .word "typedef".toList :: .word "struct".toList :: .p ['{'] :: (ts ++ [.p ['}'], .word n, .p [';']]) ++ r =
      .word "typedef".toList :: .word "struct".toList :: .p ['{'] :: (ts ++ .p ['}'] :: .word n :: .p [';'] :: r) := by simp
  have h1 := h.2 (.p ['}'] :: .word n :: .p [';'] :: r)
  have h2 : closeBlock 0 (.p ['}'] :: .word n :: .p [';'] :: r) = some ([], .word n :: .p [';'] :: r) := rfl
  rw [h2] at h1
  have h3 := h.1 [] [] rfl
  rw [List.append_nil, List.append_nil] at h3
  rw [e, parseItem, if_pos ⟨rfl, rfl⟩, h1]
  simp only [Option.map_some, List.append_nil, h3, Option.bind_some, hn, if_true]

theorem PItems.proto {t n : Str} {inside : List Tok} {ps : List Param} (hc : ∀ r, closeArgs 0 (inside ++ .p [')'] :: r) = some (inside, r))
    (hp : optAll ((splitArgs 0 inside []).map parseParam) = some ps) :
    PItems (.word t :: .word n :: .p ['('] :: (inside ++ [.p [')'], .p [';']])) [.proto t n ps] := by
  refine PItems.one (by simp) fun r => ⟨0, fun f _ => ?_⟩
  have e : .word t :: .word n :: .p ['('] :: (inside ++ [.p [')'], .p [';']]) ++ r = .word t :: .word n :: .p ['('] :: (inside ++ .p [')'] :: .p [';'] :: r) := by
    simp
  rw [e, parseItem]
  unfold parseFunc
  simp only [hc, hp]

theorem func_parse {t n : Str} {inside body : List Tok} {ps : List Param} {l : List CStm}
    (hc : ∀ r, closeArgs 0 (inside ++ .p [')'] :: r) = some (inside, r))
    (hp : optAll ((splitArgs 0 inside []).map parseParam) = some ps) (hb : PSeq body l) (r : List Tok) :
    ∃ F, ∀ f, F ≤ f → parseFunc f t n (inside ++ .p [')'] :: .p ['{'] :: (body ++ .p ['}'] :: r)) = some (.func ⟨t, n, ps, seqs l .skip⟩, r) := by
  obtain ⟨F, hF⟩ := hb (.p ['}'] :: r) (.skip, r) (PSeq.close r)
  refine ⟨F, fun f hf => ?_⟩
  unfold parseFunc
  simp only [hc, hp, hF f hf]
  rfl

theorem PItems.func {t n : Str} {inside body : List Tok} {ps : List Param} {l : List CStm}
    (hc : ∀ r, closeArgs 0 (inside ++ .p [')'] :: r) = some (inside, r))
    (hp : optAll ((splitArgs 0 inside []).map parseParam) = some ps) (hb : PSeq body l) :
    PItems (.word t :: .word n :: .p ['('] :: (inside ++ .p [')'] :: .p ['{'] :: (body ++ [.p ['}']]))) [.func ⟨t, n, ps, seqs l .skip⟩] := by
  refine PItems.one (by simp) fun r => ?_
  obtain ⟨F, hF⟩ := func_parse (t := t) (n := n) hc hp hb r
  refine ⟨F, fun f hf => ?_⟩
  have e : .word t :: .word n :: .p ['('] :: (inside ++ .p [')'] :: .p ['{'] :: (body ++ [.p ['}']])) ++ r =
      .word t :: .word n :: .p ['('] :: (inside ++ .p [')'] :: .p ['{'] :: (body ++ .p ['}'] :: r)) := by
    simp
  rw [e, parseItem]
  exact hF f hf

theorem PItems.staticFunc {t n : Str} {inside body : List Tok} {ps : List Param} {l : List CStm}
    (hc : ∀ r, closeArgs 0 (inside ++ .p [')'] :: r) = some (inside, r))
    (hp : optAll ((splitArgs 0 inside []).map parseParam) = some ps) (hb : PSeq body l) :
    PItems (.word "static".toList :: .word t :: .word n :: .p ['('] :: (inside ++ .p [')'] :: .p ['{'] :: (body ++ [.p ['}']])))
      [.func ⟨t, n, ps, seqs l .skip⟩] := by
  refine PItems.one (by simp) fun r => ?_
  obtain ⟨F, hF⟩ := func_parse (t := t) (n := n) hc hp hb r
  refine ⟨F, fun f hf => ?_⟩
  have e : .word "static".toList :: .word t :: .word n :: .p ['('] :: (inside ++ .p [')'] :: .p ['{'] :: (body ++ [.p ['}']])) ++ r =
      .word "static".toList :: .word t :: .word n :: .p ['('] :: (inside ++ .p [')'] :: .p ['{'] :: (body ++ .p ['}'] :: r)) := by
    simp
  rw [e, parseItem]
  simp only [if_true]
  exact hF f hf

end Verif
