import Verif.Props.MsgOrder
/-
Signal lines in another order (C77).
-/
namespace Verif
open Spec

/-- The same message with its signals in another order. -/
inductive CurPerm : Option Msg → Option Msg → Prop where
  | none : CurPerm none none
  | some (m : Msg) {l : List Sig} (h : m.signals.Perm l) : CurPerm (some m) (some { m with signals := l })

theorem CurPerm.refl (c : Option Msg) : CurPerm c c := by
  cases c with
  | none => exact .none
  | some m => exact .some m (.refl _)

theorem CurPerm.trans {a b c : Option Msg} (h : CurPerm a b) (h' : CurPerm b c) : CurPerm a c := by
  cases h with
  | none => exact h'
  | some m h =>
    cases h' with
    | some _ h2 => exact .some m (h.trans h2)

/-- What a line adds. -/
def lineSig (P : Platform) (l : Str) : Res (Option Sig) := if isSignalLine l then parseSignalLine P l else .ok none

def addOpt (m : Msg) : Option Sig → Msg
  | none => m
  | some s => addSignal m s

theorem stepCur_some (P : Platform) (m : Msg) (l : Str) : stepCur P (some m) l = match lineSig P l with
    | .ok r => .ok (some (addOpt m r))
    | .ub => .ub
    | .throws => .throws := by
  unfold stepCur lineSig
  dsimp only
  by_cases h : isSignalLine l = true
  · rw [if_pos h, if_pos h]
    cases parseSignalLine P l with
    | ub => rfl
    | throws => rfl
    | ok r => cases r <;> rfl
  · rw [if_neg h, if_neg h]
    rfl

theorem addOpt_perm {m : Msg} {l : List Sig} (h : m.signals.Perm l) (r : Option Sig) : CurPerm (some (addOpt m r)) (some (addOpt { m with signals := l } r)) := by
  cases r with
  | none => exact .some m h
  | some s => exact .some (addSignal m s) (h.append_right [s])

theorem addOpt_swap (m : Msg) (a b : Option Sig) : CurPerm (some (addOpt (addOpt m a) b)) (some (addOpt (addOpt m b) a)) := by
  cases a with
  | none => exact .refl _
  | some s =>
    cases b with
    | none => exact .refl _
    | some t =>
      have e : addOpt (addOpt m (some t)) (some s) = { addOpt (addOpt m (some s)) (some t) with signals := m.signals ++ [t] ++ [s] } := by
        unfold addOpt addSignal
        dsimp only
        have hb : ∀ h a b c d : Bool, ((((h || a) || b) || c) || d) = ((((h || c) || d) || a) || b) := by decide
        rw [hb m.hasPhys t.isDouble]
      rw [e]
      refine .some _ ?_
      show (m.signals ++ [s] ++ [t]).Perm _
      rw [List.append_assoc, List.append_assoc]
      exact (List.Perm.swap _ _ _).append_left _

theorem stepCur_perm {P : Platform} {c c' d : Option Msg} (h : CurPerm c c') {l : Str} (hs : stepCur P c l = .ok d) : ∃ d', stepCur P c' l = .ok d' ∧ CurPerm d d' := by
  cases h with
  | none => exact ⟨d, hs, .refl _⟩
  | some m h =>
    rw [stepCur_some] at hs ⊢
    cases hl : lineSig P l with
    | ub => rw [hl] at hs; cases hs
    | throws => rw [hl] at hs; cases hs
    | ok r =>
      rw [hl] at hs
      cases hs
      exact ⟨_, rfl, addOpt_perm h r⟩

theorem curAfter_rel {P : Platform} {ls : List Str} {c c' d : Option Msg} (h : CurPerm c c') (hs : curAfter P c ls = .ok d) : ∃ d', curAfter P c' ls = .ok d' ∧ CurPerm d d' := by
  induction ls generalizing c c' with
  | nil => cases hs; exact ⟨c', rfl, h⟩
  | cons l ls ih =>
    rw [curAfter] at hs ⊢
    cases h1 : stepCur P c (strTrim P.charMax l) with
    | ub => rw [h1] at hs; cases hs
    | throws => rw [h1] at hs; cases hs
    | ok e =>
      rw [h1] at hs
      obtain ⟨e', a1, a2⟩ := stepCur_perm h h1
      rw [a1]
      exact ih a2 hs

theorem curAfter_none {P : Platform} {ls : List Str} : curAfter P none ls = .ok none := by
  induction ls with
  | nil => rfl
  | cons l ls ih => exact ih

theorem curAfter_perm {P : Platform} {ls ls' : List Str} (hp : ls.Perm ls') {c d : Option Msg} (hs : curAfter P c ls = .ok d) : ∃ d', curAfter P c ls' = .ok d' ∧ CurPerm d d' := by
  induction hp generalizing c d with
  | nil => exact ⟨d, hs, .refl _⟩
  | cons l _ ih =>
    rw [curAfter] at hs ⊢
    cases h1 : stepCur P c (strTrim P.charMax l) with
    | ub => rw [h1] at hs; cases hs
    | throws => rw [h1] at hs; cases hs
    | ok e =>
      rw [h1] at hs
      exact ih hs
  | swap a b ls =>
    cases c with
    | none =>
      rw [curAfter_none] at hs ⊢
      exact ⟨d, hs, .refl _⟩
    | some m =>
      rw [curAfter, stepCur_some] at hs
      rw [curAfter, stepCur_some]
      cases h1 : lineSig P (strTrim P.charMax b) with
      | ub => rw [h1] at hs; cases hs
      | throws => rw [h1] at hs; cases hs
      | ok r =>
        rw [h1] at hs
        dsimp only at hs
        rw [curAfter, stepCur_some] at hs
        cases h2 : lineSig P (strTrim P.charMax a) with
        | ub => rw [h2] at hs; cases hs
        | throws => rw [h2] at hs; cases hs
        | ok q =>
          rw [h2] at hs
          dsimp only at hs ⊢
          rw [curAfter, stepCur_some, h1]
          exact curAfter_rel (addOpt_swap m r q) hs
  | trans _ _ ih1 ih2 =>
    obtain ⟨e, a1, a2⟩ := ih1 hs
    obtain ⟨f, b1, b2⟩ := ih2 a1
    exact ⟨f, b1, a2.trans b2⟩

/-- Different start bits. -/
def Spec.StartsApart (l : List Sig) : Prop := l.Pairwise fun a b => a.startBit ≠ b.startBit

theorem starts_inj {l : List Sig} (h : StartsApart l) {a b : Sig} (ha : a ∈ l) (hb : b ∈ l) (e : a.startBit = b.startBit) : a = b := by
  unfold StartsApart at h
  induction l with
  | nil => cases ha
  | cons x l ih =>
    obtain ⟨h1, h2⟩ := List.pairwise_cons.1 h
    rcases List.mem_cons.1 ha with qa | qa <;> rcases List.mem_cons.1 hb with qb | qb
    · rw [qa, qb]
    · exact absurd e (qa ▸ h1 b qb)
    · exact absurd e.symm (qb ▸ h1 a qa)
    · exact ih h2 qa qb

/-- The order of the signals is gone when the message is closed. -/
theorem close_perm {P : Platform} (hs : SortsByStart P) {m : Msg} {l : List Sig} (h : m.signals.Perm l) (hd : StartsApart m.signals) :
    closeMessage P { m with signals := l } = closeMessage P m := by
  have e : P.sortSigs l = P.sortSigs m.signals := by
    obtain ⟨a1, a2⟩ := hs l
    obtain ⟨b1, b2⟩ := hs m.signals
    refine List.Perm.eq_of_pairwise (le := fun a b : Sig => a.startBit ≤ b.startBit) ?_ a2 b2 ((a1.trans h.symm).trans b1.symm)
    intro a b ha hb q1 q2
    exact starts_inj hd (h.mem_iff.2 (a1.mem_iff.1 ha)) (b1.mem_iff.1 hb) (Nat.le_antisymm q1 q2)
  unfold closeMessage
  dsimp only
  rw [e, ← h.length_eq]
  split
  · rfl
  · rename_i hn
    have h0 : m.signals = [] := List.eq_nil_of_length_eq_zero (by omega)
    have h1 : l = [] := List.eq_nil_of_length_eq_zero (by rw [← h.length_eq, h0]; rfl)
    rw [h1, ← h0]

/-- Two states of the first pass that differ in the order of the signals of the open message only. -/
structure SigRel (s s' : Scan) : Prop where
  list : s'.list = s.list
  cur : CurPerm s.cur s'.cur
  apart : ∀ m, s.cur = some m → StartsApart m.signals

theorem SigRel.close {P : Platform} (hs : SortsByStart P) {s s' : Scan} (h : SigRel s s') (L : DbcList) : closeCur P L s'.cur = closeCur P L s.cur := by
  obtain ⟨h1, h2, h3⟩ := h
  cases hc : s.cur with
  | none =>
    rw [hc] at h2
    generalize s'.cur = c' at h2
    cases h2
    rfl
  | some m =>
    rw [hc] at h2
    generalize s'.cur = c' at h2
    cases h2 with
    | some _ hp =>
      unfold closeCur addMessage
      dsimp only
      rw [close_perm hs hp (h3 m hc)]
      rfl

theorem SigRel.refl {s : Scan} (h : ∀ m, s.cur = some m → StartsApart m.signals) : SigRel s s := ⟨rfl, .refl _, h⟩

/-- The signals a section can have. -/
def sectionLines (P : Platform) (b : List Str) : List Sig := lineSigs P (b.map (strTrim P.charMax))

theorem curAfter_sigs {P : Platform} {ls : List Str} {m m' : Msg} (h : curAfter P (some m) ls = .ok (some m')) : m'.signals = m.signals ++ sectionLines P ls := by
  induction ls generalizing m with
  | nil => cases h; exact (List.append_nil _).symm
  | cons l ls ih =>
    rw [curAfter, stepCur_some] at h
    cases hl : lineSig P (strTrim P.charMax l) with
    | ub => rw [hl] at h; cases h
    | throws => rw [hl] at h; cases h
    | ok r =>
      rw [hl] at h
      rw [ih h]
      unfold sectionLines
      rw [List.map_cons]
      unfold lineSig at hl
      by_cases hs : isSignalLine (strTrim P.charMax l) = true
      · rw [if_pos hs] at hl
        rw [lineSigs_cons_sig hs hl]
        cases r with
        | none => rfl
        | some s => exact List.append_assoc _ _ _
      · rw [if_neg hs] at hl
        cases hl
        rw [lineSigs_cons_no (by simpa using hs)]
        rfl

/-- The same section with the lines after the header in another order. -/
inductive Spec.SameSection : List Str → List Str → Prop where
  | mk (h : Str) {body body' : List Str} (hp : body.Perm body') : SameSection (h :: body) (h :: body')

theorem SameSection.isSection {P : Platform} {b b' : List Str} (h : SameSection b b') (hb : MsgSection P b) : MsgSection P b' := by
  cases h with
  | mk x hp =>
    obtain ⟨y, body, e, h1, h2⟩ := hb
    cases e
    exact ⟨x, _, rfl, h1, fun l hl => h2 l (hp.mem_iff.2 hl)⟩

theorem sectionMsg_perm {P : Platform} {b b' : List Str} (h : SameSection b b') {c : Option Msg} (hc : sectionMsg P b = .ok c) : ∃ c', sectionMsg P b' = .ok c' ∧ CurPerm c c' := by
  cases h with
  | mk x hp =>
    rw [sectionMsg, curAfter] at hc ⊢
    cases h1 : stepCur P (parseMessageLine P (strTrim P.charMax x)) (strTrim P.charMax x) with
    | ub => rw [h1] at hc; cases hc
    | throws => rw [h1] at hc; cases hc
    | ok d =>
      rw [h1] at hc
      exact curAfter_perm hp hc

theorem sectionMsg_sigs {P : Platform} {b : List Str} {m : Msg} (h : sectionMsg P b = .ok (some m)) : m.signals = sectionLines P b := by
  cases b with
  | nil => cases h
  | cons x body =>
    rw [sectionMsg] at h
    cases hm : parseMessageLine P (strTrim P.charMax x) with
    | none => rw [hm, curAfter_none] at h; cases h
    | some m0 =>
      rw [hm] at h
      rw [curAfter_sigs h, (parseMessageLine_empty hm).1]
      rfl

theorem sections_sigRel {P : Platform} (hs : SortsByStart P) {B B' : List (List Str)} (hB : List.Forall₂ SameSection B B') (hsec : ∀ b ∈ B, MsgSection P b)
    (ha : ∀ b ∈ B, StartsApart (sectionLines P b)) {s s' t : Scan} (hr : s = s' ∨ SigRel s s') (h : scanLines P s B.flatten = .ok t) :
    ∃ t', scanLines P s' B'.flatten = .ok t' ∧ (t = t' ∨ SigRel t t') := by
  induction hB generalizing s s' with
  | nil => cases h; exact ⟨s', rfl, hr⟩
  | cons hb _ ih =>
    rename_i b b' B B' _
    have h1 := hsec b List.mem_cons_self
    rw [List.flatten_cons, scanLines_append, scanLines_section h1] at h
    rw [List.flatten_cons, scanLines_append, scanLines_section (SameSection.isSection hb h1)]
    cases hc : sectionMsg P b with
    | ub => rw [hc] at h; cases h
    | throws => rw [hc] at h; cases h
    | ok c =>
      rw [hc] at h
      obtain ⟨c', a1, a2⟩ := sectionMsg_perm hb hc
      rw [a1]
      refine ih (fun x hx => hsec x (List.mem_cons_of_mem _ hx)) (fun x hx => ha x (List.mem_cons_of_mem _ hx)) (.inr ⟨?_, a2, fun m e => ?_⟩) h
      · show closeCur P s'.list s'.cur = closeCur P s.list s.cur
        rcases hr with rfl | hr
        · rfl
        · rw [hr.list, hr.close hs]
      · dsimp only at e
        subst e
        rw [sectionMsg_sigs hc]
        exact ha b List.mem_cons_self

/-- No signal is read from the line. -/
def Spec.NoSig (P : Platform) (l : Str) : Prop := isSignalLine l = true → ∀ s, parseSignalLine P l ≠ .ok (some s)

theorem stepCur_noSig {P : Platform} {l : Str} (h : NoSig P l) {c d : Option Msg} (hs : stepCur P c l = .ok d) : d = c ∧ ∀ c' : Option Msg, c.isSome = c'.isSome → stepCur P c' l = .ok c' := by
  cases c with
  | none =>
    cases hs
    refine ⟨rfl, fun c' e => ?_⟩
    cases c' with
    | none => rfl
    | some m => cases e
  | some m =>
    rw [stepCur_some] at hs
    cases hl : lineSig P l with
    | ub => rw [hl] at hs; cases hs
    | throws => rw [hl] at hs; cases hs
    | ok r =>
      have : r = none := by
        unfold lineSig at hl
        by_cases hx : isSignalLine l = true
        · rw [if_pos hx] at hl
          cases r with
          | none => rfl
          | some s => exact absurd hl (h hx s)
        · rw [if_neg hx] at hl
          cases hl
          rfl
      subst this
      rw [hl] at hs
      cases hs
      refine ⟨rfl, fun c' e => ?_⟩
      cases c' with
      | none => cases e
      | some m' => rw [stepCur_some, hl]; rfl

theorem rest_sigRel {P : Platform} (hs : SortsByStart P) {ls : List Str} (hl : ∀ l ∈ ls.takeWhile fun l => !IsHeader (strTrim P.charMax l), NoSig P (strTrim P.charMax l))
    {s s' t : Scan} (hr : SigRel s s') (h : scanLines P s ls = .ok t) : ∃ t', scanLines P s' ls = .ok t' ∧ (t = t' ∨ SigRel t t') := by
  induction ls generalizing s s' with
  | nil => cases h; exact ⟨s', rfl, .inr hr⟩
  | cons l ls ih =>
    rw [scanLines] at h ⊢
    unfold scanLine at h ⊢
    cases hv : findVersion P (strTrim P.charMax l) with
    | ub => rw [hv] at h; cases h
    | throws => rw [hv] at h; cases h
    | ok v =>
      rw [hv] at h
      dsimp only at h ⊢
      have hr1 : SigRel (setVersion s v) (setVersion s' v) := by
        cases v with
        | none => exact hr
        | some q => exact ⟨by unfold setVersion; dsimp only; rw [hr.list], hr.cur, hr.apart⟩
      generalize setVersion s v = s1 at h hr1
      generalize setVersion s' v = s1' at hr1
      rw [scanBody_eq] at h ⊢
      by_cases hm : IsHeader (strTrim P.charMax l) = true
      · have hm' : isMessageLine (strTrim P.charMax l) = true := hm
        rw [if_pos hm', headerStep_eq] at h
        rw [if_pos hm', headerStep_eq, hr1.list, hr1.close hs]
        exact ⟨t, h, .inl rfl⟩
      · have hm' : ¬ isMessageLine (strTrim P.charMax l) = true := hm
        rw [if_neg hm'] at h ⊢
        have hn : (!IsHeader (strTrim P.charMax l)) = true := by rw [Bool.not_eq_true _ |>.mp hm]; rfl
        rw [List.takeWhile_cons, if_pos hn] at hl
        cases hc : stepCur P s1.cur (strTrim P.charMax l) with
        | ub => rw [hc] at h; cases h
        | throws => rw [hc] at h; cases h
        | ok c =>
          rw [hc] at h
          obtain ⟨rfl, e2⟩ := stepCur_noSig (hl l List.mem_cons_self) hc
          have e3 : s1.cur.isSome = s1'.cur.isSome := by
            obtain ⟨-, q, -⟩ := hr1
            cases hs1 : s1.cur with
            | none => rw [hs1] at q; generalize s1'.cur = z at q; cases q; rfl
            | some m => rw [hs1] at q; generalize s1'.cur = z at q; cases q; rfl
          rw [e2 _ e3]
          dsimp only at h ⊢
          by_cases ht : IsTx P (strTrim P.charMax l) = true
          · have e4 : transStep P s1' (strTrim P.charMax l) = transStep P s1 (strTrim P.charMax l) := by
              have q := congrArg DbcList.msgs (hr1.close hs s1.list)
              unfold closeCur at q
              dsimp only at q
              unfold IsTx at ht
              have ht2 : (parseMultiTrans P (strTrim P.charMax l)).1 ≠ 0 := by simpa using ht
              unfold transStep
              dsimp only
              rw [if_pos ht2, if_pos ht2, hr1.list, q]
            show ∃ t', scanLines P (transStep P s1' _) ls = .ok t' ∧ _
            rw [e4]
            exact ⟨t, h, .inl rfl⟩
          · have ht2 : IsTx P (strTrim P.charMax l) = false := by simpa using ht
            rw [transStep_no P ht2] at h ⊢
            exact ih (fun x hx => hl x (List.mem_cons_of_mem _ hx)) hr1 h

/-- The first pass over a file with signal lines in another order. -/
theorem parseMessageInfo_sigs {P : Platform} (hs : SortsByStart P) {pre rest : List Str} {B B' : List (List Str)} (hB : List.Forall₂ SameSection B B') (hsec : ∀ b ∈ B, MsgSection P b)
    (ha : ∀ b ∈ B, StartsApart (sectionLines P b)) (hl : ∀ l ∈ rest.takeWhile fun l => !IsHeader (strTrim P.charMax l), NoSig P (strTrim P.charMax l)) {L : DbcList}
    (h : parseMessageInfo P {} (pre ++ B.flatten ++ rest) = .ok L) : parseMessageInfo P {} (pre ++ B'.flatten ++ rest) = .ok L := by
  unfold parseMessageInfo at h ⊢
  rw [List.append_assoc, scanLines_append] at h ⊢
  cases h0 : scanLines P { list := {} } pre with
  | ub => rw [h0] at h; cases h
  | throws => rw [h0] at h; cases h
  | ok s0 =>
    rw [h0] at h
    dsimp only at h ⊢
    rw [scanLines_append] at h ⊢
    cases h1 : scanLines P s0 B.flatten with
    | ub => rw [h1] at h; cases h
    | throws => rw [h1] at h; cases h
    | ok s1 =>
      rw [h1] at h
      dsimp only at h
      obtain ⟨s1', e1, hr⟩ := sections_sigRel hs hB hsec ha (.inl rfl) h1
      rw [e1]
      dsimp only
      cases h2 : scanLines P s1 rest with
      | ub => rw [h2] at h; cases h
      | throws => rw [h2] at h; cases h
      | ok t =>
        rw [h2] at h
        have hx : ∃ t', scanLines P s1' rest = .ok t' ∧ (t = t' ∨ SigRel t t') := by
          rcases hr with rfl | hr
          · exact ⟨t, h2, .inl rfl⟩
          · exact rest_sigRel hs hl hr h2
        obtain ⟨t', e2, hr2⟩ := hx
        rw [e2]
        cases h
        dsimp only
        rcases hr2 with rfl | hr2
        · rfl
        · have q := congrArg DbcList.msgs (hr2.close hs t.list)
          unfold closeCur at q
          dsimp only at q
          rw [hr2.list, q]

end Verif
