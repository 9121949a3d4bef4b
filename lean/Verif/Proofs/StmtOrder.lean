import Verif.Props.Meaning
import Verif.Proofs.MsgOrder
/-
For C79: statements about different things can be exchanged.
-/
namespace Verif
open Spec

/-- The statements do not concern the same property of a message or signal; at most one of them has a rolling counter tag, and at
most one a checksum tag.  (A comment for `x` also concerns the member `x_ro`.) -/
def Spec.PartsApart (x y : FileStmt) : Prop :=
  match x, y with
  | .sigComment _ _ n t, .sigComment _ _ n' t' =>
    n ≠ n' ∧ n ≠ n' ++ "_ro".toList ∧ n' ≠ n ++ "_ro".toList ∧ ¬ (HasRoll t ∧ HasRoll t') ∧ ¬ (HasCsm t ∧ HasCsm t')
  | .msgComment _ _ _, .msgComment _ _ _ => False
  | .cycle _ _ _, .cycle _ _ _ => False
  | .values _ _ n _, .values _ _ n' _ => n ≠ n'
  | _, _ => True

/-- One of the statements is about no message, they are about different messages, or about different properties. -/
def Spec.StmtsApart (x y : FileStmt) : Prop := x.about = none ∨ y.about = none ∨ x.about ≠ y.about ∨ PartsApart x y

theorem apart_symm {x y : FileStmt} (h : StmtsApart x y) : StmtsApart y x := by
  rcases h with h | h | h | h
  · exact .inr (.inl h)
  · exact .inl h
  · exact .inr (.inr (.inl (Ne.symm h)))
  · refine .inr (.inr (.inr ?_))
    cases x <;> cases y <;> first | trivial | exact h | exact Ne.symm h | skip
    obtain ⟨a, b, c, d, e⟩ := h
    exact ⟨a.symm, c, b, fun q => d q.symm, fun q => e q.symm⟩

/-! ### The parts of a message -/

theorem msg_parts {a b : Msg} (h1 : a.core = b.core) (h2 : a.tranS = b.tranS) (h3 : a.signals = b.signals) (h4 : a.commentText = b.commentText) (h5 : a.cycle = b.cycle)
    (h6 : a.rollSig = b.rollSig) (h7 : (a.csmSig, a.csmMethod, a.csmOp) = (b.csmSig, b.csmMethod, b.csmOp)) : a = b := by
  cases a
  cases b
  unfold Msg.core at h1
  simp only [Msg.mk.injEq, Prod.mk.injEq] at *
  simp_all

/-- What a statement about its message makes of a signal. -/
def sigFun (x : FileStmt) (s : Sig) : Sig :=
  match x with
  | .sigComment _ _ n t => if Concerns n s then { s with commentText := t } else s
  | .values _ _ n es => if s.name = n then withTable n es s else s
  | _ => s

/-- What a statement makes of a signal. -/
def sigPart (x : FileStmt) (id : Nat) (s : Sig) : Sig := if x.about = some id then sigFun x s else s

theorem step_signals (P : Platform) (m : Msg) (x : FileStmt) : (stmtStep P m x).signals = m.signals.map (sigPart x m.msgId) := by
  unfold stmtStep
  by_cases h : x.about = some m.msgId
  · rw [if_pos h]
    have hid : ∀ s, sigPart x m.msgId s = sigFun x s := fun s => if_pos h
    rw [List.map_congr_left (fun s _ => hid s)]
    cases x with
    | silent => exact (List.map_id' _).symm
    | sigComment id ext n t => exact applyComment_signals P _ rfl m
    | msgComment id ext t => exact (List.map_id' _).symm
    | cycle id ext v => exact (List.map_id' _).symm
    | values id ext n es => rfl
  · rw [if_neg h, List.map_congr_left (g := fun s => s) (fun s _ => by unfold sigPart; rw [if_neg h]), List.map_id']

theorem sigFun_comm {x y : FileStmt} (h : PartsApart x y) (s : Sig) : sigFun y (sigFun x s) = sigFun x (sigFun y s) := by
  cases x with
  | silent => rfl
  | msgComment _ _ _ => rfl
  | cycle _ _ _ => rfl
  | sigComment i1 e1 n t =>
    cases y with
    | silent => rfl
    | msgComment _ _ _ => rfl
    | cycle _ _ _ => rfl
    | sigComment i2 e2 n' t' =>
      dsimp only [sigFun]
      obtain ⟨a, b, c, -, -⟩ := h
      have hno : Concerns n s → ¬ Concerns n' s := by
        rintro (q | q) (q' | q')
        · exact a (q.symm.trans q')
        · exact b (q.symm.trans q')
        · exact c (q'.symm.trans q)
        · exact a (List.append_cancel_right (q.symm.trans q'))
      by_cases q : Concerns n s
      · have q' := hno q
        rw [if_pos q, if_neg q', if_pos q, if_neg (show ¬ Concerns n' { s with commentText := t } from q')]
      · by_cases q' : Concerns n' s
        · rw [if_neg q, if_pos q', if_neg (show ¬ Concerns n { s with commentText := t' } from q)]
        · rw [if_neg q, if_neg q', if_neg q]
    | values i2 e2 n' es =>
      dsimp only [sigFun]
      by_cases q : Concerns n s
      · by_cases q' : s.name = n'
        · rw [if_pos q, if_pos q', if_pos q', if_pos (show Concerns n (withTable n' es s) from q)]
          rfl
        · rw [if_pos q, if_neg q', if_neg q', if_pos q]
      · by_cases q' : s.name = n'
        · rw [if_neg q, if_pos q', if_neg (show ¬ Concerns n (withTable n' es s) from q)]
        · rw [if_neg q, if_neg q', if_neg q]
  | values i1 e1 n es =>
    cases y with
    | silent => rfl
    | msgComment _ _ _ => rfl
    | cycle _ _ _ => rfl
    | sigComment i2 e2 n' t =>
      dsimp only [sigFun]
      by_cases q : Concerns n' s
      · by_cases q' : s.name = n
        · rw [if_pos q', if_pos q, if_pos q', if_pos (show Concerns n' (withTable n es s) from q)]
          rfl
        · rw [if_neg q', if_pos q, if_neg q']
      · by_cases q' : s.name = n
        · rw [if_pos q', if_neg q, if_pos q', if_neg (show ¬ Concerns n' (withTable n es s) from q)]
        · rw [if_neg q', if_neg q, if_neg q']
    | values i2 e2 n' es' =>
      dsimp only [sigFun]
      have h : n ≠ n' := h
      by_cases q : s.name = n
      · have q' : ¬ s.name = n' := fun q' => h (q.symm.trans q')
        rw [if_pos q, if_neg q', if_pos q, if_neg (show ¬ (withTable n es s).name = n' from q')]
      · by_cases q' : s.name = n'
        · rw [if_neg q, if_pos q', if_neg (show ¬ (withTable n' es' s).name = n from q)]
        · rw [if_neg q, if_neg q', if_neg q]

theorem sigPart_comm {x y : FileStmt} (h : PartsApart x y) (id : Nat) (s : Sig) : sigPart y id (sigPart x id s) = sigPart x id (sigPart y id s) := by
  unfold sigPart
  by_cases hx : x.about = some id
  · by_cases hy : y.about = some id
    · rw [if_pos hx, if_pos hy, if_pos hx, if_pos hy, sigFun_comm h]
    · rw [if_neg hy, if_neg hy]
  · rw [if_neg hx, if_neg hx]

theorem step_id (P : Platform) (m : Msg) (x : FileStmt) : (stmtStep P m x).msgId = m.msgId := id_of_core (core_stmtStep P m x)

theorem step_tranS (P : Platform) (m : Msg) (x : FileStmt) : (stmtStep P m x).tranS = m.tranS := by
  unfold stmtStep
  split
  · cases x with
    | sigComment id ext n t => have e := congrArg Msg.tranS (applyComment_noTags P { msgId := id, sigName := n, target := .signal, text := t } rfl m); exact e
    | _ => rfl
  · rfl

theorem step_comment (P : Platform) (m : Msg) (x : FileStmt) :
    (stmtStep P m x).commentText = match x with
      | .msgComment id _ t => if id = m.msgId then t else m.commentText
      | _ => m.commentText := by
  unfold stmtStep
  cases x with
  | silent => rfl
  | sigComment id ext n t =>
    dsimp only
    split
    · have e := congrArg Msg.commentText (applyComment_noTags P { msgId := id, sigName := n, target := .signal, text := t } rfl m); exact e
    · rfl
  | msgComment id ext t =>
    dsimp only
    by_cases h : id = m.msgId
    · rw [if_pos h, if_pos (show FileStmt.about (.msgComment id ext t) = _ from congrArg some h)]; rfl
    · rw [if_neg h, if_neg (fun q => h (Option.some.inj q) : ¬ FileStmt.about (.msgComment id ext t) = _)]
  | cycle id ext v => dsimp only; split <;> rfl
  | values id ext n es => dsimp only; split <;> rfl

theorem step_cycle (P : Platform) (m : Msg) (x : FileStmt) :
    (stmtStep P m x).cycle = match x with
      | .cycle id _ v => if id = m.msgId then v else m.cycle
      | _ => m.cycle := by
  unfold stmtStep
  cases x with
  | silent => rfl
  | sigComment id ext n t =>
    dsimp only
    split
    · have e := congrArg Msg.cycle (applyComment_noTags P { msgId := id, sigName := n, target := .signal, text := t } rfl m); exact e
    · rfl
  | cycle id ext t =>
    dsimp only
    by_cases h : id = m.msgId
    · rw [if_pos h, if_pos (show FileStmt.about (.cycle id ext t) = _ from congrArg some h)]; rfl
    · rw [if_neg h, if_neg (fun q => h (Option.some.inj q) : ¬ FileStmt.about (.cycle id ext t) = _)]
  | msgComment id ext v => dsimp only; split <;> rfl
  | values id ext n es => dsimp only; split <;> rfl

/-! ### Tags -/

theorem concerned_core {m m' : Msg} (h : m.core = m'.core) (j : Nat) (Q : Sig → Prop) (hQ : ∀ s, Q s.core ↔ Q s) :
    (∃ s, m.signals[j]? = some s ∧ Q s) ↔ ∃ s, m'.signals[j]? = some s ∧ Q s := by
  have hs : m.signals.map Sig.core = m'.signals.map Sig.core := congrArg Msg.signals h
  have key : ∀ a b : Msg, a.signals.map Sig.core = b.signals.map Sig.core → (∃ s, a.signals[j]? = some s ∧ Q s) → ∃ s, b.signals[j]? = some s ∧ Q s := by
    rintro a b hab ⟨s, h1, h2⟩
    have h3 := congrArg (fun l => l[j]?) hab
    simp only [List.getElem?_map, h1, Option.map_some] at h3
    cases h4 : b.signals[j]? with
    | none => rw [h4] at h3; cases h3
    | some t =>
      rw [h4] at h3
      have h3 := Option.some.inj h3
      exact ⟨t, rfl, (hQ t).1 (h3 ▸ (hQ s).2 h2)⟩
  exact ⟨key m m' hs, key m' m hs.symm⟩

theorem comments_congr (P : Platform) (cm : Comment) {m m' : Msg} (h : m.core = m'.core) (k : Nat) :
    (m.rollSig = m'.rollSig → ((List.range k).foldl (sigComment P cm) m).rollSig = ((List.range k).foldl (sigComment P cm) m').rollSig) ∧
    ((m.csmSig, m.csmMethod, m.csmOp) = (m'.csmSig, m'.csmMethod, m'.csmOp) →
      (((List.range k).foldl (sigComment P cm) m).csmSig, ((List.range k).foldl (sigComment P cm) m).csmMethod, ((List.range k).foldl (sigComment P cm) m).csmOp) =
      (((List.range k).foldl (sigComment P cm) m').csmSig, ((List.range k).foldl (sigComment P cm) m').csmMethod, ((List.range k).foldl (sigComment P cm) m').csmOp)) := by
  induction k with
  | zero => exact ⟨id, id⟩
  | succ k ih =>
    rw [List.range_succ, List.foldl_append, List.foldl_cons, List.foldl_nil, List.foldl_append, List.foldl_cons, List.foldl_nil]
    obtain ⟨t1, t2⟩ := sigComment_tags P cm ((List.range k).foldl (sigComment P cm) m) k
    obtain ⟨u1, u2⟩ := sigComment_tags P cm ((List.range k).foldl (sigComment P cm) m') k
    have e1 : (∃ s, ((List.range k).foldl (sigComment P cm) m).signals[k]? = some s ∧ Concerns cm.sigName s) ↔
        ∃ s, ((List.range k).foldl (sigComment P cm) m').signals[k]? = some s ∧ Concerns cm.sigName s := by
      rw [comments_get_same P cm m k k (Concerns cm.sigName) (fun s t => Iff.rfl), comments_get_same P cm m' k k (Concerns cm.sigName) (fun s t => Iff.rfl)]
      exact concerned_core h k _ fun s => Iff.rfl
    have e2 : (∃ s, ((List.range k).foldl (sigComment P cm) m).signals[k]? = some s ∧ Concerns cm.sigName s ∧ csmAble s = true) ↔
        ∃ s, ((List.range k).foldl (sigComment P cm) m').signals[k]? = some s ∧ Concerns cm.sigName s ∧ csmAble s = true := by
      rw [comments_get_same P cm m k k (fun s => Concerns cm.sigName s ∧ csmAble s = true) (fun s t => Iff.rfl),
        comments_get_same P cm m' k k (fun s => Concerns cm.sigName s ∧ csmAble s = true) (fun s t => Iff.rfl)]
      exact concerned_core h k _ fun s => Iff.rfl
    refine ⟨fun q => ?_, fun q => ?_⟩
    · rw [t1, u1, ih.1 q]
      simp only [e1]
    · rw [t2, u2, ih.2 q]
      cases csmTag P cm.text with
      | none => rfl
      | some r => simp only [e2]

/-- The comment may change the rolling counter. -/
def mayRoll : FileStmt → Bool
  | .sigComment _ _ _ t => hasSub rollText t
  | _ => false

/-- The comment may change the checksum. -/
def mayCsm (P : Platform) : FileStmt → Bool
  | .sigComment _ _ _ t => (csmTag P t).isSome
  | _ => false

theorem length_of_core {m m' : Msg} (h : m.core = m'.core) : m.signals.length = m'.signals.length := by
  have hs : m.signals.map Sig.core = m'.signals.map Sig.core := congrArg Msg.signals h
  have := congrArg List.length hs
  rwa [List.length_map, List.length_map] at this

theorem step_congr (P : Platform) (x : FileStmt) {m m' : Msg} (h : m.core = m'.core) :
    (m.rollSig = m'.rollSig → (stmtStep P m x).rollSig = (stmtStep P m' x).rollSig) ∧
    ((m.csmSig, m.csmMethod, m.csmOp) = (m'.csmSig, m'.csmMethod, m'.csmOp) →
      ((stmtStep P m x).csmSig, (stmtStep P m x).csmMethod, (stmtStep P m x).csmOp) = ((stmtStep P m' x).csmSig, (stmtStep P m' x).csmMethod, (stmtStep P m' x).csmOp)) := by
  unfold stmtStep
  rw [id_of_core h]
  split
  · cases x with
    | sigComment id ext n t =>
      dsimp only [stmtFun, applyComment]
      rw [length_of_core h]
      exact comments_congr P _ h _
    | _ => exact ⟨id, id⟩
  · exact ⟨id, id⟩

theorem step_keep (P : Platform) (x : FileStmt) (m : Msg) :
    (mayRoll x = false → (stmtStep P m x).rollSig = m.rollSig) ∧
    (mayCsm P x = false → ((stmtStep P m x).csmSig, (stmtStep P m x).csmMethod, (stmtStep P m x).csmOp) = (m.csmSig, m.csmMethod, m.csmOp)) := by
  unfold stmtStep
  split
  · cases x with
    | sigComment id ext n t =>
      dsimp only [stmtFun, applyComment]
      obtain ⟨a, b⟩ := sigComments_keep P { msgId := id, sigName := n, target := .signal, text := t } m m.signals.length
      refine ⟨fun q => a fun q2 => ?_, fun q => b fun r q2 => ?_⟩
      · exact absurd (q.symm.trans q2) (by decide)
      · have q : (csmTag P t).isSome = false := q
        have q2 : csmTag P t = some r := q2
        rw [q2] at q
        cases q
    | _ => exact ⟨fun _ => rfl, fun _ => rfl⟩
  · exact ⟨fun _ => rfl, fun _ => rfl⟩

theorem step_comm (P : Platform) {x y : FileStmt} (h : StmtsApart x y) (m : Msg) : stmtStep P (stmtStep P m x) y = stmtStep P (stmtStep P m y) x := by
  by_cases hx : x.about = some m.msgId
  · by_cases hy : y.about = some m.msgId
    · have hs : PartsApart x y := by
        rcases h with h | h | h | h
        · rw [hx] at h; cases h
        · rw [hy] at h; cases h
        · exact absurd (hx.trans hy.symm) h
        · exact h
      have hroll : mayRoll x = false ∨ mayRoll y = false := by
        cases hx' : mayRoll x
        · exact .inl rfl
        · cases hy' : mayRoll y
          · exact .inr rfl
          · cases x with
            | sigComment _ _ n t =>
              cases y with
              | sigComment _ _ n' t' => exact absurd ⟨(hasRoll_iff t).2 hx', (hasRoll_iff t').2 hy'⟩ hs.2.2.2.1
              | _ => cases hy'
            | _ => cases hx'
      have hcsm : mayCsm P x = false ∨ mayCsm P y = false := by
        cases hx' : mayCsm P x
        · exact .inl rfl
        · cases hy' : mayCsm P y
          · exact .inr rfl
          · cases x with
            | sigComment _ _ n t =>
              cases y with
              | sigComment _ _ n' t' =>
                obtain ⟨r, hr⟩ := Option.isSome_iff_exists.1 hx'
                obtain ⟨r', hr'⟩ := Option.isSome_iff_exists.1 hy'
                exact absurd ⟨csmTag_shape hr, csmTag_shape hr'⟩ hs.2.2.2.2
              | _ => cases hy'
            | _ => cases hx'
      refine msg_parts ?_ ?_ ?_ ?_ ?_ ?_ ?_
      · rw [core_stmtStep, core_stmtStep, core_stmtStep, core_stmtStep]
      · rw [step_tranS, step_tranS, step_tranS, step_tranS]
      · rw [step_signals, step_signals, step_signals, step_signals, step_id, step_id, List.map_map, List.map_map]
        exact List.map_congr_left fun s _ => sigPart_comm hs m.msgId s
      · rw [step_comment, step_comment P m x, step_id, step_comment, step_comment P m y, step_id]
        cases x <;> cases y <;> first | rfl | exact absurd hs id
      · rw [step_cycle, step_cycle P m x, step_id, step_cycle, step_cycle P m y, step_id]
        cases x <;> cases y <;> first | rfl | exact absurd hs id
      · rcases hroll with q | q
        · rw [(step_congr P y (core_stmtStep P m x)).1 ((step_keep P x m).1 q), (step_keep P x _).1 q]
        · rw [(step_keep P y _).1 q, (step_congr P x (core_stmtStep P m y)).1 ((step_keep P y m).1 q)]
      · rcases hcsm with q | q
        · rw [(step_congr P y (core_stmtStep P m x)).2 ((step_keep P x m).2 q), (step_keep P x _).2 q]
        · rw [(step_keep P y _).2 q, (step_congr P x (core_stmtStep P m y)).2 ((step_keep P y m).2 q)]
    · rw [step_other P hy, step_other P (by rw [step_id]; exact hy)]
  · rw [step_other P hx, step_other P (m := stmtStep P m y) (by rw [step_id]; exact hx)]

theorem stmts_perm (P : Platform) {xs xs' : List FileStmt} (hp : xs.Perm xs') (ha : xs.Pairwise StmtsApart) (m : Msg) : xs.foldl (stmtStep P) m = xs'.foldl (stmtStep P) m := by
  refine hp.foldl_eq' (fun x hx y hy z => ?_) m
  by_cases e : x = y
  · rw [e]
  · have key : ∀ l : List FileStmt, l.Pairwise StmtsApart → x ∈ l → y ∈ l → StmtsApart x y := by
      intro l hl
      induction hl with
      | nil => exact fun q => absurd q List.not_mem_nil
      | cons h1 _ ih =>
        intro q1 q2
        rcases List.mem_cons.1 q1 with e1 | q1
        · rcases List.mem_cons.1 q2 with e2 | q2
          · exact absurd (e1.trans e2.symm) e
          · exact e1 ▸ h1 _ q2
        · rcases List.mem_cons.1 q2 with e2 | q2
          · exact e2 ▸ apart_symm (h1 _ q1)
          · exact ih q1 q2
    exact step_comm P (key xs ha hx hy) z

end Verif
