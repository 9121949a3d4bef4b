import Verif.Spec.Signals
/- The preprocessor on balanced line lists. -/
namespace Verif

/-- Balanced line lists. -/
inductive Bal : List GLine → Prop where
  | nil : Bal []
  | stmt (s : CStmt) : Bal [.stmt s]
  | cond (f : Flag) {b : List GLine} : Bal b → Bal (.ifdef f :: (b ++ [.endif]))
  | append {a b : List GLine} : Bal a → Bal b → Bal (a ++ b)

theorem preprocess_bal {flag : Flag → Bool} {a : List GLine} (h : Bal a) :
    ∀ (st : List Bool) (rest : List GLine), preprocess flag st (a ++ rest) =
      (if st.all id then preprocess flag [] a else []) ++ preprocess flag st rest := by
  induction h with
  | nil => intro st rest; cases st.all id <;> simp [preprocess]
  | stmt s =>
    intro st rest
    by_cases h : st.all id = true <;> simp [preprocess, h]
  | cond f hb ih =>
    intro st rest
    rename_i b
    have e1 : ∀ st' rest', preprocess flag st' (GLine.ifdef f :: (b ++ [GLine.endif]) ++ rest') =
        (if (flag f :: st').all id then preprocess flag [] b else []) ++ preprocess flag st' rest' := by
      intro st' rest'
      have : GLine.ifdef f :: (b ++ [GLine.endif]) ++ rest' = GLine.ifdef f :: (b ++ (GLine.endif :: rest')) := by
        simp
      rw [this]
      simp only [preprocess]
      rw [ih]
      simp [preprocess]
    rw [e1]
    have e2 := e1 [] []
    rw [List.append_nil] at e2
    rw [e2]
    cases hs : st.all id <;> simp_all [preprocess]
  | append ha hb iha ihb =>
    intro st rest
    rename_i a b
    rw [List.append_assoc, iha, ihb, iha [] b]
    cases hs : st.all id <;> simp

theorem preprocess_append {flag : Flag → Bool} {a : List GLine} (h : Bal a) (b : List GLine) :
    preprocess flag [] (a ++ b) = preprocess flag [] a ++ preprocess flag [] b := by
  rw [preprocess_bal h]; simp

theorem preprocess_cond {flag : Flag → Bool} {f : Flag} {b : List GLine} (h : Bal b) :
    preprocess flag [] (.ifdef f :: (b ++ [.endif])) =
      if flag f then preprocess flag [] b else [] := by
  simp only [preprocess]
  rw [preprocess_bal h]
  simp [preprocess]

theorem Bal.stmts (l : List CStmt) : Bal (l.map .stmt) := by
  induction l with
  | nil => exact .nil
  | cons s l ih => exact Bal.append (.stmt s) ih

theorem preprocess_stmts {flag : Flag → Bool} (l : List CStmt) :
    preprocess flag [] (l.map .stmt) = l := by
  induction l with
  | nil => rfl
  | cons s l ih => simp [preprocess]; simpa using ih

theorem Bal.flatMap {α : Type} (l : List α) (f : α → List GLine) (h : ∀ a ∈ l, Bal (f a)) :
    Bal (l.flatMap f) := by
  induction l with
  | nil => exact .nil
  | cons a l ih =>
    exact Bal.append (h a (List.mem_cons_self ..)) (ih fun x hx => h x (List.mem_cons_of_mem _ hx))

theorem preprocess_flatMap {α : Type} {flag : Flag → Bool} (l : List α) (f : α → List GLine)
    (h : ∀ a ∈ l, Bal (f a)) :
    preprocess flag [] (l.flatMap f) = l.flatMap fun a => preprocess flag [] (f a) := by
  induction l with
  | nil => rfl
  | cons a l ih =>
    rw [List.flatMap_cons, preprocess_append (h a (List.mem_cons_self ..)),
      ih fun x hx => h x (List.mem_cons_of_mem _ hx), List.flatMap_cons]

variable {φ : Type}

theorem execAll_append (c : Ctx φ) (a b : List CStmt) : ∀ st, execAll c st (a ++ b) =
    (execAll c st a).bind fun st => execAll c st b := by
  induction a with
  | nil => intro st; rfl
  | cons s a ih =>
    intro st
    simp only [List.cons_append, execAll]
    cases exec c st s with
    | none => rfl
    | some st => exact ih st

/-- Statements of one signal in Unpack. -/
def sigStmts (cfg : Cfg) (s : Sig) (e : SigText) : List CStmt :=
  (if s.signed then .setSigExt s.name s.typeRo e s.lengthBit else .setSig s.name s.typeRo e) ::
  if !s.isSimple && cfg.flag .useSigFloat then
    [if s.isDouble then .fromSFloat s.nameFloat s.name else .fromSInt s.nameFloat s.typePhys s.name]
  else []

theorem bal_unpackSigLines (s : Sig) (e : SigText) : Bal (unpackSigLines s e) := by
  unfold unpackSigLines
  refine Bal.append (.stmt _) ?_
  split
  · exact .nil
  · exact Bal.cond _ (b := [_]) (.stmt _)

theorem preprocess_unpackSigLines (cfg : Cfg) (s : Sig) (e : SigText) :
    preprocess cfg.flag [] (unpackSigLines s e) = sigStmts cfg s e := by
  unfold unpackSigLines sigStmts
  cases s.isSimple <;> cases hf : cfg.flag .useSigFloat <;> simp [preprocess, hf]

/-- Monitor statements of Unpack. -/
def monStmts (cfg : Cfg) (m : Msg) : List CStmt :=
  if cfg.flag .useMon then
    [.monDlc m.dlc, .monTick, .monCnt] ++
    (match m.sigAt m.rollSig with
     | some r => if cfg.flag .autoRoll then
         [.monRoll r.name, .incr (exptName r.name) r.name (2 ^ r.lengthBit - 1)] else []
     | none => []) ++
    (match m.sigAt m.csmSig with
     | some s => if cfg.flag .autoCsm then [.monCsm m.dlc m.msgId m.csmMethod m.csmOp s.name] else []
     | none => []) ++
    [.fmon m.name m.msgId]
  else []

/-- The preprocessed body of Unpack. -/
theorem writeUnpackBody_eq (cfg : Cfg) (m : Msg) (sx : List SigText) :
    (¬ RollOk m → writeUnpackBody m sx = none) ∧
    (RollOk m → ∃ lines, writeUnpackBody m sx = some lines ∧
      preprocess cfg.flag [] lines =
        ((m.signals.zip sx).flatMap fun p => sigStmts cfg p.1 p.2) ++ monStmts cfg m ++ [.ret m.msgId]) := by
  constructor
  · intro h
    unfold RollOk at h
    unfold writeUnpackBody unpackRollLines rollMask
    cases hr : m.sigAt m.rollSig with
    | none => simp [hr] at h
    | some r =>
      simp only [hr, Option.some.injEq, forall_eq'] at h
      simp [h]
  · intro h
    have hroll : ∃ roll, unpackRollLines m = some roll ∧ Bal roll ∧
        preprocess cfg.flag [] roll = (match m.sigAt m.rollSig with
          | some r => if cfg.flag .autoRoll then
              [.monRoll r.name, .incr (exptName r.name) r.name (2 ^ r.lengthBit - 1)] else []
          | none => []) := by
      unfold unpackRollLines rollMask
      cases hr : m.sigAt m.rollSig with
      | none => exact ⟨[], rfl, .nil, rfl⟩
      | some r =>
        simp only [h r hr, if_true]
        refine ⟨_, rfl, Bal.cond _ (b := [_, _]) (.append (.stmt _) (.stmt _)), ?_⟩
        cases hf : cfg.flag .autoRoll <;> simp [preprocess, hf]
    obtain ⟨roll, hr1, hr2, hr3⟩ := hroll
    have hcsm : Bal (unpackCsmLines m) ∧ preprocess cfg.flag [] (unpackCsmLines m) =
        (match m.sigAt m.csmSig with
          | some s => if cfg.flag .autoCsm then [.monCsm m.dlc m.msgId m.csmMethod m.csmOp s.name] else []
          | none => []) := by
      unfold unpackCsmLines
      cases hr : m.sigAt m.csmSig with
      | none => exact ⟨.nil, rfl⟩
      | some r =>
        refine ⟨Bal.cond _ (b := [_]) (.stmt _), ?_⟩
        cases hf : cfg.flag .autoCsm <;> simp [preprocess, hf]
    obtain ⟨hc1, hc2⟩ := hcsm
    unfold writeUnpackBody
    rw [hr1]
    refine ⟨_, rfl, ?_⟩
    have hbs : Bal ((m.signals.zip sx).flatMap fun p => unpackSigLines p.1 p.2) :=
      Bal.flatMap _ _ fun p _ => bal_unpackSigLines _ _
    have hmon : Bal ([GLine.stmt (.monDlc m.dlc), .stmt .monTick, .stmt .monCnt] ++ roll ++
        unpackCsmLines m ++ [GLine.stmt (.fmon m.name m.msgId)]) := by
      refine .append (.append (.append ?_ hr2) hc1) (.stmt _)
      exact Bal.stmts [_, _, _]
    have hre : ((m.signals.zip sx).flatMap fun p => unpackSigLines p.1 p.2) ++
        [GLine.ifdef .useMon, .stmt (.monDlc m.dlc), .stmt .monTick, .stmt .monCnt] ++ roll ++
        unpackCsmLines m ++ [GLine.stmt (.fmon m.name m.msgId), .endif, .stmt (.ret m.msgId)] =
        ((m.signals.zip sx).flatMap fun p => unpackSigLines p.1 p.2) ++
        ((GLine.ifdef .useMon :: (([GLine.stmt (.monDlc m.dlc), .stmt .monTick, .stmt .monCnt] ++ roll ++
          unpackCsmLines m ++ [GLine.stmt (.fmon m.name m.msgId)]) ++ [.endif])) ++ [.stmt (.ret m.msgId)]) := by
      simp
    rw [hre, preprocess_append hbs, preprocess_append (Bal.cond _ hmon), preprocess_cond hmon,
      preprocess_flatMap _ _ (fun p _ => bal_unpackSigLines _ _)]
    simp only [preprocess_unpackSigLines]
    have hm : (if cfg.flag .useMon then preprocess cfg.flag []
        ([GLine.stmt (.monDlc m.dlc), .stmt .monTick, .stmt .monCnt] ++ roll ++
        unpackCsmLines m ++ [GLine.stmt (.fmon m.name m.msgId)]) else []) = monStmts cfg m := by
      have h3 : Bal [GLine.stmt (.monDlc m.dlc), .stmt .monTick, .stmt .monCnt] := Bal.stmts [_, _, _]
      unfold monStmts
      split
      · rw [preprocess_append (.append (.append h3 hr2) hc1), preprocess_append (.append h3 hr2),
          preprocess_append h3, hr3, hc2]
        simp [preprocess]
      · rfl
    rw [hm]
    simp [preprocess]

/-- Pre-steps of Pack. -/
def prePackStmts (cfg : Cfg) (m : Msg) : List CStmt :=
  (match m.sigAt m.rollSig with
   | some r => if cfg.flag .autoRoll then [.incr r.name r.name (2 ^ r.lengthBit - 1)] else []
   | none => []) ++
  (match m.sigAt m.csmSig with
   | some s => if cfg.flag .autoCsm then [.clear s.name s.typeRo] else []
   | none => []) ++
  (if m.hasPhys && cfg.flag .useSigFloat then
    (m.signals.filter (fun s => !s.isSimple)).map (fun s => .toS s.name s.typeRo s.nameFloat) else [])

/-- Byte statements of Pack. -/
def byteStmts (tb : List Slot) : List CStmt :=
  (tb.zipIdx.filter (fun p => p.1 != .empty)).map fun p => .orByte p.2 p.1

/-- Checksum statements of Pack. -/
def csmStmts (cfg : Cfg) (m : Msg) : List CStmt :=
  match m.sigAt m.csmSig with
  | none => []
  | some s => if cfg.flag .autoCsm then
      match csmExpr s with
      | some (i, e) => [.setCsm s.name m.dlc m.msgId m.csmMethod m.csmOp, .orByte i e]
      | none => []
    else []

/-- The checksum signal can be printed. -/
def CsmOk (m : Msg) : Prop := ∀ s, m.sigAt m.csmSig = some s → csmExpr s ≠ none

theorem printPackCommonText_eq (cfg : Cfg) (m : Msg) (tb : List Slot) :
    (¬ (RollOk m ∧ CsmOk m) → printPackCommonText m tb = none) ∧
    (RollOk m ∧ CsmOk m → ∃ lines, printPackCommonText m tb = some lines ∧ Bal lines ∧
      preprocess cfg.flag [] lines =
        [.initLoop m.dlc] ++ prePackStmts cfg m ++ byteStmts tb ++ csmStmts cfg m) := by
  constructor
  · intro h
    unfold RollOk CsmOk at h
    unfold printPackCommonText packRollLines rollMask packCsmLines
    cases hr : m.sigAt m.rollSig with
    | none =>
      cases hc : m.sigAt m.csmSig with
      | none => simp [hr, hc] at h
      | some s =>
        simp only [hr, hc, reduceCtorEq, false_implies, implies_true, true_and, Option.some.injEq,
          forall_eq', Classical.not_not] at h
        simp [h]
    | some r =>
      by_cases hl : r.lengthBit < 31
      · cases hc : m.sigAt m.csmSig with
        | none => simp [hr, hc, hl] at h
        | some s =>
          simp only [hr, hc, Option.some.injEq, forall_eq', hl, true_and, Classical.not_not] at h
          simp [h]
      · simp [hl]
  · rintro ⟨h, h'⟩
    have hroll : ∃ roll, packRollLines m = some roll ∧ Bal roll ∧
        preprocess cfg.flag [] roll = (match m.sigAt m.rollSig with
          | some r => if cfg.flag .autoRoll then [.incr r.name r.name (2 ^ r.lengthBit - 1)] else []
          | none => []) := by
      unfold packRollLines rollMask
      cases hr : m.sigAt m.rollSig with
      | none => exact ⟨[], rfl, .nil, rfl⟩
      | some r =>
        simp only [h r hr, if_true]
        refine ⟨_, rfl, Bal.cond _ (b := [_]) (.stmt _), ?_⟩
        cases hf : cfg.flag .autoRoll <;> simp [preprocess, hf]
    obtain ⟨roll, hr1, hr2, hr3⟩ := hroll
    have hclr : Bal (packClearLines m) ∧ preprocess cfg.flag [] (packClearLines m) =
        (match m.sigAt m.csmSig with
          | some s => if cfg.flag .autoCsm then [.clear s.name s.typeRo] else []
          | none => []) := by
      unfold packClearLines
      cases hr : m.sigAt m.csmSig with
      | none => exact ⟨.nil, rfl⟩
      | some r =>
        refine ⟨Bal.cond _ (b := [_]) (.stmt _), ?_⟩
        cases hf : cfg.flag .autoCsm <;> simp [preprocess, hf]
    have hphys : Bal (packPhysLines m) ∧ preprocess cfg.flag [] (packPhysLines m) =
        (if m.hasPhys && cfg.flag .useSigFloat then
          (m.signals.filter (fun s => !s.isSimple)).map (fun s => .toS s.name s.typeRo s.nameFloat)
          else []) := by
      unfold packPhysLines
      cases m.hasPhys with
      | false => exact ⟨.nil, rfl⟩
      | true =>
        have hb := Bal.stmts ((m.signals.filter (fun s => !s.isSimple)).map
          (fun s => CStmt.toS s.name s.typeRo s.nameFloat))
        have hpp := preprocess_stmts (flag := cfg.flag) ((m.signals.filter (fun s => !s.isSimple)).map
          (fun s => CStmt.toS s.name s.typeRo s.nameFloat))
        rw [List.map_map] at hb hpp
        have e := preprocess_cond (flag := cfg.flag) (f := .useSigFloat) hb
        rw [hpp] at e
        refine ⟨Bal.cond _ hb, ?_⟩
        rw [if_pos rfl]
        simp only [Bool.true_and]
        exact e
    have hbyte : Bal (packByteLines tb) ∧ preprocess cfg.flag [] (packByteLines tb) = byteStmts tb := by
      have hb := Bal.stmts (byteStmts tb)
      have hpp := preprocess_stmts (flag := cfg.flag) (byteStmts tb)
      unfold byteStmts at hb hpp
      rw [List.map_map] at hb hpp
      exact ⟨hb, hpp⟩
    have hcsm : ∃ csm, packCsmLines m = some csm ∧ Bal csm ∧
        preprocess cfg.flag [] csm = csmStmts cfg m := by
      unfold packCsmLines csmStmts
      cases hr : m.sigAt m.csmSig with
      | none => exact ⟨[], rfl, .nil, rfl⟩
      | some r =>
        have := h' r hr
        cases he : csmExpr r with
        | none => exact absurd he this
        | some p =>
          refine ⟨[.ifdef .autoCsm, .stmt (.setCsm r.name m.dlc m.msgId m.csmMethod m.csmOp),
            .stmt (.orByte p.1 p.2), .endif], by simp [he],
            Bal.cond _ (b := [_, _]) (.append (.stmt _) (.stmt _)), ?_⟩
          cases hf : cfg.flag .autoCsm <;> simp [preprocess, hf, he]
    obtain ⟨csm, hs1, hs2, hs3⟩ := hcsm
    unfold printPackCommonText
    rw [hr1, hs1]
    refine ⟨_, rfl, ?_, ?_⟩
    · exact .append (.append (.append (.append (.append (.stmt _) hr2) hclr.1) hphys.1) hbyte.1) hs2
    · rw [preprocess_append (.append (.append (.append (.append (.stmt _) hr2) hclr.1) hphys.1) hbyte.1),
        preprocess_append (.append (.append (.append (.stmt _) hr2) hclr.1) hphys.1),
        preprocess_append (.append (.append (.stmt _) hr2) hclr.1),
        preprocess_append (.append (.stmt _) hr2), preprocess_append (.stmt _),
        hr3, hclr.2, hphys.2, hbyte.2, hs3]
      simp [preprocess, prePackStmts]

end Verif
