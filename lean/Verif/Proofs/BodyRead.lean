import Verif.Proofs.LineText2
/-
The printed bodies of the generated functions, read as statements.
-/
namespace Verif
open Verif.Spec

section Body
variable {files : List (Str × Str)} {g : GenDesc} {m : Msg} {cfg : Cfg} {K : Look} {D : Defs}

/-! ### Conditionals -/

theorem GenS.ifdefG {n : Str} {y : WOp} {a : List WOp} {k : List CStm} (h : IsWord n) (hn : n.length ≤ 9000) (hy : CloseOp files y)
    (hT : (D.lookup n).isSome = true → GenS files D a k) (hF : (D.lookup n).isSome = false → GSkip files a) :
    GenS files D ([opIfdef n] ++ a ++ [y]) (if (D.lookup n).isSome then k else []) := by
  cases hd : (D.lookup n).isSome with
  | true =>
    obtain ⟨us, g1, p1⟩ := hT hd
    exact ⟨us, Gen.ifdefT h hn hd hy g1, p1⟩
  | false => exact ⟨[], Gen.ifdefF h hn hd hy (hF hd), PSeq.nil⟩

theorem GSkip.lineS {t : Str} (l : List Seg) (hL : t = segText l) (hw : SegsW l)
    (ht : TextsPlain l) (hS : SegsShort 1100 l) (hlen : segLen 1100 l ≤ 9999)
    (hp : litsPlain l = true := by rfl) (hh : noHash l = true := by rfl) : GSkip files [.appendF t] :=
  ⟨_, OL.segs l hL hw ht (by rw [hL]; exact Nat.le_trans (length_segs hS) hlen) hp, Skips.text (notDir_segs hh hw)⟩

theorem Src.ifdef (h : Src g m cfg K D) (f : Flag) {a : List WOp} {k : List CStm} (ha : GenS files D a k) :
    GenS files D ([opIfdef (flagName g f)] ++ a ++ [opEndif (flagName g f)]) (if cfg.flag f then k else []) := by
  have hw := h.flagW f
  have := GenS.ifdef (files := files) hw.1 (by omega) (closeOp_comment hw.1 (by omega)) ha
  rwa [h.flag] at this

/-! ### Signals of Unpack -/

theorem empty_silent : GenS files D [opEmpty] [] := GenS.silent Gen.empty
theorem nil_silent : GenS files D [.appendF []] [] := GenS.silent Gen.appendNil

theorem GenS.then_empty {a : List WOp} {k : List CStm} (h : GenS files D a k) : GenS files D (a ++ [opEmpty]) k := by
  have := h.append empty_silent
  rwa [List.append_nil] at this

/-- What the statements need of a printed expression. -/
def SigGood (D : Defs) : SigText → Prop
  | .expr e => Chain e ∧ Shape true (fun n => D.lookup n = none) e ∧ (render e).length ≤ 6000
  | .err => False

def SlotGood (D : Defs) : Slot → Prop
  | .expr e => Chain e ∧ Shape false (fun n => D.lookup n = none) e ∧ (render e).length ≤ 6000
  | .empty => True
  | .err => False

theorem unpackSig_read (h : Src g m cfg K D) {s : Sig} (hs : s ∈ m.signals) (hb : s.lengthBit < 2 ^ 31) {x : SigText} {t : Str} (hx : SigTextIs x t)
    (hg : SigGood D x) (last : Bool) :
    GenS files D (unpackSigOps g s t last) ((sigStmts cfg s x).flatMap (stmsOf K)) := by
  obtain ⟨hn, hf, -⟩ := h.sig s hs
  cases x with
  | err => exact hg.elim
  | expr e =>
    have ht : t = render e := hx
    subst ht
    obtain ⟨hc, hsh, hl⟩ := hg
    have hn6 : Nm D 600 s.name := ⟨hn.id, by have := hn.len; omega, hn.mac⟩
    have hbl : (decStr s.lengthBit).length ≤ 1100 := by
      have := decStr_length (n := s.lengthBit) (k := 10) (by omega)
      omega
    unfold unpackSigOps sigStmts
    rw [List.flatMap_cons]
    refine GenS.append ?_ ?_
    · simp only [printType_eq]
      cases s.signed with
      | true => exact line_sigExt h.base hn6 s.typeRo hc s.lengthBit hsh hl hbl
      | false => exact line_sig h.base hn6 s.typeRo hc hsh hl
    · cases hi : s.isSimple with
      | true =>
        simp only [Bool.not_true, Bool.false_and, Bool.false_eq_true, if_false, if_true, List.flatMap_nil]
        cases last with
        | true => exact nil_silent
        | false => exact GenS.nil
      | false =>
        obtain ⟨o, hK, hd1, hd2⟩ := h.conv s hs hi
        have h1 : GenS files D [.appendF (if s.isDouble then
            "  _m->".toList ++ s.nameFloat ++ " = (sigfloat_t)(".toList ++ g.drvUp ++ "_".toList ++ s.name ++ "_fromS(_m->".toList ++ s.name ++ "));".toList
          else
            "  _m->".toList ++ s.nameFloat ++ " = (".toList ++ printType s.typePhys ++ ") ".toList ++ g.drvUp ++ "_".toList ++ s.name ++
              "_fromS(_m->".toList ++ s.name ++ ");".toList)]
            (stmsOf K (if s.isDouble then .fromSFloat s.nameFloat s.name else .fromSInt s.nameFloat s.typePhys s.name)) := by
          simp only [printType_eq]
          cases s.isDouble with
          | true => exact line_fromSFloat h hn (hf hi) hK hd1
          | false => exact line_fromSInt h hn (hf hi) s.typePhys hK hd1
        have h2 := (h.ifdef .useSigFloat h1).then_empty
        have e : ((if (!false && cfg.flag .useSigFloat) = true then
            [if s.isDouble then CStmt.fromSFloat s.nameFloat s.name else .fromSInt s.nameFloat s.typePhys s.name] else []).flatMap (stmsOf K)) =
            if cfg.flag .useSigFloat then stmsOf K (if s.isDouble then .fromSFloat s.nameFloat s.name else .fromSInt s.nameFloat s.typePhys s.name) else [] := by
          cases cfg.flag .useSigFloat <;> simp
        rw [e]
        exact h2

/-- Expression by expression. -/
def SigTexts : List SigText → List Str → Prop
  | [], [] => True
  | x :: xs, t :: ts => SigTextIs x t ∧ SigTexts xs ts
  | _, _ => False

theorem sigTexts_of {xs : List SigText} {ts : List Str} (hl : ts.length = xs.length)
    (h : ∀ (i : Nat) x, xs[i]? = some x → ∃ t, ts[i]? = some t ∧ SigTextIs x t) : SigTexts xs ts := by
  induction xs generalizing ts with
  | nil =>
    cases ts with
    | nil => trivial
    | cons t ts => simp at hl
  | cons x xs ih =>
    cases ts with
    | nil => simp at hl
    | cons t ts =>
      obtain ⟨t', h1, h2⟩ := h 0 x rfl
      have : t = t' := by simpa using h1
      subst this
      refine ⟨h2, ih (by simpa using hl) fun i y hy => ?_⟩
      obtain ⟨u, hu, hr⟩ := h (i + 1) y (by simpa using hy)
      exact ⟨u, by simpa using hu, hr⟩

theorem unpackSigs_read (h : Src g m cfg K D) (ss : List Sig) (hs : ∀ s ∈ ss, s ∈ m.signals ∧ s.lengthBit < 2 ^ 31) (xs : List SigText) (ts : List Str)
    (hx : SigTexts xs ts) (hg : ∀ x ∈ xs, SigGood D x) :
    GenS files D (unpackSigsOps g ss ts) (((ss.zip xs).flatMap fun p => sigStmts cfg p.1 p.2).flatMap (stmsOf K)) := by
  induction ss generalizing xs ts with
  | nil =>
    cases ts <;> exact GenS.nil
  | cons s ss ih =>
    cases xs with
    | nil =>
      cases ts with
      | nil => exact GenS.nil
      | cons t ts => exact hx.elim
    | cons x xs =>
      cases ts with
      | nil => exact hx.elim
      | cons t ts =>
        rw [unpackSigsOps, List.zip_cons_cons, List.flatMap_cons, List.flatMap_append]
        refine (unpackSig_read h (hs s (by simp)).1 (hs s (by simp)).2 hx.1 (hg x (by simp)) _).append ?_
        exact ih (fun s hs' => hs s (by simp [hs'])) xs ts hx.2 fun y hy => hg y (by simp [hy])

/-! ### Monitor part of Unpack -/

theorem unpackRoll_read (h : Src g m cfg K D) (hr : RollOk m) : ∃ ops, unpackRollOps g m = some ops ∧ GenS files D ops
    ((match m.sigAt m.rollSig with
     | some r => if cfg.flag .autoRoll then
         [CStmt.monRoll r.name, .incr (exptName r.name) r.name (2 ^ r.lengthBit - 1)] else []
     | none => []).flatMap (stmsOf K)) := by
  unfold unpackRollOps rollMask
  cases hc : m.sigAt m.rollSig with
  | none => exact ⟨[], rfl, GenS.nil⟩
  | some r =>
    have hl : r.lengthBit < 31 := hr r hc
    obtain ⟨hn, -, he⟩ := h.sig r (sigAt_mem hc)
    have hp : 2 ^ r.lengthBit ≤ 2 ^ 30 := Nat.pow_le_pow_right (by omega) (by omega)
    have h1 := line_monRoll (files := files) (K := K) h.base hn he
    have h2 := line_incr (files := files) (K := K) h.base (exptW hn) he hn (mask := 2 ^ r.lengthBit - 1) (by omega)
    have h3 := (h.ifdef .autoRoll (h1.append h2)).then_empty
    simp only [hl, if_true, Option.map_some]
    refine ⟨_, rfl, ?_⟩
    have e : ((if cfg.flag .autoRoll = true then [CStmt.monRoll r.name, .incr (exptName r.name) r.name (2 ^ r.lengthBit - 1)] else []).flatMap (stmsOf K)) =
        if cfg.flag .autoRoll then stmsOf K (.monRoll r.name) ++ stmsOf K (.incr (exptName r.name) r.name (2 ^ r.lengthBit - 1)) else [] := by
      cases cfg.flag .autoRoll <;> simp
    rw [e]
    have ht : "  _m->".toList ++ exptName r.name ++ " = (_m->".toList ++ r.name ++ " + 1) & (".toList ++ maskW (2 ^ r.lengthBit - 1) ++ ");".toList =
        "  _m->".toList ++ r.name ++ "_expt = (_m->".toList ++ r.name ++ " + 1) & (0x".toList ++ fmt02X (2 ^ r.lengthBit - 1) ++ "U);".toList := by
      unfold exptName maskW
      simp only [String.reduceToList, List.append_assoc, List.cons_append, List.nil_append]
    rw [ht] at h3
    exact h3

theorem unpackCsm_read (h : Src g m cfg K D) : GenS files D (unpackCsmOps g m)
    ((match m.sigAt m.csmSig with
     | some s => if cfg.flag .autoCsm then [CStmt.monCsm m.dlc m.msgId m.csmMethod m.csmOp s.name] else []
     | none => []).flatMap (stmsOf K)) := by
  unfold unpackCsmOps
  cases hc : m.sigAt m.csmSig with
  | none => exact GenS.nil
  | some c =>
    obtain ⟨hn, -, -⟩ := h.sig c (sigAt_mem hc)
    obtain ⟨hm, ho⟩ := h.csm c hc
    have h3 := (h.ifdef (files := files) .autoCsm (line_monCsm h hn hm ho)).then_empty
    have e : ((if cfg.flag .autoCsm = true then [CStmt.monCsm m.dlc m.msgId m.csmMethod m.csmOp c.name] else []).flatMap (stmsOf K)) =
        if cfg.flag .autoCsm then stmsOf K (.monCsm m.dlc m.msgId m.csmMethod m.csmOp c.name) else [] := by
      cases cfg.flag .autoCsm <;> simp
    dsimp only
    rw [e]
    exact h3

theorem fmon_skip (h : Src g m cfg K D) :
    GSkip files [.appendF ("  FMon_".toList ++ m.name ++ "_".toList ++ g.drvLow ++ "(&_m->mon1, ".toList ++ m.name ++ "_CANID);".toList)] := by
  have hw := h.fmonW
  exact GSkip.lineS [.l "  ", .w (fmonName g m), .l "(&_m->mon1, ", .w (m.name ++ "_CANID".toList), .l ");"] (by unfold fmonName; seg_eqc)
    ⟨hw.1, h.idW.1, trivial⟩ trivial ⟨hw.2, h.idW.2, trivial⟩ (by seg_len)

theorem unpackBody_read (h : Src g m cfg K D) (hs : ∀ s ∈ m.signals, s.lengthBit < 2 ^ 31) (hr : RollOk m) {xs : List SigText} {ts : List Str}
    (hx : SigTexts xs ts) (hg : ∀ x ∈ xs, SigGood D x) :
    ∃ ops lines, unpackBodyOps g m ts = some ops ∧ writeUnpackBody m xs = some lines ∧
      GenS files D ops ((preprocess cfg.flag [] lines).flatMap (stmsOf K)) := by
  obtain ⟨lines, hw, hp⟩ := (writeUnpackBody_eq cfg m xs).2 hr
  obtain ⟨roll, hro, gro⟩ := unpackRoll_read (files := files) h hr
  have h1 := unpackSigs_read (files := files) h m.signals (fun s h' => ⟨h', hs s h'⟩) xs ts hx hg
  have hA : GenS files D ([.appendF ("  _m->mon1.dlc_error = (dlc_ < ".toList ++ m.name ++ "_DLC);".toList),
     opLine "  _m->mon1.last_cycle = GetSystemTick();", opLine "  _m->mon1.frame_cnt++;", opEmpty] ++ roll ++ unpackCsmOps g m)
     (([.monDlc m.dlc, .monTick, .monCnt] ++
    (match m.sigAt m.rollSig with
     | some r => if cfg.flag .autoRoll then
         [CStmt.monRoll r.name, .incr (exptName r.name) r.name (2 ^ r.lengthBit - 1)] else []
     | none => []) ++
    (match m.sigAt m.csmSig with
     | some s => if cfg.flag .autoCsm then [.monCsm m.dlc m.msgId m.csmMethod m.csmOp s.name] else []
     | none => [])).flatMap (stmsOf K)) := by
    rw [List.flatMap_append, List.flatMap_append]
    refine GenS.append (GenS.append ?_ gro) (unpackCsm_read h)
    exact (line_monDlc h).cons ((line_monTick h).cons ((line_monCnt h.base).cons empty_silent))
  have hM : GenS files D ([opIfdef g.usemon] ++ (([.appendF ("  _m->mon1.dlc_error = (dlc_ < ".toList ++ m.name ++ "_DLC);".toList),
     opLine "  _m->mon1.last_cycle = GetSystemTick();", opLine "  _m->mon1.frame_cnt++;", opEmpty] ++ roll ++ unpackCsmOps g m) ++
     [.appendF ("  FMon_".toList ++ m.name ++ "_".toList ++ g.drvLow ++ "(&_m->mon1, ".toList ++ m.name ++ "_CANID);".toList)]) ++ [opEndif g.usemon])
     ((monStmts cfg m).flatMap (stmsOf K)) := by
    have hfw := h.flagW .useMon
    have hfl := h.flag .useMon
    have hl : g.usemon.length ≤ 1100 := hfw.2
    have := GenS.ifdefG (files := files) (n := g.usemon) (D := D) hfw.1 (by omega)
      (closeOp_comment hfw.1 (by omega))
      (fun hd => hA.append (line_fmon h (by rw [← hfl]; exact hd))) (fun _ => hA.skip.append (fmon_skip h))
    have e : (D.lookup g.usemon).isSome = cfg.flag .useMon := hfl
    rw [e] at this
    unfold monStmts
    cases hu : cfg.flag .useMon with
    | false =>
      rw [hu, if_neg Bool.false_ne_true] at this
      rw [if_neg Bool.false_ne_true]
      exact this
    | true =>
      rw [hu, if_pos rfl] at this
      rw [if_pos rfl, List.flatMap_append]
      have e1 : ([.fmon m.name m.msgId] : List CStmt).flatMap (stmsOf K) = stmsOf K (.fmon m.name m.msgId) := by simp
      rw [e1]
      exact this
  unfold unpackBodyOps
  rw [hro]
  refine ⟨_, lines, rfl, hw, ?_⟩
  rw [hp, List.flatMap_append, List.flatMap_append]
  have hE := (h1.append hM.then_empty).append (line_ret (files := files) h)
  have eL : (unpackSigsOps g m.signals ts ++
    ([opIfdef g.usemon] ++ (([.appendF ("  _m->mon1.dlc_error = (dlc_ < ".toList ++ m.name ++ "_DLC);".toList),
     opLine "  _m->mon1.last_cycle = GetSystemTick();", opLine "  _m->mon1.frame_cnt++;", opEmpty] ++ roll ++ unpackCsmOps g m) ++
     [.appendF ("  FMon_".toList ++ m.name ++ "_".toList ++ g.drvLow ++ "(&_m->mon1, ".toList ++ m.name ++ "_CANID);".toList)]) ++ [opEndif g.usemon]
      ++ [opEmpty]) ++ [.appendF ("  return ".toList ++ m.name ++ "_CANID;".toList)]) =
    unpackSigsOps g m.signals ts ++
    [opIfdef g.usemon, .appendF ("  _m->mon1.dlc_error = (dlc_ < ".toList ++ m.name ++ "_DLC);".toList),
     opLine "  _m->mon1.last_cycle = GetSystemTick();", opLine "  _m->mon1.frame_cnt++;", opEmpty] ++
    roll ++ unpackCsmOps g m ++
    [.appendF ("  FMon_".toList ++ m.name ++ "_".toList ++ g.drvLow ++ "(&_m->mon1, ".toList ++ m.name ++ "_CANID);".toList),
     opEndif g.usemon, opEmpty, .appendF ("  return ".toList ++ m.name ++ "_CANID;".toList)] := by
    simp only [List.append_assoc, List.cons_append, List.nil_append]
  rw [eL] at hE
  have eR : ([.ret m.msgId] : List CStmt).flatMap (stmsOf K) = stmsOf K (.ret m.msgId) := by simp
  rw [eR]
  exact hE

/-! ### Pack -/

theorem packRoll_read (h : Src g m cfg K D) (hr : RollOk m) : ∃ ops, packRollOps g m = some ops ∧ GenS files D ops
    ((match m.sigAt m.rollSig with
     | some r => if cfg.flag .autoRoll then [CStmt.incr r.name r.name (2 ^ r.lengthBit - 1)] else []
     | none => []).flatMap (stmsOf K)) := by
  unfold packRollOps rollMask
  cases hc : m.sigAt m.rollSig with
  | none => exact ⟨[], rfl, GenS.nil⟩
  | some r =>
    have hl : r.lengthBit < 31 := hr r hc
    obtain ⟨hn, -, he⟩ := h.sig r (sigAt_mem hc)
    have hp : 2 ^ r.lengthBit ≤ 2 ^ 30 := Nat.pow_le_pow_right (by omega) (by omega)
    have h2 := line_incr (files := files) (K := K) h.base ⟨words_of_ident hn.id, by have := hn.len; omega⟩ hn.mac hn (mask := 2 ^ r.lengthBit - 1) (by omega)
    have h3 := (h.ifdef .autoRoll h2).then_empty
    simp only [hl, if_true, Option.map_some]
    refine ⟨_, rfl, ?_⟩
    have e : ((if cfg.flag .autoRoll = true then [CStmt.incr r.name r.name (2 ^ r.lengthBit - 1)] else []).flatMap (stmsOf K)) =
        if cfg.flag .autoRoll then stmsOf K (.incr r.name r.name (2 ^ r.lengthBit - 1)) else [] := by
      cases cfg.flag .autoRoll <;> simp
    rw [e]
    have ht : "  _m->".toList ++ r.name ++ " = (_m->".toList ++ r.name ++ " + 1) & (".toList ++ maskW (2 ^ r.lengthBit - 1) ++ ");".toList =
        "  _m->".toList ++ r.name ++ " = (_m->".toList ++ r.name ++ " + 1) & (0x".toList ++ fmt02X (2 ^ r.lengthBit - 1) ++ "U);".toList := by
      unfold maskW
      simp only [String.reduceToList, List.append_assoc, List.cons_append, List.nil_append]
    rw [ht] at h3
    exact h3

theorem packClear_read (h : Src g m cfg K D) : GenS files D (packClearOps g m)
    ((match m.sigAt m.csmSig with
     | some s => if cfg.flag .autoCsm then [CStmt.clear s.name s.typeRo] else []
     | none => []).flatMap (stmsOf K)) := by
  unfold packClearOps
  cases hc : m.sigAt m.csmSig with
  | none => exact GenS.nil
  | some c =>
    obtain ⟨hn, -, -⟩ := h.sig c (sigAt_mem hc)
    have h3 := (h.ifdef (files := files) .autoCsm (line_clear (K := K) h.base hn c.typeRo)).then_empty
    have e : ((if cfg.flag .autoCsm = true then [CStmt.clear c.name c.typeRo] else []).flatMap (stmsOf K)) =
        if cfg.flag .autoCsm then stmsOf K (.clear c.name c.typeRo) else [] := by
      cases cfg.flag .autoCsm <;> simp
    dsimp only
    rw [e]
    simp only [printType_eq]
    exact h3

theorem packPhys_read (h : Src g m cfg K D) : GenS files D (packPhysOps g m)
    ((if m.hasPhys && cfg.flag .useSigFloat then
      (m.signals.filter (fun s => !s.isSimple)).map (fun s => CStmt.toS s.name s.typeRo s.nameFloat) else []).flatMap (stmsOf K)) := by
  unfold packPhysOps
  cases hp : m.hasPhys with
  | false =>
    rw [if_neg Bool.false_ne_true, Bool.false_and, if_neg Bool.false_ne_true]
    exact GenS.nil
  | true =>
    rw [if_pos rfl, Bool.true_and]
    have h1 : ∀ ss : List Sig, (∀ s ∈ ss, s ∈ m.signals) → GenS files D
      ((ss.filter (fun s => !s.isSimple)).map (fun s =>
      .appendF ("  _m->".toList ++ s.name ++ " = (".toList ++ printType s.typeRo ++ ") ".toList ++ g.drvUp ++ "_".toList ++ s.name ++
        "_toS(_m->".toList ++ s.nameFloat ++ ");".toList)))
      (((ss.filter (fun s => !s.isSimple)).map (fun s => CStmt.toS s.name s.typeRo s.nameFloat)).flatMap (stmsOf K)) := by
      intro ss hs
      induction ss with
      | nil => exact GenS.nil
      | cons s ss ih =>
        have ih := ih fun s h => hs s (by simp [h])
        rw [List.filter_cons]
        cases hi : s.isSimple with
        | true => exact ih
        | false =>
          rw [if_pos (by rfl), List.map_cons, List.map_cons, List.flatMap_cons]
          obtain ⟨hn, hf, -⟩ := h.sig s (hs s (by simp))
          obtain ⟨o, hK, hd1, hd2⟩ := h.conv s (hs s (by simp)) hi
          have := line_toS (files := files) h hn (hf hi) s.typeRo hK hd2
          simp only [printType_eq] at ih ⊢
          exact this.cons ih
    have h3 := (h.ifdef .useSigFloat (h1 m.signals fun _ h => h)).then_empty
    have e : ((if cfg.flag .useSigFloat = true then
        (m.signals.filter (fun s => !s.isSimple)).map (fun s => CStmt.toS s.name s.typeRo s.nameFloat) else []).flatMap (stmsOf K)) =
        if cfg.flag .useSigFloat then ((m.signals.filter (fun s => !s.isSimple)).map (fun s => CStmt.toS s.name s.typeRo s.nameFloat)).flatMap (stmsOf K)
        else [] := by
      cases cfg.flag .useSigFloat <;> simp
    rw [e]
    have el : ∀ (a : WOp) (b : List WOp) (c d : WOp), [a] ++ b ++ [c, d] = [a] ++ b ++ [c] ++ [d] := by simp
    rw [el]
    exact h3

theorem render_two (e : CExpr) : 2 ≤ (render e).length := by
  cases e <;> unfold render <;> simp only [List.length_append, String.reduceToList, List.length_cons, List.length_nil] <;> omega

theorem packByte_read (hB : Base D) (tb : List Slot) (tt : List Str) (ht : SlotTexts tb tt) (hg : ∀ sl ∈ tb, SlotGood D sl) (hl : tb.length ≤ 2 ^ 31) :
    GenS files D (packByteOps (arrText K.frame) tt) ((byteStmts tb).flatMap (stmsOf K)) := by
  have key : ∀ (tb : List Slot) (tt : List Str) (k : Nat), SlotTexts tb tt → (∀ sl ∈ tb, SlotGood D sl) → k + tb.length ≤ 2 ^ 31 →
      GenS files D (((tt.zipIdx k).filter (fun p => decide (2 ≤ p.1.length))).map fun p =>
        .appendF ("  ".toList ++ arrText K.frame ++ "[".toList ++ fmtD p.2 ++ "] |= (uint8_t) ( ".toList ++ p.1 ++ " );".toList))
      ((((tb.zipIdx k).filter (fun p => p.1 != .empty)).map fun p => CStmt.orByte p.2 p.1).flatMap (stmsOf K)) := by
    intro tb
    induction tb with
    | nil =>
      intro tt k ht _ _
      cases tt with
      | nil => exact GenS.nil
      | cons t ts => simp [SlotTexts] at ht
    | cons sl tb ih =>
      intro tt k ht hg hk
      cases tt with
      | nil => simp [SlotTexts] at ht
      | cons t tt =>
        obtain ⟨t', h1, h2⟩ := ht.2 0 sl rfl
        have : t = t' := by simpa using h1
        subst this
        have ht' : SlotTexts tb tt := ⟨by simpa using ht.1, fun i y hy => by
          obtain ⟨u, hu, hr⟩ := ht.2 (i + 1) y (by simpa using hy)
          exact ⟨u, by simpa using hu, hr⟩⟩
        rw [List.length_cons] at hk
        have ih := ih tt (k + 1) ht' (fun x hx => hg x (by simp [hx])) (by omega)
        have hg1 := hg sl (by simp)
        rw [List.zipIdx_cons, List.zipIdx_cons, List.filter_cons, List.filter_cons]
        cases sl with
        | err => exact hg1.elim
        | empty =>
          have : t = [] := h2
          subst this
          exact ih
        | expr e =>
          have : t = render e := h2
          subst this
          obtain ⟨a, b, c⟩ := hg1
          have e1 : decide (2 ≤ (render e).length) = true := by simpa using render_two e
          have e2 : ((Slot.expr e != .empty) = true) := by simp
          simp only [e1, e2, if_true, List.map_cons, List.flatMap_cons]
          exact (line_orByte hB (by omega) a b c).cons ih
  exact key tb tt 0 ht hg (by omega)

theorem findIdx_congr {α β : Type} (p : α → Bool) (q : β → Bool) (a : List α) (b : List β) (hl : b.length = a.length)
    (h : ∀ (i : Nat) x, a[i]? = some x → ∃ y, b[i]? = some y ∧ p x = q y) : a.findIdx? p = b.findIdx? q := by
  induction a generalizing b with
  | nil =>
    cases b with
    | nil => rfl
    | cons y b => simp at hl
  | cons x a ih =>
    cases b with
    | nil => simp at hl
    | cons y b =>
      obtain ⟨y', h1, h2⟩ := h 0 x rfl
      have : y = y' := by simpa using h1
      subst this
      rw [List.findIdx?_cons, List.findIdx?_cons, h2]
      split
      · rfl
      · rw [ih b (by simpa using hl) fun i z hz => by
          obtain ⟨u, hu, hr⟩ := h (i + 1) z (by simpa using hz)
          exact ⟨u, by simpa using hu, hr⟩]

/-- The checksum expression, as text. -/
theorem csm_text {c : Sig} (hid : IsIdent c.name) (hb : c.lengthBit < 2 ^ 31) (hn : c.name.length ≤ 2000) {i : Nat} {e : Slot} (h : csmExpr c = some (i, e)) :
    i < 8 ∧ ∃ t, csmText c = some (i, t) ∧ SlotText e t := by
  have hp := printSignal_text c hn (List.replicate 8 .empty) (List.replicate 8 []) ⟨by simp, fun i sl h => by
    rw [List.getElem?_replicate] at h ⊢
    split at h
    · rename_i hi
      rw [if_pos hi]
      cases h
      exact ⟨[], rfl, rfl⟩
    · cases h⟩
  have hlen := printSignal_chain c hid hb (List.replicate 8 .empty) (by simp) (fun sl h => by
    rw [(List.mem_replicate.1 h).2]
    trivial)
  unfold csmExpr at h
  unfold csmText
  revert hp h hlen
  cases printSignalExpr c (List.replicate 8 .empty) with
  | oob => intro h; cases h
  | ok x tb =>
    cases printSignalText c (List.replicate 8 []) with
    | none => intro _ h; exact h.elim
    | some q =>
      obtain ⟨t, tt⟩ := q
      intro h hp hlen
      obtain ⟨-, hl, ht⟩ := hp
      have hf := findIdx_congr (· != Slot.empty) (fun t : Str => decide (t.length > 0)) tb tt hl (fun i x hx => by
        obtain ⟨u, hu, hr⟩ := ht i x hx
        refine ⟨u, hu, ?_⟩
        cases x with
        | empty =>
          have : u = [] := hr
          subst this
          rfl
        | expr e =>
          have : u = render e := hr
          subst this
          have := render_two e
          have : decide ((render e).length > 0) = true := by simp; omega
          rw [this]
          simp
        | err =>
          obtain ⟨v, rfl⟩ := hr
          have : decide ((errText ++ v).length > 0) = true := by
            rw [List.length_append]
            have : 0 < errText.length := by decide
            simp only [decide_eq_true_eq]
            omega
          rw [this]
          rfl)
      dsimp only at h ⊢
      rw [← hf]
      cases hi : tb.findIdx? (· != Slot.empty) with
      | none =>
        rw [hi] at h
        cases h
      | some j =>
        rw [hi] at h
        cases h
        have hj : i < tb.length := by
          rw [List.findIdx?_eq_some_iff_getElem] at hi
          exact hi.1
        obtain ⟨u, hu, hr⟩ := ht i (tb.getD i .empty) (by rw [List.getD_eq_getElem?_getD]; simp [hj])
        refine ⟨by have := hlen.2.2; simp at this; omega, u, ?_, hr⟩
        show some (i, tt.getD i []) = some (i, u)
        rw [List.getD_eq_getElem?_getD, hu]
        rfl

theorem packCsm_read (h : Src g m cfg K D) (hb : ∀ s ∈ m.signals, s.lengthBit < 2 ^ 31) (hc : CsmOk m)
    (hg : ∀ c, m.sigAt m.csmSig = some c → ∀ i e, csmExpr c = some (i, e) → ∃ x, e = .expr x ∧ SlotGood D e) :
    ∃ ops, packCsmOps g (arrText K.frame) m = some ops ∧ GenS files D ops ((csmStmts cfg m).flatMap (stmsOf K)) := by
  unfold packCsmOps csmStmts
  cases hs : m.sigAt m.csmSig with
  | none => exact ⟨[], rfl, GenS.nil⟩
  | some c =>
    obtain ⟨hn, -, -⟩ := h.sig c (sigAt_mem hs)
    obtain ⟨hm, ho⟩ := h.csm c hs
    cases he : csmExpr c with
    | none => exact absurd he (hc c hs)
    | some p =>
      obtain ⟨i, e⟩ := p
      obtain ⟨hi, t, htx, hst⟩ := csm_text hn.id (hb c (sigAt_mem hs)) (by have := hn.len; omega) he
      obtain ⟨x, rfl, a, b, l⟩ := hg c hs i e he
      have : t = render x := hst
      subst this
      dsimp only
      rw [htx, he]
      refine ⟨_, rfl, ?_⟩
      have h1 := line_setCsm (files := files) h hn hm ho
      have h2 := line_orByte (files := files) (K := K) h.base (i := i) (by omega) a b l
      have h3 := (h.ifdef .autoCsm (h1.append h2)).then_empty
      have e : ((if cfg.flag .autoCsm = true then [CStmt.setCsm c.name m.dlc m.msgId m.csmMethod m.csmOp, .orByte i (.expr x)] else []).flatMap (stmsOf K)) =
          if cfg.flag .autoCsm then stmsOf K (.setCsm c.name m.dlc m.msgId m.csmMethod m.csmOp) ++ stmsOf K (.orByte i (.expr x)) else [] := by
        cases cfg.flag .autoCsm <;> simp
      dsimp only
      rw [e]
      exact h3

theorem packCommon_read (h : Src g m cfg K D) (hs : ∀ s ∈ m.signals, s.lengthBit < 2 ^ 31) (hr : RollOk m) (hc : CsmOk m)
    (hg : ∀ c, m.sigAt m.csmSig = some c → ∀ i e, csmExpr c = some (i, e) → ∃ x, e = .expr x ∧ SlotGood D e)
    {tb : List Slot} {tt : List Str} (ht : SlotTexts tb tt) (hb : ∀ sl ∈ tb, SlotGood D sl) (hl : tb.length ≤ 2 ^ 31) :
    ∃ ops lines, packCommonOps g (arrText K.frame) m tt = some ops ∧ printPackCommonText m tb = some lines ∧ Bal lines ∧
      GenS files D ops ((preprocess cfg.flag [] lines).flatMap (stmsOf K)) := by
  obtain ⟨lines, hw, hbal, hp⟩ := (printPackCommonText_eq cfg m tb).2 ⟨hr, hc⟩
  obtain ⟨roll, hro, gro⟩ := packRoll_read (files := files) h hr
  obtain ⟨csm, hcs, gcs⟩ := packCsm_read (files := files) h hs hc hg
  refine ⟨_, lines, by unfold packCommonOps; rw [hro, hcs]; rfl, hw, hbal, ?_⟩
  rw [hp]
  unfold prePackStmts
  simp only [List.flatMap_append]
  have e : ∀ (a b : WOp) (r c p q : List WOp) (d : WOp) (s : List WOp),
      [a, b] ++ r ++ c ++ p ++ q ++ [d] ++ s = [a] ++ [b] ++ (r ++ c ++ p) ++ q ++ [d] ++ s := by simp
  have e1 : ([.initLoop m.dlc] : List CStmt).flatMap (stmsOf K) = stmsOf K (.initLoop m.dlc) := by simp
  rw [e, e1]
  refine GenS.append ?_ gcs
  have hb := packByte_read (files := files) (K := K) h.base tb tt ht hb hl
  have h2 := (((line_initLoop h).append empty_silent).append ((gro.append (packClear_read h)).append (packPhys_read h))).append hb
  rw [List.append_nil] at h2
  have h3 := h2.append nil_silent
  rwa [List.append_nil] at h3

end Body

end Verif
