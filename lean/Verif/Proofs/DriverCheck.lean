import Verif.Proofs.DriverText
/-
A check of the conditions of the reading theorems that can be run.
-/
namespace Verif
open Spec

instance (D : Defs) (k : Nat) (n : Str) : Decidable (Nm D k n) :=
  decidable_of_iff (IsIdent n ∧ n.length ≤ k ∧ D.lookup n = none) ⟨fun h => ⟨h.1, h.2.1, h.2.2⟩, fun h => ⟨h.1, h.2, h.3⟩⟩

instance (D : Defs) (s : Sig) : Decidable (FieldOk D s) :=
  decidable_of_iff (Nm D 600 s.name ∧ (s.isSimple = false → Nm D 600 s.nameFloat) ∧ 1 ≤ s.lengthBit ∧ ('\n' ∉ s.unit ∧ s.unit.length ≤ 4000) ∧ NoSplice s.commentText ∧ NoSplice s.valueText)
    ⟨fun h => ⟨h.1, h.2.1, h.2.2.1, h.2.2.2.1, h.2.2.2.2.1, h.2.2.2.2.2⟩, fun h => ⟨h.1, h.2, h.3, h.4, h.5, h.6⟩⟩

instance (s : Sig) : Decidable (ConvOk s) :=
  decidable_of_iff ((IsIdent s.name ∧ s.name.length ≤ 500) ∧ (convF s).length ≤ 1000 ∧ (convO s).length ≤ 1000) ⟨fun h => ⟨h.1, h.2.1, h.2.2⟩, fun h => ⟨h.1, h.2, h.3⟩⟩

instance (s : Sig) : Decidable (ValsText s) := inferInstanceAs (Decidable (∀ v ∈ s.valDefs.vpairs, _))

/-- A condition on the signal an optional index selects. -/
instance optDec (o : Option Sig) (P : Sig → Prop) [∀ s, Decidable (P s)] : Decidable (∀ r, o = some r → P r) :=
  match o with
  | none => isTrue fun _ h => by cases h
  | some s => decidable_of_iff (P s) ⟨fun h r e => by cases e; exact h, fun h => h s rfl⟩

instance (D : Defs) (m : Msg) : Decidable (StructOk D m) :=
  decidable_of_iff ((∀ s ∈ m.signals, FieldOk D s) ∧ ∀ r, m.sigAt m.rollSig = some r → Nm D 600 (exptName r.name)) ⟨fun h => ⟨h.1, h.2⟩, fun h => ⟨h.1, h.2⟩⟩

instance (D : Defs) (m : Msg) : Decidable (SrcMsg D m) :=
  decidable_of_iff ((∀ s ∈ m.signals, D.lookup (exptName s.name) = none) ∧ ∀ c, m.sigAt m.csmSig = some c → Nm D 500 m.csmMethod ∧ m.csmOp < 2 ^ 31)
    ⟨fun h => ⟨h.1, h.2⟩, fun h => ⟨h.1, h.2⟩⟩

instance (m : Msg) : Decidable (MsgText m) :=
  decidable_of_iff ((IsIdent m.name ∧ m.name.length ≤ 500) ∧ NoSplice m.commentText ∧ m.msgId < 2 ^ 32 ∧ m.ide < 2 ^ 64 ∧ m.dlc < 2 ^ 64)
    ⟨fun h => ⟨h.1, h.2.1, h.2.2.1, h.2.2.2.1, h.2.2.2.2⟩, fun h => ⟨h.1, h.2, h.3, h.4, h.5⟩⟩

instance (s : Sig) : Decidable (IntConsts s) := inferInstanceAs (Decidable (_ → _))

instance (m : Msg) : Decidable (CallMsg m) :=
  decidable_of_iff ((∀ s ∈ m.signals, s.isSimple = false → IntConsts s) ∧ (∀ s ∈ m.signals, s.lengthBit < 256) ∧ m.dlc < 256 ∧
    ∀ x, m.sigAt m.csmSig = some x → m.csmMethod ∉ ["_m".toList, "_d".toList, "dlc_".toList, "cframe".toList, "_len".toList, "_ide".toList, "i".toList])
    ⟨fun h => ⟨h.1, h.2.1, h.2.2.1, h.2.2.2⟩, fun h => ⟨h.1, h.2, h.3, h.4⟩⟩

def SigText.short : SigText → Bool
  | .expr e => (render e).length ≤ 6000
  | .err => false

def Slot.short : Slot → Bool
  | .empty => true
  | .expr e => (render e).length ≤ 6000
  | .err => false

/-- The expressions of a message can be printed and are not too long. -/
def printedB (m : Msg) : Bool :=
  match buildExprs m with
  | .oob => false
  | .ok xs tb => xs.all SigText.short && tb.all Slot.short && m.signals.all (fun s => s.lengthBit < 2 ^ 31) && decide (m.dlc ≤ 2 ^ 31) &&
    (match m.sigAt m.rollSig with | none => true | some r => r.lengthBit < 31) &&
    (match m.sigAt m.csmSig with
     | none => true
     | some c => match csmExpr c with
       | some (_, .expr e) => (render e).length ≤ 6000
       | _ => false)

theorem printedB_sound {m : Msg} (h : printedB m = true) : ∃ xs tb, Printed m xs tb := by
  unfold printedB at h
  cases hb : buildExprs m with
  | oob => rw [hb] at h; cases h
  | ok xs tb =>
    rw [hb] at h
    simp only [Bool.and_eq_true, List.all_eq_true, decide_eq_true_eq] at h
    obtain ⟨⟨⟨⟨⟨h1, h2⟩, h3⟩, h4⟩, h5⟩, h6⟩ := h
    refine ⟨xs, tb, hb, ?_, ?_, h3, h4, ?_, ?_⟩
    · intro x hx
      have := h1 x hx
      cases x with
      | err => cases this
      | expr e => exact ⟨e, rfl, of_decide_eq_true this⟩
    · intro x hx
      have := h2 x hx
      cases x with
      | err => cases this
      | empty => exact Or.inl rfl
      | expr e => exact Or.inr ⟨e, rfl, of_decide_eq_true this⟩
    · intro r hr
      rw [hr] at h5
      exact of_decide_eq_true h5
    · intro c hc
      rw [hc] at h6
      dsimp only at h6
      split at h6
      · rename_i i e he
        exact ⟨i, e, he, of_decide_eq_true h6⟩
      · cases h6

/-- A message whose text can be read. -/
def frameB (g : GenDesc) (E : Defs) (flag : Flag → Bool) (m : Msg) : Bool :=
  decide (∀ s ∈ m.signals, ConvOk s ∧ ValsText s) && decide (StructOk E m) && decide ((structMembers flag m).map (·.1)).Nodup &&
  decide (E.lookup (unpackName g m) = none) && decide (E.lookup (packName g m) = none) && decide (E.lookup (typeName m) = none) &&
  decide (SrcMsg E m) && printedB m && decide (CallMsg m) &&
  decide (∀ r, m.sigAt m.rollSig = some r → ¬ (27 < r.name.length + Spec.rollExcess r.typeRo r.lengthBit ∧
    ∀ s ∈ m.signals, s.name.length < r.name.length + Spec.rollExcess r.typeRo r.lengthBit))

theorem frameB_sound {g : GenDesc} {E : Defs} {flag : Flag → Bool} {m : Msg} (h : frameB g E flag m = true) : FrameOk g E flag m := by
  unfold frameB at h
  simp only [Bool.and_eq_true, decide_eq_true_eq] at h
  obtain ⟨⟨⟨⟨⟨⟨⟨⟨⟨h1, h2⟩, h3⟩, h4⟩, h5⟩, h6⟩, h7⟩, h8⟩, h9⟩, h10⟩ := h
  obtain ⟨xs, tb, hp⟩ := printedB_sound h8
  refine ⟨h1, h2, h3, h4, h5, h6, h7, ⟨xs, tb, hp⟩, ?_, h9⟩
  rintro ⟨r, hr, q⟩
  exact h10 r hr q

def hookB (D : Defs) : Hook → Bool
  | .zero => true
  | .call f => decide (IsIdent f ∧ D.lookup f = none ∧ f ∉ hashParams)

theorem hookB_sound {D : Defs} {h : Hook} (hb : hookB D h = true) : HookOk D h := by
  cases h with
  | zero => exact trivial
  | call f =>
    unfold hookB at hb
    unfold HookOk
    exact of_decide_eq_true hb

def numB (E : Defs) (n w : Str) : Bool :=
  match E.lookup n with
  | none => false
  | some d => inNumber w && (d == .obj [.word w] || d == .obj (par [.word w]))

theorem numB_sound {E : Defs} {n w : Str} (h : numB E n w = true) : ∃ d, E.lookup n = some d ∧ NumDef d w := by
  unfold numB at h
  split at h
  · cases h
  · rename_i d hd
    refine ⟨d, hd, ?_⟩
    simp only [Bool.and_eq_true, Bool.or_eq_true, beq_iff_eq] at h
    exact h

def allFlags : List Flag := [.useBits, .useCanStruct, .useSigFloat, .useMon, .autoRoll, .autoCsm]

theorem mem_allFlags (f : Flag) : f ∈ allFlags := by cases f <;> decide

/-- The conditions of the reading theorems. -/
def readB (drv : Str) (file : Source) (hi lo maxDlc : Nat) (msgs : List Msg) (D0 : Defs) (tick hash : Hook) (maxW initW : Str) : Bool :=
  let g := driverDesc drv file hi lo
  let mono := (D0.lookup (monoName g)).isSome
  let mon := (D0.lookup g.usemon).isSome
  let ds := headerDefs g maxDlc msgs ++ tailDefs g mon mono msgs
  let E := addAll D0 ds
  decide (IsIdent drv ∧ drv.length ≤ 400) && decide (strLower drv ≠ "stdint".toList ∧ strLower drv ≠ "canmonitorutil".toList) &&
  decide (SourceOk file) && decide (hi < 2 ^ 32 ∧ lo < 2 ^ 32) && decide (maxDlc < 2 ^ 64) && decide (Fresh D0 ds) &&
  E.all (fun p => !inNumber p.1) && decide (∀ w ∈ "__cplusplus".toList :: codeWords, E.lookup w = none) &&
  allFlags.all (fun f => (D0.lookup (flagName g f)).isSome || !(E.lookup (flagName g f)).isSome) &&
  (mono || !(E.lookup (monoName g)).isSome) &&
  decide (E.lookup "GetSystemTick".toList = some (.fn [] (tickBody tick))) && hookB E tick &&
  decide (E.lookup "GetFrameHash".toList = some (.fn hashParams (hashToks hash (hashParams.map fun p => [.word p])))) && hookB E hash &&
  numB E (maxDlcName g) maxW && numB E (initByteName g) initW &&
  (!mon || (decide (∀ m ∈ msgs, E.lookup (fmonFn g mono m.name) = none) && decide (E.lookup (fmonFn g true []) = none))) &&
  msgs.all (fun m => decide (MsgText m)) && msgs.all (fun m => !m.frameNotEmpty || frameB g E (fun f => (D0.lookup (flagName g f)).isSome) m)

/-- The conditions of the compiling theorems. -/
def driverB (drv : Str) (file : Source) (hi lo maxDlc : Nat) (msgs : List Msg) (D0 : Defs) (tick hash : Hook) (maxW initW : Str) : Bool :=
  readB drv file hi lo maxDlc msgs D0 tick hash maxW initW && decide (definedNames (driverDesc drv file hi lo) msgs).Nodup

theorem lookup_num {E : Defs} (h : ∀ p ∈ E, inNumber p.1 = false) {w : Str} (hw : inNumber w = true) : E.lookup w = none := by
  rw [List.lookup_eq_none_iff]
  intro p hp
  rw [bne_iff_ne]
  rintro rfl
  rw [h p hp] at hw
  cases hw

theorem readB_sound {drv : Str} {file : Source} {hi lo maxDlc : Nat} {msgs : List Msg} {D0 : Defs} {tick hash : Hook} {maxW initW : Str}
    (h : readB drv file hi lo maxDlc msgs D0 tick hash maxW initW = true) : DriverRd drv file hi lo maxDlc msgs D0 tick hash maxW initW := by
  unfold readB at h
  dsimp only at h
  simp only [Bool.and_eq_true, decide_eq_true_eq, List.all_eq_true] at h
  obtain ⟨⟨⟨⟨⟨⟨⟨⟨⟨⟨⟨⟨⟨⟨⟨⟨⟨⟨h1, h2⟩, h3⟩, h4⟩, h5⟩, h6⟩, h7⟩, h8⟩, h9⟩, h10⟩, h11⟩, h12⟩, h13⟩, h14⟩, h15⟩, h16⟩, h17⟩, h18⟩, h19⟩ := h
  have hn : ∀ o : Option MDef, (!o.isSome) = true → o = none := fun o h => by cases o with | none => rfl | some _ => cases h
  refine
    { drvId := h1, headers := h2, fileT := h3, ver := h4, max := h5, fresh := h6, num := fun w hw => lookup_num (fun p hp => ?_) hw, code := h8, flag := fun f => ?_, mono := ?_,
      user := ⟨⟨h11, hookB_sound h12⟩, ⟨h13, hookB_sound h14⟩, numB_sound h15, numB_sound h16⟩, fmon := fun q => ?_, text := h18, frame := fun m hm hne => ?_ }
  · have := h7 p hp
    simpa using this
  · have := h9 f (mem_allFlags f)
    rw [Bool.or_eq_true] at this
    exact this.imp id (hn _)
  · rw [Bool.or_eq_true] at h10
    exact h10.imp id (hn _)
  · rw [Bool.or_eq_true] at h17
    rcases h17 with h17 | h17
    · rw [q] at h17
      cases h17
    · simp only [Bool.and_eq_true, decide_eq_true_eq] at h17
      exact h17
  · have := h19 m hm
    rw [hne] at this
    exact frameB_sound this

theorem driverB_sound {drv : Str} {file : Source} {hi lo maxDlc : Nat} {msgs : List Msg} {D0 : Defs} {tick hash : Hook} {maxW initW : Str}
    (h : driverB drv file hi lo maxDlc msgs D0 tick hash maxW initW = true) : DriverOk drv file hi lo maxDlc msgs D0 tick hash maxW initW := by
  unfold driverB at h
  rw [Bool.and_eq_true, decide_eq_true_eq] at h
  exact ⟨readB_sound h.1, h.2⟩

end Verif
