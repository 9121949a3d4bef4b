import Verif.Proofs.MsgDefs
import Verif.Proofs.MemRead
/-
The whole generated header, read by the preprocessor and the C parser: macros, structs, prototypes.
-/
namespace Verif
open Spec

variable {files : List (Str × Str)} {D D0 E : Defs} {g : GenDesc} {m : Msg}

/-! ### What is needed of the names holds for fewer macros -/

theorem Nm.sub {k : Nat} {n : Str} (h : Nm E k n) (s : Sub D E) : Nm D k n := ⟨h.id, h.len, s.none h.mac⟩

theorem FieldOk.sub {x : Sig} (h : FieldOk E x) (s : Sub D E) : FieldOk D x :=
  ⟨h.name.sub s, fun q => (h.flt q).sub s, h.bit, h.unit, h.comment, h.value⟩

theorem StructOk.sub (h : StructOk E m) (s : Sub D E) : StructOk D m :=
  ⟨fun x hx => (h.sig x hx).sub s, fun r hr => (h.roll r hr).sub s⟩

theorem FnNames.sub (h : FnNames g m E) (s : Sub D E) : FnNames g m D := ⟨h.drv, s.none h.unpack, s.none h.pack, s.none h.type⟩

theorem HeadOk.flagEq (h : HeadOk g files D0 E) (s1 : Sub D0 D) (s2 : Sub D E) (f : Flag) :
    (D.lookup (flagName g f)).isSome = (E.lookup (flagName g f)).isSome := by
  rcases h.flag f with h | h
  · rw [s1.isSome h, s2.isSome (s1.isSome h)]
  · rw [h, s2.none h]

/-! ### Prototypes -/

theorem GItems.proto {a : List WOp} {t n : Str} {inside : List Tok} {ps : List Param}
    (hc : ∀ r, closeArgs 0 (inside ++ .p [')'] :: r) = some (inside, r)) (hp : optAll ((splitArgs 0 inside []).map parseParam) = some ps)
    (h : Gen files a D D (.word t :: .word n :: .p ['('] :: (inside ++ [.p [')'], .p [';']]))) : GItems files a D D [.proto t n ps] :=
  ⟨_, h, PItems.proto hc hp⟩

theorem proto_unpack (hB : Base D) (hn : IsIdent m.name ∧ m.name.length ≤ 500) (h : FnNames g m D) :
    GItems files [.appendF (unpackSig g m ++ ";".toList)] D D [.proto "uint32_t".toList (unpackName g m) (unpackParams m)] :=
  GItems.proto unpackClose (unpackParams_ok (m := m)) <|
  Gen.lineT [.l "uint32_t ", .w (unpackName g m), .l "(", .w (typeName m), .l "* _m, const uint8_t* _d, uint8_t dlc_);"]
    (by unfold unpackSig unpackName typeName; seg_eqc) ⟨(h.unpackW hn).1, (typeW hn).1, trivial⟩ trivial ⟨(h.unpackW hn).2, (typeW hn).2, trivial⟩
    (by seg_len)
    ((hB.lit [] "uint32_t ").append ((ExpP.name h.unpack).append ((hB.lit [] "(").append ((ExpP.name h.type).append
      (hB.lit [] "* _m, const uint8_t* _d, uint8_t dlc_);"))))) rfl rfl

theorem proto_packS (hB : Base D) (hn : IsIdent m.name ∧ m.name.length ≤ 500) (h : FnNames g m D) :
    GItems files [.appendF (packStructSig g m ++ ";".toList)] D D [.proto "uint32_t".toList (packName g m) (packParams true m)] :=
  GItems.proto packSClose (packSParams_ok (m := m)) <|
  Gen.lineT [.l "uint32_t ", .w (packName g m), .l "(", .w (typeName m), .l "* _m, __CoderDbcCanFrame_t__* cframe);"]
    (by unfold packStructSig packName typeName; seg_eqc) ⟨(h.packW hn).1, (typeW hn).1, trivial⟩ trivial ⟨(h.packW hn).2, (typeW hn).2, trivial⟩
    (by seg_len)
    ((hB.lit [] "uint32_t ").append ((ExpP.name h.pack).append ((hB.lit [] "(").append ((ExpP.name h.type).append
      (hB.lit [] "* _m, __CoderDbcCanFrame_t__* cframe);"))))) rfl rfl

theorem proto_packA (hB : Base D) (hn : IsIdent m.name ∧ m.name.length ≤ 500) (h : FnNames g m D) :
    GItems files [.appendF (packArraySig g m ++ ";".toList)] D D [.proto "uint32_t".toList (packName g m) (packParams false m)] :=
  GItems.proto packAClose (packAParams_ok (m := m)) <|
  Gen.lineT [.l "uint32_t ", .w (packName g m), .l "(", .w (typeName m), .l "* _m, uint8_t* _d, uint8_t* _len, uint8_t* _ide);"]
    (by unfold packArraySig packName typeName; seg_eqc) ⟨(h.packW hn).1, (typeW hn).1, trivial⟩ trivial ⟨(h.packW hn).2, (typeW hn).2, trivial⟩
    (by seg_len)
    ((hB.lit [] "uint32_t ").append ((ExpP.name h.pack).append ((hB.lit [] "(").append ((ExpP.name h.type).append
      (hB.lit [] "* _m, uint8_t* _d, uint8_t* _len, uint8_t* _ide);"))))) rfl rfl

/-- The prototypes of a message. -/
def protoItems (g : GenDesc) (frame : Bool) (m : Msg) : List Spec.Item :=
  if m.frameNotEmpty then
    [.proto "uint32_t".toList (unpackName g m) (unpackParams m), .proto "uint32_t".toList (packName g m) (packParams frame m)]
  else []

theorem protos_read (hB : Base D) (hfw : IsWord g.usestruct ∧ g.usestruct.length ≤ 1100) (hn : IsIdent m.name ∧ m.name.length ≤ 500)
    (h : m.frameNotEmpty = true → FnNames g m D) :
    GItems files (prototypeOps g m) D D (protoItems g (D.lookup g.usestruct).isSome m) := by
  unfold prototypeOps protoItems
  split
  · rename_i hne
    have h := h hne
    have gP : GItems files ([opIfdef g.usestruct] ++ [.appendF (packStructSig g m ++ ";".toList)] ++ [opLine "#else"] ++
        [.appendF (packArraySig g m ++ ";".toList)] ++ [opEndif g.usestruct]) D D
        [.proto "uint32_t".toList (packName g m) (packParams (D.lookup g.usestruct).isSome m)] := by
      have gS := proto_packS (files := files) hB hn h
      have gA := proto_packA (files := files) hB hn h
      have hl : g.usestruct.length ≤ 9000 := by omega
      cases hd : (D.lookup g.usestruct).isSome with
      | true =>
        obtain ⟨us, q1, q2⟩ := gS
        exact ⟨us, Gen.elseT hfw.1 hl hd (closeOp_comment hfw.1 hl) q1 gA.skip, q2⟩
      | false =>
        obtain ⟨us, q1, q2⟩ := gA
        exact ⟨us, Gen.elseF hfw.1 hl hd (closeOp_comment hfw.1 hl) gS.skip q1, q2⟩
    exact (proto_unpack hB hn h).cons (gP.append (GItems.silent Gen.empty))
  · exact GItems.nil

/-! ### The header -/

/-- What is needed of a message for reading the header. -/
structure HdrMsg (g : GenDesc) (E : Defs) (m : Msg) : Prop where
  text : MsgText m
  sig : m.frameNotEmpty = true → ∀ s ∈ m.signals, ConvOk s ∧ ValsText s
  struct : m.frameNotEmpty = true → StructOk E m
  members : m.frameNotEmpty = true → ((structMembers (fun f => (E.lookup (flagName g f)).isSome) m).map (·.1)).Nodup
  fn : m.frameNotEmpty = true → FnNames g m E

/-- The macros of the messages. -/
def hdrDefs (g : GenDesc) : List Msg → List Str → List DefE
  | [], _ => []
  | m :: r, seen =>
    if m.frameNotEmpty then msgDefs m ++ sigDefs g m m.signals seen ++ hdrDefs g r (seenAfter m.signals seen)
    else msgDefs m ++ hdrDefs g r seen

/-- The structs of the messages. -/
def structItems (flag : Flag → Bool) (m : Msg) : List Spec.Item :=
  if m.frameNotEmpty then [.struct (typeName m) (structMembers flag m)] else []

theorem headerMsgs_read (hd : HeadOk g files D0 E) {msgs : List Msg} (hm : ∀ m ∈ msgs, HdrMsg g E m) {seen : List Str} {ops : List WOp}
    (ho : headerMsgOps g msgs seen = some ops) :
    HP files D0 E ops (hdrDefs g msgs seen) (msgs.flatMap (structItems fun f => (E.lookup (flagName g f)).isSome)) := by
  induction msgs generalizing seen ops with
  | nil =>
    have e : ops = [] := (Option.some.inj ho).symm
    subst e
    exact HP.nil
  | cons m r ih =>
    have h := hm m (by simp)
    have hr : ∀ x ∈ r, HdrMsg g E x := fun x hx => hm x (by simp [hx])
    have hc : HP files D0 E (msgConstOps m) (msgDefs m) [] := msgConst_read h.text
    unfold headerMsgOps at ho
    unfold hdrDefs
    rw [List.flatMap_cons]
    unfold structItems
    cases hne : m.frameNotEmpty with
    | false =>
      rw [hne, if_neg Bool.false_ne_true] at ho
      rw [if_neg Bool.false_ne_true, if_neg Bool.false_ne_true]
      obtain ⟨b, hb, rfl⟩ := Option.map_eq_some_iff.1 ho
      have := hc.append (HP.pre (fun D => Gen.empty) (ih hr hb))
      exact this.eqO (by simp)
    | true =>
      rw [hne, if_pos rfl] at ho
      rw [if_pos rfl, if_pos rfl]
      obtain ⟨mac, h1, ho⟩ := Option.bind_eq_some_iff.1 ho
      obtain ⟨st, h2, ho⟩ := Option.bind_eq_some_iff.1 ho
      obtain ⟨b, hb, rfl⟩ := Option.map_eq_some_iff.1 ho
      obtain ⟨s1, s2⟩ := sigMacro_read (files := files) (D0 := D0) (E := E) hd.drvUp h.text.name (h.sig hne) h1
      rw [s2] at hb
      have hs : HP files D0 E st [] [.struct (typeName m) (structMembers (fun f => (E.lookup (flagName g f)).isSome) m)] := by
        refine HP.items fun D q1 q2 => ?_
        have ef : (fun f => (D.lookup (flagName g f)).isSome) = fun f => (E.lookup (flagName g f)).isSome := funext fun f => hd.flagEq q1 q2 f
        have := struct_read (files := files) (q2.base hd.base) hd.flagW h.text.name (q2.none (h.fn hne).type) ((h.struct hne).sub q2) h2
          (by rw [ef]; exact h.members hne)
        rw [ef] at this
        exact this
      have := ((hc.append s1).append hs).append (ih hr hb)
      refine (this.eqD ?_).eqI ?_
      · simp
      · rfl

/-- The macros of the whole header. -/
def headerDefs (g : GenDesc) (maxDlc : Nat) (msgs : List Msg) : List DefE := startDefs g maxDlc ++ hdrDefs g msgs []

/-- Structs and prototypes of the whole header. -/
def headerItems (g : GenDesc) (flag : Flag → Bool) (msgs : List Msg) : List Spec.Item :=
  msgs.flatMap (structItems flag) ++ msgs.flatMap (protoItems g (flag .useCanStruct))

/-- The header behind the monitor struct. -/
theorem headerRest_read (hd : HeadOk g files D0 E) {maxDlc : Nat} (hx : maxDlc < 2 ^ 64) {msgs : List Msg} (hm : ∀ m ∈ msgs, HdrMsg g E m) {ms : List WOp}
    (h1 : headerMsgOps g msgs [] = some ms) :
    HP files D0 E (headB g maxDlc ++ ms ++ headerEndOps g msgs) (limitDefs g maxDlc ++ hdrDefs g msgs []) (headerItems g (fun f => (E.lookup (flagName g f)).isSome) msgs) := by
  have a := headB_read hd hx
  have b := headerMsgs_read hd hm h1
  have p : HP files D0 E (msgs.flatMap (prototypeOps g)) (msgs.flatMap fun _ => []) (msgs.flatMap (protoItems g (E.lookup g.usestruct).isSome)) := by
    refine HP.flatMap fun m hmm => HP.items fun D q1 q2 => ?_
    have := protos_read (files := files) (q2.base hd.base) (hd.flagW .useCanStruct) (hm m hmm).text.name (fun hne => ((hm m hmm).fn hne).sub q2)
    have ef := hd.flagEq q1 q2 .useCanStruct
    have ef : (D.lookup g.usestruct).isSome = (E.lookup g.usestruct).isSome := ef
    rw [ef] at this
    exact this
  have c : HP files D0 E [opLine "#ifdef __cplusplus\n}\n#endif"] [] [] := HP.quiet fun D _ s => gen_cppClose (s.none hd.cpp)
  have e : HP files D0 E (headerEndOps g msgs) _ _ := HP.pre (gen_cmt _ (by decide)) <| HP.pre (fun D => Gen.empty) <| p.append c
  refine (((a.append b).append e).eqD ?_).eqI ?_
  · simp
  · unfold headerItems flagName
    simp

theorem header_read (hd : HeadOk g files D0 E) {maxDlc : Nat} (hx : maxDlc < 2 ^ 64) {msgs : List Msg} (hm : ∀ m ∈ msgs, HdrMsg g E m) {ops : List WOp}
    (ho : mainHeaderOps g maxDlc msgs = some ops) :
    HP files D0 E ops (headerDefs g maxDlc msgs) (headerItems g (fun f => (E.lookup (flagName g f)).isSome) msgs) := by
  unfold mainHeaderOps at ho
  obtain ⟨ms, h1, rfl⟩ := Option.map_eq_some_iff.1 ho
  have := (headA_read (D0 := D0) hd hd.stdint).append <| HP.pre (configInc_read hd) <| HP.pre (fun D => Gen.empty) <| (headMon_read hd).append (headerRest_read hd hx hm h1)
  refine (this.eqO ?_)
  rw [headerStart_eq]
  simp only [List.append_assoc, List.cons_append]

end Verif
