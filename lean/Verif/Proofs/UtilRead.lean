import Verif.Proofs.UtilText
/-
The generated util files: declarations of the header and of the source file.
-/
namespace Verif
open Spec

variable {files : List (Str × Str)} {D D' D0 : Defs} {u : UtilDesc} {rx tx : List Msg}

/-! ### Declarations -/

theorem PItems.var (t n : Str) : PItems [.word t, .word n, .p [';']] [.var false t n] :=
  PItems.one (by simp) fun r => ⟨0, fun f _ => rfl⟩

theorem PItems.extern (t n : Str) : PItems [.word "extern".toList, .word t, .word n, .p [';']] [.var true t n] :=
  PItems.one (by simp) fun r => ⟨0, fun f _ => by
    show parseItem f (.word "extern".toList :: .word t :: .word n :: .p [';'] :: r) = _
    rw [parseItem]
    exact if_pos rfl⟩

theorem GItems.ifdef {a : List WOp} {n : Str} {y : WOp} {l : List Spec.Item} (h : IsWord n) (hn : n.length ≤ 9000) (hy : CloseOp files y) (ha : GItems files a D D l) :
    GItems files ([opIfdef n] ++ a ++ [y]) D D (if (D.lookup n).isSome then l else []) := by
  cases hd : (D.lookup n).isSome with
  | true =>
    obtain ⟨us, g, p⟩ := ha
    exact ⟨us, Gen.ifdefT h hn hd hy g, p⟩
  | false => exact GItems.silent (Gen.ifdefF h hn hd hy ha.skip)

theorem GItems.quiet {a b : List WOp} {l : List Spec.Item} (h1 : Gen files a D D []) (h2 : GItems files b D D' l) : GItems files (a ++ b) D D' l :=
  (GItems.silent h1).append h2

theorem GItems.quiets {x : WOp} {b : List WOp} {l : List Spec.Item} (h1 : Gen files [x] D D []) (h2 : GItems files b D D' l) : GItems files (x :: b) D D' l :=
  GItems.quiet h1 h2

theorem GItems.blank {a : List WOp} {l : List Spec.Item} (h : GItems files a D D' l) : GItems files (a ++ [opEmpty]) D D' l := by
  have := h.append (GItems.silent (Gen.empty (files := files)))
  rwa [List.append_nil] at this

/-! ### Names -/

/-- Names of the util files. -/
def utilName (u : UtilDesc) (s : String) : Str := u.name ++ s.toList

/-- The macro that turns on the variables. -/
def defName (u : UtilDesc) : Str := "__DEF_".toList ++ u.NAME ++ "__".toList

/-- What reading the util files needs; `D`: macros behind the main header. -/
structure UtilOk (u : UtilDesc) (D : Defs) (rx tx : List Msg) : Prop where
  base : UBase D
  cpp : D.lookup "__cplusplus".toList = none
  drv : IsIdent u.drv ∧ u.drv.length ≤ 500
  name : IsIdent u.name ∧ u.name.length ≤ 1000
  NAME : IsIdent u.NAME ∧ u.NAME.length ≤ 1000
  own : ∀ s ∈ ["_rx_t", "_tx_t", "_rx", "_tx", "_Receive"], D.lookup (utilName u s) = none
  msg : ∀ m ∈ rx ++ tx, (IsIdent m.name ∧ m.name.length ≤ 500) ∧ D.lookup m.name = none ∧ D.lookup (typeName m) = none ∧ typeNames.lookup (typeName m) = none
  call : ∀ m ∈ rx, D.lookup (callName u.drv m) = none
  rxNames : (rx.map (·.name)).Nodup
  txNames : (tx.map (·.name)).Nodup

theorem UtilOk.ownW (h : UtilOk u D rx tx) {s : String} (hs : ∀ c ∈ s.toList, isWordCh c = true) (hl : s.toList.length ≤ 20) :
    IsWord (utilName u s) ∧ (utilName u s).length ≤ 1100 := by
  have h1 := words_of_ident h.name.1
  refine ⟨⟨?_, fun c hc => ?_⟩, ?_⟩
  · intro e
    exact h1.1 (List.append_eq_nil_iff.1 e).1
  · rcases List.mem_append.1 hc with hc | hc
    · exact h1.2 c hc
    · exact hs c hc
  · have := h.name.2
    unfold utilName
    rw [List.length_append]
    omega

theorem UtilOk.defW (h : UtilOk u D rx tx) : IsWord (defName u) ∧ (defName u).length ≤ 1100 := by
  have h1 := words_of_ident h.NAME.1
  have h0 : ∀ c ∈ "__DEF_".toList, isWordCh c = true := by decide
  have h2 : ∀ c ∈ "__".toList, isWordCh c = true := by decide
  refine ⟨⟨?_, fun c hc => ?_⟩, ?_⟩
  · intro e
    exact h1.1 (List.append_eq_nil_iff.1 (List.append_eq_nil_iff.1 e).1).2
  · rcases List.mem_append.1 hc with hc | hc
    · rcases List.mem_append.1 hc with hc | hc
      · exact h0 c hc
      · exact h1.2 c hc
    · exact h2 c hc
  · have := h.NAME.2
    unfold defName
    rw [List.length_append, List.length_append]
    have e1 : "__DEF_".toList.length = 6 := rfl
    have e2 : "__".toList.length = 2 := rfl
    omega

/-! ### Structs -/

/-- Members of the struct of mapped messages. -/
def mapMembers (ms : List Msg) : List (Str × MTy) := ms.map fun m => (m.name, .named (typeName m))

theorem memTy_named {t : Str} (h : typeNames.lookup t = none) : memTy t = .named t := by
  unfold memTy
  rw [h]

theorem utilMember (h : UtilOk u D rx tx) {m : Msg} (hm : m ∈ rx ++ tx) :
    GMem files D [.appendF ("  ".toList ++ m.name ++ "_t ".toList ++ m.name ++ ";".toList)] [(m.name, .named (typeName m))] := by
  obtain ⟨h1, h2, h3, h4⟩ := h.msg m hm
  have hw := words_of_ident h1.1
  refine ⟨_, Gen.lineT (ts := lex "  ".toList ++ ([.word (typeName m)] ++ (lex " ".toList ++ ([.word m.name] ++ lex ";".toList)))) [.l "  ", .w (typeName m), .l " ", .w m.name, .l ";"] (by unfold typeName; seg_eqc) ⟨(typeW h1).1, hw, trivial⟩ trivial
    ⟨(typeW h1).2, by have := h1.2; omega, trivial⟩ (by seg_len)
    ((h.base.lit "  ").append ((ExpP.name h3).append ((h.base.lit " ").append ((ExpP.name h2).append (h.base.lit ";"))))) rfl rfl, ?_⟩
  have := PMem.plain (t := typeName m) (n := m.name) (by rw [h4]; intro e; cases e)
  rw [memTy_named h4] at this
  exact this

theorem utilMembers (h : UtilOk u D rx tx) {ms : List Msg} (hm : ∀ m ∈ ms, m ∈ rx ++ tx) :
    GMem files D (ms.map (fun m => .appendF ("  ".toList ++ m.name ++ "_t ".toList ++ m.name ++ ";".toList))) (mapMembers ms) := by
  induction ms with
  | nil => exact GMem.nil
  | cons m r ih => exact (utilMember h (hm m (by simp))).append (ih fun x hx => hm x (by simp [hx]))

theorem gen_typedef (hB : Base D) : Gen files [opLine "typedef struct\n{"] D D [.word "typedef".toList, .word "struct".toList, .p ['{']] := by
  have g1 : Gen files [.appendF "typedef struct".toList] D D [.word "typedef".toList, .word "struct".toList] := by
    refine Gen.lineT [.l "typedef ", .w "struct".toList] (by seg_eqc) ⟨⟨by decide, by decide⟩, trivial⟩ trivial ⟨by decide, trivial⟩ (by seg_len)
      ((hB.lit [] "typedef ").append ((ExpP.name (hB.code _ (by decide))).append ExpP.nil)) rfl rfl
  exact Gen.nl g1 (gen_open (files := files)) (by decide) (by decide) (by decide)

theorem utilStruct (h : UtilOk u D rx tx) {ms : List Msg} (hm : ∀ m ∈ ms, m ∈ rx ++ tx) (hn : (ms.map (·.name)).Nodup) {dir : Str} {s : String}
    (hs : "_".toList ++ dir ++ "_t".toList = s.toList) (hc : ∀ c ∈ s.toList, isWordCh c = true) (hl : s.toList.length ≤ 20) (ho : D.lookup (utilName u s) = none) :
    GItems files (utilStructOps u dir ms) D D [.struct (utilName u s) (mapMembers ms)] := by
  obtain ⟨us, g, p⟩ := utilMembers (files := files) h hm
  have hw := h.ownW hc hl
  have gc : Gen files [.appendF ("} ".toList ++ u.name ++ "_".toList ++ dir ++ "_t;".toList)] D D [.p ['}'], .word (utilName u s), .p [';']] := by
    have e : "} ".toList ++ u.name ++ "_".toList ++ dir ++ "_t;".toList = "} ".toList ++ utilName u s ++ ";".toList := by
      unfold utilName
      rw [← hs]
      simp only [List.append_assoc]
      rfl
    rw [e]
    exact Gen.lineT [.l "} ", .w (utilName u s), .l ";"] (by seg_eqc) ⟨hw.1, trivial⟩ trivial ⟨hw.2, trivial⟩ (by seg_len)
      ((h.base.lit "} ").append ((ExpP.name ho).append (h.base.lit ";"))) rfl rfl
  refine ⟨_, (gen_typedef h.base.toBase).append (g.append (gc.append (Gen.empty (files := files)))), ?_⟩
  rw [List.append_nil]
  refine PItems.struct p ?_
  rw [mapMembers, List.map_map]
  exact hn

/-! ### The receive function -/

def recvInside (t : Str) (m d i c : String) : List Tok :=
  [.word t, .p ['*'], .word m.toList, .p [','], .word "const".toList, .word "uint8_t".toList, .p ['*'], .word d.toList, .p [','],
   .word "uint32_t".toList, .word i.toList, .p [','], .word "uint8_t".toList, .word c.toList]

def recvParams (t : Str) (m d i c : String) : List Param :=
  [⟨t, true, m.toList⟩, ⟨"uint8_t".toList, true, d.toList⟩, ⟨"uint32_t".toList, false, i.toList⟩, ⟨"uint8_t".toList, false, c.toList⟩]

theorem recvParams_ok (t : Str) (m d i c : String) : optAll ((splitArgs 0 (recvInside t m d i c) []).map parseParam) = some (recvParams t m d i c) := rfl
theorem recvClose (t : Str) (m d i c : String) (r : List Tok) : closeArgs 0 (recvInside t m d i c ++ .p [')'] :: r) = some (recvInside t m d i c, r) := rfl

/-- Type of the struct of received messages. -/
def rxType (u : UtilDesc) : Str := utilName u "_rx_t"
/-- Type of the struct of sent messages. -/
def txType (u : UtilDesc) : Str := utilName u "_tx_t"
/-- Name of the receive function. -/
def recvName (u : UtilDesc) : Str := utilName u "_Receive"

theorem recv_proto (h : UtilOk u D rx tx) : GItems files
    [.appendF ("uint32_t ".toList ++ u.name ++ "_Receive(".toList ++ u.name ++ "_rx_t* m, const uint8_t* d, uint32_t msgid, uint8_t dlc);".toList)] D D
    [.proto "uint32_t".toList (recvName u) (recvParams (rxType u) "m" "d" "msgid" "dlc")] := by
  have w1 := h.ownW (s := "_Receive") (by decide) (by decide)
  have w2 := h.ownW (s := "_rx_t") (by decide) (by decide)
  exact GItems.proto (recvClose _ _ _ _ _) (recvParams_ok _ _ _ _ _) <|
    Gen.lineT [.l "uint32_t ", .w (recvName u), .l "(", .w (rxType u), .l "* m, const uint8_t* d, uint32_t msgid, uint8_t dlc);"]
    (by unfold recvName rxType utilName; seg_eqc) ⟨w1.1, w2.1, trivial⟩ trivial ⟨w1.2, w2.2, trivial⟩ (by seg_len)
    ((h.base.lit "uint32_t ").append ((ExpP.name (h.own "_Receive" (by decide))).append ((h.base.lit "(").append ((ExpP.name (h.own "_rx_t" (by decide))).append
      (h.base.lit "* m, const uint8_t* d, uint32_t msgid, uint8_t dlc);"))))) rfl rfl

/-- Body of the receive function. -/
def recvBody (drv : Str) (t : CTree) : List CStm :=
  .decl "uint32_t".toList "recid".toList (some (.num "0".toList)) :: (treeStms drv t ++ [.ret (.id "recid".toList)])

/-- The receive function. -/
def recvFunc (u : UtilDesc) (t : CTree) : Func :=
  ⟨"uint32_t".toList, recvName u, recvParams (rxType u) "_m" "_d" "_id" "dlc_", seqs (recvBody u.drv t) .skip⟩

theorem PStm.declInit {t n : Str} {ts : List Tok} {e : PExpr} (ht : isType t = true) (h : PA topLevel ts e) :
    PStm (.word t :: .word n :: .p ['='] :: (ts ++ [.p [';']])) (.decl t n (some e)) := by
  intro r
  obtain ⟨F, hF⟩ := h.exprThen (p := [';']) (by decide) (by decide) r
  refine ⟨F + 1, fun f hf => ?_⟩
  obtain ⟨k, rfl⟩ : ∃ k, f = k + 1 := ⟨f - 1, by omega⟩
  have hF := hF k (by omega)
  have h1 : t ≠ "return".toList ∧ t ≠ "for".toList ∧ t ≠ "if".toList := by
    refine ⟨?_, ?_, ?_⟩ <;> · rintro rfl; revert ht; decide
  show parseStm (k + 1) false (.word t :: .word n :: .p ['='] :: ((ts ++ [.p [';']]) ++ r)) = _
  rw [List.append_assoc]
  unfold parseStm
  simp only [h1.1, h1.2.1, h1.2.2, if_false, ht, if_true]
  show Option.map _ (Spec.exprThen k [';'] (ts ++ .p [';'] :: r)) = _
  rw [hF]
  rfl

theorem writeCode_ne {t : CTree} (h : t ≠ .null) (i : Nat) : writeCode t i ≠ [] := by
  cases t with
  | null => exact absurd rfl h
  | cond c a b => rw [writeCode.eq_def]; simp
  | express c m => simp [writeCode]
  | single m => simp [writeCode]

theorem recv_func (h : UtilOk u D rx tx) {t : CTree} (ht : t ≠ .null) (hm : ∀ m ∈ treeMsgs t, m ∈ rx) : GItems files
    [.appendF ("uint32_t ".toList ++ u.name ++ "_Receive(".toList ++ u.name ++ "_rx_t* _m, const uint8_t* _d, uint32_t _id, uint8_t dlc_)".toList),
       opLine "{", opLine " uint32_t recid = 0;", .append (printCode u.drv (writeCode t 1)), opEmpty, opLine " return recid;", opLine "}", opEmpty] D D
    [.func (recvFunc u t)] := by
  have w1 := h.ownW (s := "_Receive") (by decide) (by decide)
  have w2 := h.ownW (s := "_rx_t") (by decide) (by decide)
  have g1 : Gen files [.appendF ("uint32_t ".toList ++ u.name ++ "_Receive(".toList ++ u.name ++ "_rx_t* _m, const uint8_t* _d, uint32_t _id, uint8_t dlc_)".toList)] D D
      (.word "uint32_t".toList :: .word (recvName u) :: .p ['('] :: (recvInside (rxType u) "_m" "_d" "_id" "dlc_" ++ [.p [')']])) :=
    Gen.lineT [.l "uint32_t ", .w (recvName u), .l "(", .w (rxType u), .l "* _m, const uint8_t* _d, uint32_t _id, uint8_t dlc_)"]
    (by unfold recvName rxType utilName; seg_eqc) ⟨w1.1, w2.1, trivial⟩ trivial ⟨w1.2, w2.2, trivial⟩ (by seg_len)
    ((h.base.lit "uint32_t ").append ((ExpP.name (h.own "_Receive" (by decide))).append ((h.base.lit "(").append ((ExpP.name (h.own "_rx_t" (by decide))).append
      (h.base.lit "* _m, const uint8_t* _d, uint32_t _id, uint8_t dlc_)"))))) rfl rfl
  have g2 : Gen files [opLine " uint32_t recid = 0;"] D D [.word "uint32_t".toList, .word "recid".toList, .p ['='], .word "0".toList, .p [';']] :=
    Gen.lineT [.l " uint32_t recid = 0;"] (by seg_eqc) trivial trivial trivial (by seg_len) ((h.base.lit " uint32_t recid = 0;").append ExpP.nil) rfl rfl
  have g3 : Gen files [.append (printCode u.drv (writeCode t 1))] D D (treeToks u.drv t 1) :=
    (lines_text h.base h.drv.1 _ fun p hp m hm' => by
      have := hm m (writeCode_msgs t 1 p hp m hm')
      exact ⟨(h.msg m (List.mem_append_left _ this)).1.1, (h.msg m (List.mem_append_left _ this)).2.1, h.call m this⟩).gen (printCode_last _ (writeCode_ne ht 1))
  have g4 : Gen files [opLine " return recid;"] D D [.word "return".toList, .word "recid".toList, .p [';']] :=
    Gen.lineT [.l " return recid;"] (by seg_eqc) trivial trivial trivial (by seg_len) ((h.base.lit " return recid;").append ExpP.nil) rfl rfl
  have p2 := PSeq.one (by rfl) (PStm.declInit (t := "uint32_t".toList) (n := "recid".toList) (by decide) ((PA.numW (w := "0".toList) ⟨rfl, by decide⟩).pa topLevel))
  have p4 := PSeq.one (by rfl) (PStm.ret ((PA.ident (w := "recid".toList) rfl).pa topLevel))
  have p3 := (tree_parse u.drv t 1).thenSeq p4 (fun r q e => by
    injection e with e1 _
    injection e1 with e1
    exact absurd e1 (by decide))
  have hb : GenS files D ([opLine " uint32_t recid = 0;"] ++ ([.append (printCode u.drv (writeCode t 1))] ++ ([opEmpty] ++ [opLine " return recid;"]))) (recvBody u.drv t) :=
    ⟨_, g2.append (g3.append ((Gen.empty (files := files)).append g4)), p2.append p3⟩
  have ha : Gen files ([.appendF ("uint32_t ".toList ++ u.name ++ "_Receive(".toList ++ u.name ++ "_rx_t* _m, const uint8_t* _d, uint32_t _id, uint8_t dlc_)".toList)] ++ [opLine "{"]) D D
      (.word "uint32_t".toList :: .word (recvName u) :: .p ['('] :: (recvInside (rxType u) "_m" "_d" "_id" "dlc_" ++ [.p [')'], .p ['{']])) :=
    (g1.append (gen_open (files := files))).eq (by simp)
  have hc : Gen files ([opLine "}"] ++ [opEmpty]) D D [.p ['}']] := gen_close.append (Gen.empty (files := files))
  exact GItems.func ha hb hc (recvClose _ _ _ _ _) (recvParams_ok _ _ _ _ _)

/-! ### The header -/

/-- Declarations for the mapped messages of the util header. -/
def utilDecls (u : UtilDesc) (rx tx : List Msg) : List Spec.Item :=
  (if rx.length = 0 then [] else [.struct (rxType u) (mapMembers rx)]) ++ (if tx.length = 0 then [] else [.struct (txType u) (mapMembers tx)]) ++
  (if rx.length > 0 then [.proto "uint32_t".toList (recvName u) (recvParams (rxType u) "m" "d" "msgid" "dlc")] else [])

/-- The variables, as declared in the header (`ext`) or defined in the source file. -/
def utilVars (u : UtilDesc) (ext : Bool) (rx tx : List Msg) : List Spec.Item :=
  (if rx.length > 0 then [.var ext (rxType u) (utilName u "_rx")] else []) ++ (if tx.length > 0 then [.var ext (txType u) (utilName u "_tx")] else [])

/-- What the util header declares. -/
def utilHeaderItems (u : UtilDesc) (D : Defs) (rx tx : List Msg) : List Spec.Item :=
  utilDecls u rx tx ++ (if (D.lookup (defName u)).isSome then utilVars u true rx tx else [])

theorem util_extern (h : UtilOk u D rx tx) {t v : String} (ht : ∀ c ∈ t.toList, isWordCh c = true) (hv : ∀ c ∈ v.toList, isWordCh c = true)
    (hl : t.toList.length ≤ 20 ∧ v.toList.length ≤ 20) (ho : D.lookup (utilName u t) = none ∧ D.lookup (utilName u v) = none) :
    GItems files [.appendF ("extern ".toList ++ utilName u t ++ " ".toList ++ utilName u v ++ ";".toList)] D D [.var true (utilName u t) (utilName u v)] := by
  have w1 := h.ownW ht hl.1
  have w2 := h.ownW hv hl.2
  refine ⟨_, Gen.lineT [.l "extern ", .w (utilName u t), .l " ", .w (utilName u v), .l ";"] (by seg_eqc) ⟨w1.1, w2.1, trivial⟩ trivial ⟨w1.2, w2.2, trivial⟩ (by seg_len)
    ((h.base.lit "extern ").append ((ExpP.name ho.1).append ((h.base.lit " ").append ((ExpP.name ho.2).append (h.base.lit ";"))))) rfl rfl, PItems.extern _ _⟩

theorem util_var (h : UtilOk u D rx tx) {t v : String} (ht : ∀ c ∈ t.toList, isWordCh c = true) (hv : ∀ c ∈ v.toList, isWordCh c = true)
    (hl : t.toList.length ≤ 20 ∧ v.toList.length ≤ 20) (ho : D.lookup (utilName u t) = none ∧ D.lookup (utilName u v) = none) :
    GItems files [.appendF (utilName u t ++ " ".toList ++ utilName u v ++ ";".toList)] D D [.var false (utilName u t) (utilName u v)] := by
  have w1 := h.ownW ht hl.1
  have w2 := h.ownW hv hl.2
  refine ⟨_, Gen.lineT [.w (utilName u t), .l " ", .w (utilName u v), .l ";"] (by seg_eqc) ⟨w1.1, w2.1, trivial⟩ trivial ⟨w1.2, w2.2, trivial⟩ (by seg_len)
    ((ExpP.name ho.1).append ((h.base.lit " ").append ((ExpP.name ho.2).append (h.base.lit ";")))) rfl rfl, PItems.var _ _⟩

theorem GItems.of {a : List WOp} {c : Prop} [Decidable c] {k : List Spec.Item} (h : c → GItems files a D D k) : GItems files (if c then a else []) D D (if c then k else []) := by
  by_cases hc : c
  · rw [if_pos hc, if_pos hc]
    exact h hc
  · rw [if_neg hc, if_neg hc]
    exact GItems.silent Gen.nil

/-- A part guarded by the macro for the variables. -/
theorem util_guard (h : UtilOk u D rx tx) {a : List WOp} {k : List Spec.Item} (ha : GItems files a D D k) :
    GItems files ([.appendF ("#ifdef __DEF_".toList ++ u.NAME ++ "__".toList), opEmpty] ++ a ++ [.appendF ("#endif // __DEF_".toList ++ u.NAME ++ "__".toList), opEmpty]) D D
      (if (D.lookup (defName u)).isSome then k else []) := by
  have w := h.defW
  have hl : (defName u).length ≤ 9000 := Nat.le_trans w.2 (by decide)
  have g := (GItems.ifdef w.1 hl (closeOp_comment (files := files) w.1 hl) (GItems.quiets Gen.empty ha)).blank
  have e1 : (.appendF ("#ifdef __DEF_".toList ++ u.NAME ++ "__".toList) : WOp) = opIfdef (defName u) := by
    unfold opIfdef defName
    simp only [← List.append_assoc]
    rfl
  have e2 : (.appendF ("#endif // __DEF_".toList ++ u.NAME ++ "__".toList) : WOp) = opEndif (defName u) := by
    unfold opEndif defName
    simp only [← List.append_assoc]
    rfl
  rw [e1, e2]
  simpa only [List.append_assoc, List.cons_append, List.nil_append] using g

theorem util_vars (h : UtilOk u D rx tx) {ext : Bool} {p : String} (hp : ∀ {t v : String}, (∀ c ∈ t.toList, isWordCh c = true) → (∀ c ∈ v.toList, isWordCh c = true) →
      (t.toList.length ≤ 20 ∧ v.toList.length ≤ 20) → (D.lookup (utilName u t) = none ∧ D.lookup (utilName u v) = none) →
      GItems files [.appendF (p.toList ++ utilName u t ++ " ".toList ++ utilName u v ++ ";".toList)] D D [.var ext (utilName u t) (utilName u v)]) :
    GItems files (if rx.length > 0 ∨ tx.length > 0 then
      [.appendF ("#ifdef __DEF_".toList ++ u.NAME ++ "__".toList), opEmpty] ++
      (if rx.length > 0 then [.appendF (p.toList ++ utilName u "_rx_t" ++ " ".toList ++ utilName u "_rx" ++ ";".toList), opEmpty] else []) ++
      (if tx.length > 0 then [.appendF (p.toList ++ utilName u "_tx_t" ++ " ".toList ++ utilName u "_tx" ++ ";".toList), opEmpty] else []) ++
      [.appendF ("#endif // __DEF_".toList ++ u.NAME ++ "__".toList), opEmpty] else []) D D
      (if (D.lookup (defName u)).isSome then utilVars u ext rx tx else []) := by
  have g1 : GItems files (if rx.length > 0 then [.appendF (p.toList ++ utilName u "_rx_t" ++ " ".toList ++ utilName u "_rx" ++ ";".toList), opEmpty] else []) D D
      (if rx.length > 0 then [.var ext (rxType u) (utilName u "_rx")] else []) :=
    GItems.of fun _ => (hp (t := "_rx_t") (v := "_rx") (by decide) (by decide) (by decide) ⟨h.own _ (by decide), h.own _ (by decide)⟩).blank
  have g2 : GItems files (if tx.length > 0 then [.appendF (p.toList ++ utilName u "_tx_t" ++ " ".toList ++ utilName u "_tx" ++ ";".toList), opEmpty] else []) D D
      (if tx.length > 0 then [.var ext (txType u) (utilName u "_tx")] else []) :=
    GItems.of fun _ => (hp (t := "_tx_t") (v := "_tx") (by decide) (by decide) (by decide) ⟨h.own _ (by decide), h.own _ (by decide)⟩).blank
  by_cases hc : rx.length > 0 ∨ tx.length > 0
  · rw [if_pos hc]
    have := util_guard h (g1.append g2)
    rw [← List.append_assoc ([_, _] : List WOp)] at this
    exact this
  · rw [if_neg hc]
    have e : utilVars u ext rx tx = [] := by
      unfold utilVars
      rw [if_neg fun x => hc (.inl x), if_neg fun x => hc (.inr x)]
      rfl
    rw [e, ite_self]
    exact GItems.silent Gen.nil

/-- The lines of the header behind the included files. -/
def utilRest (u : UtilDesc) (rx tx : List Msg) : List WOp :=
  (if rx.length = 0 then [opLine "// There is no any RX mapped massage.", opEmpty] else utilStructOps u "rx".toList rx) ++
  ((if tx.length = 0 then [opLine "// There is no any TX mapped massage.", opEmpty] else utilStructOps u "tx".toList tx) ++
  ((if rx.length > 0 then
    [.appendF ("uint32_t ".toList ++ u.name ++ "_Receive(".toList ++ u.name ++ "_rx_t* m, const uint8_t* d, uint32_t msgid, uint8_t dlc);".toList), opEmpty]
   else []) ++
  ((if rx.length > 0 ∨ tx.length > 0 then
    [.appendF ("#ifdef __DEF_".toList ++ u.NAME ++ "__".toList), opEmpty] ++
    (if rx.length > 0 then [.appendF ("extern ".toList ++ utilName u "_rx_t" ++ " ".toList ++ utilName u "_rx" ++ ";".toList), opEmpty] else []) ++
    (if tx.length > 0 then [.appendF ("extern ".toList ++ utilName u "_tx_t" ++ " ".toList ++ utilName u "_tx" ++ ";".toList), opEmpty] else []) ++
    [.appendF ("#endif // __DEF_".toList ++ u.NAME ++ "__".toList), opEmpty]
   else []) ++
  [.append "#ifdef __cplusplus\n}\n#endif".toList])))

theorem utilHeader_eq (u : UtilDesc) (rx tx : List Msg) : utilHeaderOps u rx tx =
    [.appendText u.g.commonInfo, .appendText u.g.driverInfo, opLine "#pragma once", opEmpty,
      .append "#ifdef __cplusplus\nextern \"C\" {\n#endif".toList, opEmpty, opLine "#include \"dbccodeconf.h\"", opEmpty,
      .appendF ("#include \"".toList ++ strLower u.drv ++ ".h\"".toList), opEmpty] ++ utilRest u rx tx := by
  have e1 : "extern ".toList ++ u.name ++ "_rx_t ".toList ++ u.name ++ "_rx;".toList = "extern ".toList ++ utilName u "_rx_t" ++ " ".toList ++ utilName u "_rx" ++ ";".toList := by
    unfold utilName; seg_eqc
  have e2 : "extern ".toList ++ u.name ++ "_tx_t ".toList ++ u.name ++ "_tx;".toList = "extern ".toList ++ utilName u "_tx_t" ++ " ".toList ++ utilName u "_tx" ++ ";".toList := by
    unfold utilName; seg_eqc
  unfold utilHeaderOps utilRest
  rw [e1, e2]
  simp only [List.append_assoc]

theorem utilRest_read (h : UtilOk u D rx tx) : GItems files (utilRest u rx tx) D D (utilHeaderItems u D rx tx) := by
  have p1 : GItems files (if rx.length = 0 then [opLine "// There is no any RX mapped massage.", opEmpty] else utilStructOps u "rx".toList rx) D D
      (if rx.length = 0 then [] else [.struct (rxType u) (mapMembers rx)]) := by
    split
    · exact GItems.quiets (gen_cmt _ (by decide) _) (GItems.silent Gen.empty)
    · exact utilStruct h (fun m hm => List.mem_append_left _ hm) h.rxNames (s := "_rx_t") rfl (by decide) (by decide) (h.own _ (by decide))
  have p2 : GItems files (if tx.length = 0 then [opLine "// There is no any TX mapped massage.", opEmpty] else utilStructOps u "tx".toList tx) D D
      (if tx.length = 0 then [] else [.struct (txType u) (mapMembers tx)]) := by
    split
    · exact GItems.quiets (gen_cmt _ (by decide) _) (GItems.silent Gen.empty)
    · exact utilStruct h (fun m hm => List.mem_append_right _ hm) h.txNames (s := "_tx_t") rfl (by decide) (by decide) (h.own _ (by decide))
  have p3 : GItems files (if rx.length > 0 then
      [.appendF ("uint32_t ".toList ++ u.name ++ "_Receive(".toList ++ u.name ++ "_rx_t* m, const uint8_t* d, uint32_t msgid, uint8_t dlc);".toList), opEmpty] else []) D D
      (if rx.length > 0 then [.proto "uint32_t".toList (recvName u) (recvParams (rxType u) "m" "d" "msgid" "dlc")] else []) :=
    GItems.of fun _ => (recv_proto h).blank
  have p4 := util_vars h (ext := true) (p := "extern ") (files := files) (util_extern h)
  have p5 : GItems files [.append "#ifdef __cplusplus\n}\n#endif".toList] D D [] := GItems.silent (Gen.toAppend (gen_cppClose h.cpp) (by decide))
  have := p1.append (p2.append (p3.append (p4.append p5)))
  unfold utilRest utilHeaderItems utilDecls
  simpa only [List.append_assoc, List.append_nil] using this

/-- The header of the util files. -/
theorem utilHeader_read (h : UtilOk u D rx tx) (hcom : CommentText u.g.commonInfo) (hdrv : CommentText u.g.driverInfo) (hc0 : D0.lookup "__cplusplus".toList = none)
    (hconf : files.lookup "dbccodeconf.h".toList = none) {his : List Spec.Item}
    (hinc : GItems files [.appendF ("#include \"".toList ++ strLower u.drv ++ ".h\"".toList)] D0 D his) :
    GItems files (utilHeaderOps u rx tx) D0 D (his ++ utilHeaderItems u D rx tx) := by
  have p0 : GItems files [.appendText u.g.commonInfo, .appendText u.g.driverInfo, opLine "#pragma once", opEmpty,
      .append "#ifdef __cplusplus\nextern \"C\" {\n#endif".toList, opEmpty, opLine "#include \"dbccodeconf.h\"", opEmpty,
      .appendF ("#include \"".toList ++ strLower u.drv ++ ".h\"".toList), opEmpty] D0 D his :=
    GItems.quiets (Gen.commentText hcom) <| GItems.quiets (Gen.commentText hdrv) <| GItems.quiets (gen_pragma _) <| GItems.quiets Gen.empty <|
    GItems.quiets (Gen.toAppend (gen_cppOpen hc0) (by decide)) <| GItems.quiets Gen.empty <|
    GItems.quiets (gen_include (n := "dbccodeconf.h".toList) (plain_lit (by decide)) (by decide) hconf _) <| GItems.quiets Gen.empty hinc.blank
  rw [utilHeader_eq]
  exact p0.append (utilRest_read h)

/-! ### The source file -/

/-- What the util source file contains: the headers, the variables, the receive function. -/
def utilItems (u : UtilDesc) (D : Defs) (his : List Spec.Item) (rx tx : List Msg) (t : CTree) : List Spec.Item :=
  his ++ utilHeaderItems u D rx tx ++ (if (D.lookup (defName u)).isSome then utilVars u false rx tx else []) ++ (if rx.length > 0 then [.func (recvFunc u t)] else [])

/-- The line with the error message of the version check. -/
def utilError (u : UtilDesc) : Str := "#error The ".toList ++ u.NAME ++ " binutil source file has inconsistency with core dbc lib!".toList

theorem ol_utilError (h : UtilOk u D rx tx) : OL [.appendF (utilError u)] [utilError u] := by
  refine ol_plain (((plain_lit (by decide)).append (plainT_word (isWord_ident h.NAME.1))).append (plain_lit (by decide))) ?_
  have := h.NAME.2
  unfold utilError
  have e : "#error The ".toList.length = 11 := by decide
  have e2 : " binutil source file has inconsistency with core dbc lib!".toList.length = 57 := by decide
  rw [List.length_append, List.length_append, e, e2]
  omega

theorem gen_utilVersion (h : UtilOk u D rx tx) {hi lo : Nat} (hv : IsWord u.g.verhigh ∧ u.g.verhigh.length ≤ 1100) (hl : IsWord u.g.verlow ∧ u.g.verlow.length ≤ 1100)
    (h1 : D.lookup u.g.verhigh = some (.obj (par [.word (decStr hi ++ "U".toList)]))) (h2 : D.lookup u.g.verlow = some (.obj (par [.word (decStr lo ++ "U".toList)])))
    (b1 : hi < 2 ^ 32) (b2 : lo < 2 ^ 32) :
    Gen files [.appendF (versionCheck u.g hi lo), .appendF (utilError u), opLine "#endif"] D D [] := by
  obtain ⟨o, i⟩ := versionCheck_line (files := files) (hi' := hi) (lo' := lo) h.base.toBase hv hl h1 h2 b1 b2 b1 b2
  have s2 : Skips files [utilError u] :=
    Skips.dir (isDir_error ("The ".toList ++ u.NAME ++ " binutil source file has inconsistency with core dbc lib!".toList)) (by decide) (by decide) (by decide) (by decide) (by decide)
  refine ⟨[versionCheck u.g hi lo] ++ ([utilError u] ++ ["#endif".toList]), ?_, fun out => ?_⟩
  · exact o.append ((ol_utilError h).append ol_endif)
  · rw [List.append_nil]
    have hi := i out
    rw [decide_eq_false (by simp)] at hi
    exact Run.ifSkip hi endLine_plain s2

/-- Conditions on the file of the header. -/
structure UtilFiles (u : UtilDesc) (files : List (Str × Str)) (rx tx : List Msg) : Prop where
  plain : PlainT u.hname
  short : u.hname.length ≤ 4000
  header : files.lookup u.hname = some (opsText (utilHeaderOps u rx tx))
  conf : files.lookup "dbccodeconf.h".toList = none
  common : CommentText u.g.commonInfo
  driver : CommentText u.g.driverInfo

theorem utilInclude_read (h : UtilOk u D rx tx) (hF : UtilFiles u files rx tx) (hc0 : D0.lookup "__cplusplus".toList = none) {his : List Spec.Item}
    (hinc : GItems files [.appendF ("#include \"".toList ++ strLower u.drv ++ ".h\"".toList)] D0 D his) :
    GItems files [.appendText u.g.commonInfo, .appendText u.g.driverInfo,
     .appendF ("#include \"".toList ++ u.hname ++ "\"".toList), opEmpty, opLine "// DBC file version"] D0 D (his ++ utilHeaderItems u D rx tx) :=
  GItems.quiets (Gen.commentText hF.common) <| GItems.quiets (Gen.commentText hF.driver) <|
    (((utilHeader_read h hF.common hF.driver hc0 hF.conf hinc).include hF.plain hF.short hF.header).cons
      (GItems.quiets Gen.empty (GItems.silent (gen_cmt _ (by decide) _)))).eq (List.append_nil _)

/-- A message that is called is in the list and has the id. -/
theorem dispatch_mem {rx : List Msg} {id : Nat} {calls : List Msg} (h : Dispatch rx 0 rx.length id calls) {m : Msg} (hm : m ∈ calls) : m ∈ rx ∧ m.msgId = id := by
  rcases h with ⟨k, m', -, -, g3, g4, g5⟩ | ⟨-, g2⟩
  · rw [g5, List.mem_singleton] at hm
    subst hm
    exact ⟨List.mem_of_getElem? g3, g4⟩
  · rw [g2] at hm
    cases hm

theorem fillTree_some {rx : List Msg} (hs : rx.Pairwise fun a b => a.msgId ≤ b.msgId) (hne : 0 < rx.length) :
    ∃ t, fillTree rx (rx.length + 1) 0 rx.length false = some t ∧ t ≠ .null ∧ ∀ id, Dispatch rx 0 rx.length id (treeCalls id t) := by
  by_cases h1 : rx.length = 1
  · obtain ⟨m, rfl⟩ := List.length_eq_one_iff.1 h1
    refine ⟨_, rfl, by simp, fun id => ?_⟩
    simp only [treeCalls, RCond.eval, lowGuard, if_true]
    by_cases hid : id = m.msgId
    · exact Or.inl ⟨0, m, by omega, by simp, rfl, hid.symm, by simp [hid]⟩
    · refine Or.inr ⟨?_, by simp [hid]⟩
      intro k m' _ hk hm
      have : k = 0 := by simp at hk; omega
      subst this
      cases hm
      exact fun h => hid h.symm
  · obtain ⟨t, ht, hok⟩ := fill_ok rx hs (rx.length + 1) 0 rx.length hne (Nat.le_refl _) (by omega)
    obtain ⟨⟨c, a, b, rfl⟩, hd⟩ := hok.2 (by omega)
    exact ⟨_, ht false (Or.inr h1), by simp, hd⟩

/-- The calls for the source file, in the groups in which they are read. -/
theorem utilSource_eq (u : UtilDesc) (hi lo : Nat) (rx tx : List Msg) : utilSourceOps u hi lo rx tx = (receiveOps u rx).map fun body =>
    ([.appendText u.g.commonInfo, .appendText u.g.driverInfo, .appendF ("#include \"".toList ++ u.hname ++ "\"".toList), opEmpty, opLine "// DBC file version"] ++
      ([.appendF (versionCheck u.g hi lo), .appendF (utilError u), opLine "#endif"] ++ [opEmpty])) ++
    (if rx.length > 0 ∨ tx.length > 0 then
      [.appendF ("#ifdef __DEF_".toList ++ u.NAME ++ "__".toList), opEmpty] ++
      (if rx.length > 0 then [.appendF ("".toList ++ utilName u "_rx_t" ++ " ".toList ++ utilName u "_rx" ++ ";".toList), opEmpty] else []) ++
      (if tx.length > 0 then [.appendF ("".toList ++ utilName u "_tx_t" ++ " ".toList ++ utilName u "_tx" ++ ";".toList), opEmpty] else []) ++
      [.appendF ("#endif // __DEF_".toList ++ u.NAME ++ "__".toList), opEmpty] else []) ++ body := by
  have e1 : u.name ++ "_rx_t ".toList ++ u.name ++ "_rx;".toList = "".toList ++ utilName u "_rx_t" ++ " ".toList ++ utilName u "_rx" ++ ";".toList := by
    unfold utilName; seg_eqc
  have e2 : u.name ++ "_tx_t ".toList ++ u.name ++ "_tx;".toList = "".toList ++ utilName u "_tx_t" ++ " ".toList ++ utilName u "_tx" ++ ";".toList := by
    unfold utilName; seg_eqc
  unfold utilSourceOps
  rw [e1, e2]
  rfl

theorem utilSource_read (h : UtilOk u D rx tx) (hs : rx.Pairwise fun a b => a.msgId ≤ b.msgId) (hF : UtilFiles u files rx tx) (hc0 : D0.lookup "__cplusplus".toList = none)
    {his : List Spec.Item} (hinc : GItems files [.appendF ("#include \"".toList ++ strLower u.drv ++ ".h\"".toList)] D0 D his)
    {hi lo : Nat} (hv : IsWord u.g.verhigh ∧ u.g.verhigh.length ≤ 1100) (hl : IsWord u.g.verlow ∧ u.g.verlow.length ≤ 1100)
    (h1 : D.lookup u.g.verhigh = some (.obj (par [.word (decStr hi ++ "U".toList)]))) (h2 : D.lookup u.g.verlow = some (.obj (par [.word (decStr lo ++ "U".toList)])))
    (b1 : hi < 2 ^ 32) (b2 : lo < 2 ^ 32) :
    ∃ ops t, utilSourceOps u hi lo rx tx = some ops ∧ (0 < rx.length → fillTree rx (rx.length + 1) 0 rx.length false = some t) ∧
      GItems files ops D0 D (utilItems u D his rx tx t) := by
  have p0 := (utilInclude_read h hF hc0 hinc).append (GItems.quiet (gen_utilVersion (files := files) h hv hl h1 h2 b1 b2) (GItems.silent Gen.empty))
  have p4 := util_vars h (ext := false) (p := "") (files := files) (util_var h)
  have p5 := (p0.append p4).eq (l := his ++ utilHeaderItems u D rx tx ++ if (D.lookup (defName u)).isSome then utilVars u false rx tx else []) (by rw [List.append_nil])
  rw [utilSource_eq]
  unfold utilItems
  by_cases hr : rx.length > 0
  · obtain ⟨t, ht, hn, -⟩ := fillTree_some hs hr
    have hm := fillTree_msgs ht
    have er : receiveOps u rx = some [.appendF ("uint32_t ".toList ++ u.name ++ "_Receive(".toList ++ u.name ++ "_rx_t* _m, const uint8_t* _d, uint32_t _id, uint8_t dlc_)".toList),
       opLine "{", opLine " uint32_t recid = 0;", .append (printCode u.drv (writeCode t 1)), opEmpty, opLine " return recid;", opLine "}", opEmpty] := by
      unfold receiveOps
      rw [if_pos hr, ht]
      rfl
    refine ⟨_, t, by rw [er]; rfl, fun _ => ht, ?_⟩
    rw [if_pos (c := rx.length > 0) (t := [Spec.Item.func _]) hr]
    exact p5.append (recv_func (files := files) h hn hm)
  · have er : receiveOps u rx = some [] := by
      unfold receiveOps
      rw [if_neg hr]
    refine ⟨_, .null, by rw [er]; rfl, fun x => absurd x hr, ?_⟩
    rw [if_neg (c := rx.length > 0) (t := [Spec.Item.func _]) hr]
    exact p5.append (GItems.silent Gen.nil)

/-- What reading a file gives is what the file compiles to, if nothing is defined twice. -/
theorem GItems.compile {ops : List WOp} {is : List Spec.Item} (h : GItems files ops D0 D is) :
    ∃ F, ∀ f, F ≤ f → compile f files D0 (opsText ops) = if (is.flatMap Item.defines).Nodup then some is else none := by
  obtain ⟨us, ⟨lines, o, r⟩, p⟩ := h
  obtain ⟨F1, h1⟩ := Run.file o.ppl (r [])
  obtain ⟨F2, h2⟩ := p.unit
  refine ⟨F1 + F2, fun f hf => ?_⟩
  unfold Spec.compile
  have e := h1 f (by omega) f (by omega) [] rfl
  rw [List.nil_append] at e
  have e : ppText f files f { defs := D0 } (opsText ops) = mkPP [] ⟨D, us, false⟩ := e
  dsimp only
  rw [e]
  rw [if_neg (by simp [mkPP])]
  show (parseUnit f us).bind _ = _
  rw [h2 f (by omega), Option.bind_some]

end Verif
