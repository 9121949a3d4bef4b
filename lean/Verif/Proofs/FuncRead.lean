import Verif.Proofs.BodyRead
/-
The printed functions of a message, read as function definitions.
-/
namespace Verif
open Verif.Spec

/-! ### Writer calls with several lines -/

theorem lineText_nl {a b : Str} (hb : b ≠ []) : lineText (a ++ '\n' :: b) = a ++ '\n' :: lineText b := by
  unfold lineText
  obtain ⟨c, hc⟩ : ∃ c, b.getLast? = some c := by
    cases h : b.getLast? with
    | none => exact absurd (List.getLast?_eq_none_iff.mp h) hb
    | some c => exact ⟨c, rfl⟩
  have e : (a ++ '\n' :: b).getLast? = some c := by
    rw [List.getLast?_append, List.getLast?_cons, hc]
    rfl
  rw [e, hc]
  dsimp only
  split <;> simp

theorem lineText_end (a : Str) : lineText (a ++ ['\n']) = a ++ ['\n'] := by
  unfold lineText
  rw [List.getLast?_append]
  rfl

theorem emits_unique {a : List WOp} {s t : Str} (h1 : Emits a s) (h2 : Emits a t) : s = t := by
  have := (h1 {}).symm.trans (h2 {})
  injection this with h _

theorem OL.text {t : Str} {k : List Str} (h : OL [.appendF t] k) : PPL (lineText (printLoc t)) k := by
  obtain ⟨u, hu, hp⟩ := h
  rw [emits_unique (emits_appendF t) hu]
  exact hp

/-- A call with more than one line. -/
theorem OL.nl {a b : Str} {k l : List Str} (h1 : OL [.appendF a] k) (h2 : OL [.appendF b] l) (ha : '\n' ∉ a) (hb : b ≠ [])
    (hl : (a ++ '\n' :: b).length ≤ 9999) : OL [.appendF (a ++ '\n' :: b)] (k ++ l) := by
  refine ⟨_, emits_appendF _, ?_⟩
  have la : a.length ≤ 9999 := by rw [List.length_append] at hl; omega
  have lb : b.length ≤ 9999 := by rw [List.length_append, List.length_cons] at hl; omega
  have p1 := h1.text
  have p2 := h2.text
  rw [printLoc_short la, lineText_line ha] at p1
  rw [printLoc_short lb] at p2
  rw [printLoc_short hl, lineText_nl hb]
  have := p1.append p2
  rwa [List.append_assoc, List.singleton_append] at this

/-- A call that ends with a line feed. -/
theorem OL.nlEnd {a : Str} {k : List Str} (h1 : OL [.appendF a] k) (ha : '\n' ∉ a)
    (hl : (a ++ ['\n']).length ≤ 9999) : OL [.appendF (a ++ ['\n'])] k := by
  refine ⟨_, emits_appendF _, ?_⟩
  have la : a.length ≤ 9999 := by rw [List.length_append] at hl; omega
  have p1 := h1.text
  rw [printLoc_short la, lineText_line ha] at p1
  rwa [printLoc_short hl, lineText_end]

variable {files : List (Str × Str)} {D D' D'' : Defs} {us vs : List Tok}

theorem Gen.nl {a b : Str} (h1 : Gen files [.appendF a] D D' us) (h2 : Gen files [.appendF b] D' D'' vs) (ha : '\n' ∉ a) (hb : b ≠ [])
    (hl : (a ++ '\n' :: b).length ≤ 9999) : Gen files [.appendF (a ++ '\n' :: b)] D D'' (us ++ vs) := by
  obtain ⟨k, o1, r1⟩ := h1
  obtain ⟨l, o2, r2⟩ := h2
  refine ⟨k ++ l, o1.nl o2 ha hb hl, fun out => ?_⟩
  rw [← List.append_assoc]
  exact (r1 out).append (r2 _)

theorem Gen.nlEnd {a : Str} (h1 : Gen files [.appendF a] D D' us) (ha : '\n' ∉ a)
    (hl : (a ++ ['\n']).length ≤ 9999) : Gen files [.appendF (a ++ ['\n'])] D D' us := by
  obtain ⟨k, o1, r1⟩ := h1
  exact ⟨k, o1.nlEnd ha hl, r1⟩

/-! ### Declarations from lines -/

/-- The printed lines are the declarations `l` and turn the macros `D` into `D'`. -/
def GItems (files : List (Str × Str)) (ops : List WOp) (D D' : Defs) (l : List Item) : Prop := ∃ us, Gen files ops D D' us ∧ PItems us l

theorem GItems.nil : GItems files [] D D [] := ⟨[], Gen.nil, PItems.nil⟩

theorem GItems.append {a b : List WOp} {k l : List Item} (h1 : GItems files a D D' k) (h2 : GItems files b D' D'' l) :
    GItems files (a ++ b) D D'' (k ++ l) := by
  obtain ⟨us, g1, p1⟩ := h1
  obtain ⟨vs, g2, p2⟩ := h2
  exact ⟨us ++ vs, g1.append g2, p1.append p2⟩

theorem GItems.cons {x : WOp} {b : List WOp} {k l : List Item} (h1 : GItems files [x] D D' k) (h2 : GItems files b D' D'' l) :
    GItems files (x :: b) D D'' (k ++ l) := h1.append h2

theorem GItems.silent {a : List WOp} (h : Gen files a D D' []) : GItems files a D D' [] := ⟨[], h, PItems.nil⟩

theorem GItems.skip {a : List WOp} {l : List Item} (h : GItems files a D D' l) : GSkip files a := by
  obtain ⟨us, g, -⟩ := h
  exact g.skip

theorem GItems.eq {a : List WOp} {k l : List Item} (h : GItems files a D D' k) (e : k = l) : GItems files a D D' l := e ▸ h

/-- A function from its head and its body. -/
theorem GItems.func {a b c : List WOp} {t n : Str} {inside : List Tok} {ps : List Param} {l : List CStm}
    (ha : Gen files a D D (.word t :: .word n :: .p ['('] :: (inside ++ [.p [')'], .p ['{']]))) (hb : GenS files D b l)
    (hc : Gen files c D D [.p ['}']])
    (hi : ∀ r, closeArgs 0 (inside ++ .p [')'] :: r) = some (inside, r))
    (hp : optAll ((splitArgs 0 inside []).map parseParam) = some ps) :
    GItems files (a ++ b ++ c) D D [.func ⟨t, n, ps, seqs l .skip⟩] := by
  obtain ⟨us, g, p⟩ := hb
  refine ⟨_, (ha.append g).append hc, ?_⟩
  have := PItems.func (t := t) (n := n) hi hp p
  have e : .word t :: .word n :: .p ['('] :: (inside ++ [.p [')'], .p ['{']]) ++ us ++ [.p ['}']] =
      .word t :: .word n :: .p ['('] :: (inside ++ .p [')'] :: .p ['{'] :: (us ++ [.p ['}']])) := by simp
  rw [e]
  exact this

theorem gen_brace (s : String) (t : Tok) (hx : lex s.toList = [t]) (hw : ∀ n, t ≠ .word n) (hl : s.toList.length ≤ 9999)
    (hp : s.toList.all plainCh = true) (hh : noHash [.l s] = true) (hb : segsB [.l s] = true) : Gen files [opLine s] D D [t] := by
  refine Gen.line [.l s] (by simp [segText, Seg.text]) trivial trivial hl ?_ (by simpa [litsPlain] using hp) hb hh
  have e : segToks [.l s] = [t] := by simp [segToks, Seg.toks, hx]
  rw [e]
  refine ExpP.plain fun w h => ?_
  cases t with
  | word n => exact absurd rfl (hw n)
  | p s => simp [tokWords] at h

theorem gen_open : Gen files [opLine "{"] D D [.p ['{']] := gen_brace "{" _ rfl (by simp) (by decide) (by decide) rfl rfl
theorem gen_close : Gen files [opLine "}"] D D [.p ['}']] := gen_brace "}" _ rfl (by simp) (by decide) (by decide) rfl rfl

/-! ### Functions of a message -/

section Funcs
variable {g : GenDesc} {m : Msg} {cfg : Cfg} {K : Look}

def unpackName (g : GenDesc) (m : Msg) : Str := "Unpack_".toList ++ m.name ++ "_".toList ++ g.drvOrig
def packName (g : GenDesc) (m : Msg) : Str := "Pack_".toList ++ m.name ++ "_".toList ++ g.drvOrig
def typeName (m : Msg) : Str := m.name ++ "_t".toList

/-- The names of the functions and of the struct are no macros. -/
structure FnNames (g : GenDesc) (m : Msg) (D : Defs) : Prop where
  drv : IsIdent g.drvOrig ∧ g.drvOrig.length ≤ 500
  unpack : D.lookup (unpackName g m) = none
  pack : D.lookup (packName g m) = none
  type : D.lookup (typeName m) = none

theorem litIdent (s : String) {a b : Str} (hs : s.toList ≠ [] ∧ ∀ c ∈ s.toList, isWordCh c = true) (ha : IsIdent a) (hb : IsIdent b) :
    IsWord (s.toList ++ a ++ "_".toList ++ b) := by
  refine ⟨by simp [hs.1], fun c hc => ?_⟩
  simp only [List.mem_append] at hc
  rcases hc with ((hc | hc) | hc) | hc
  · exact hs.2 c hc
  · exact (ident_words ha).2.1 c hc
  · revert c; decide
  · exact (ident_words hb).2.1 c hc

theorem FnNames.unpackW (h : FnNames g m D) (hn : IsIdent m.name ∧ m.name.length ≤ 500) : IsWord (unpackName g m) ∧ (unpackName g m).length ≤ 1100 :=
  ⟨litIdent "Unpack_" ⟨by decide, by decide⟩ hn.1 h.drv.1, by
    have := hn.2
    have := h.drv.2
    unfold unpackName
    simp only [List.length_append, String.reduceToList, List.length_cons, List.length_nil]
    omega⟩

theorem FnNames.packW (h : FnNames g m D) (hn : IsIdent m.name ∧ m.name.length ≤ 500) : IsWord (packName g m) ∧ (packName g m).length ≤ 1100 :=
  ⟨litIdent "Pack_" ⟨by decide, by decide⟩ hn.1 h.drv.1, by
    have := hn.2
    have := h.drv.2
    unfold packName
    simp only [List.length_append, String.reduceToList, List.length_cons, List.length_nil]
    omega⟩

theorem typeW (hn : IsIdent m.name ∧ m.name.length ≤ 500) : IsWord (typeName m) ∧ (typeName m).length ≤ 1100 :=
  ⟨identAppend hn.1 (by decide), by
    have := hn.2
    unfold typeName
    simp only [List.length_append, String.reduceToList, List.length_cons, List.length_nil]
    omega⟩

/-- Parameters of `Unpack`. -/
def unpackInside (m : Msg) : List Tok :=
  [.word (typeName m), .p ['*'], .word "_m".toList, .p [','], .word "const".toList, .word "uint8_t".toList, .p ['*'], .word "_d".toList, .p [','],
   .word "uint8_t".toList, .word "dlc_".toList]
/-- Parameters of `Pack` with a frame struct. -/
def packSInside (m : Msg) : List Tok :=
  [.word (typeName m), .p ['*'], .word "_m".toList, .p [','], .word "__CoderDbcCanFrame_t__".toList, .p ['*'], .word "cframe".toList]
/-- Parameters of `Pack` with arrays. -/
def packAInside (m : Msg) : List Tok :=
  [.word (typeName m), .p ['*'], .word "_m".toList, .p [','], .word "uint8_t".toList, .p ['*'], .word "_d".toList, .p [','],
   .word "uint8_t".toList, .p ['*'], .word "_len".toList, .p [','], .word "uint8_t".toList, .p ['*'], .word "_ide".toList]

def unpackParams (m : Msg) : List Param :=
  [⟨typeName m, true, "_m".toList⟩, ⟨"uint8_t".toList, true, "_d".toList⟩, ⟨"uint8_t".toList, false, "dlc_".toList⟩]
def packParams (frame : Bool) (m : Msg) : List Param :=
  if frame then [⟨typeName m, true, "_m".toList⟩, ⟨"__CoderDbcCanFrame_t__".toList, true, "cframe".toList⟩]
  else [⟨typeName m, true, "_m".toList⟩, ⟨"uint8_t".toList, true, "_d".toList⟩, ⟨"uint8_t".toList, true, "_len".toList⟩,
    ⟨"uint8_t".toList, true, "_ide".toList⟩]

theorem unpackParams_ok : optAll ((splitArgs 0 (unpackInside m) []).map parseParam) = some (unpackParams m) := rfl
theorem packSParams_ok : optAll ((splitArgs 0 (packSInside m) []).map parseParam) = some (packParams true m) := rfl
theorem packAParams_ok : optAll ((splitArgs 0 (packAInside m) []).map parseParam) = some (packParams false m) := rfl

theorem unpackClose (r : List Tok) : closeArgs 0 (unpackInside m ++ .p [')'] :: r) = some (unpackInside m, r) := rfl
theorem packSClose (r : List Tok) : closeArgs 0 (packSInside m ++ .p [')'] :: r) = some (packSInside m, r) := rfl
theorem packAClose (r : List Tok) : closeArgs 0 (packAInside m ++ .p [')'] :: r) = some (packAInside m, r) := rfl

theorem head_unpack (hB : Base D) (hn : IsIdent m.name ∧ m.name.length ≤ 500) (h : FnNames g m D) : Gen files [.appendF (unpackSig g m)] D D
    (.word "uint32_t".toList :: .word (unpackName g m) :: .p ['('] :: (unpackInside m ++ [.p [')']])) :=
  Gen.lineT [.l "uint32_t ", .w (unpackName g m), .l "(", .w (typeName m), .l "* _m, const uint8_t* _d, uint8_t dlc_)"]
    (by unfold unpackSig unpackName typeName; seg_eqc) ⟨(h.unpackW hn).1, (typeW hn).1, trivial⟩ trivial ⟨(h.unpackW hn).2, (typeW hn).2, trivial⟩
    (by seg_len)
    ((hB.lit [] "uint32_t ").append ((ExpP.name h.unpack).append ((hB.lit [] "(").append ((ExpP.name h.type).append
      (hB.lit [] "* _m, const uint8_t* _d, uint8_t dlc_)"))))) rfl rfl

def unpackSegs (g : GenDesc) (m : Msg) : List Seg :=
  [.l "uint32_t ", .w (unpackName g m), .l "(", .w (typeName m), .l "* _m, const uint8_t* _d, uint8_t dlc_)"]

theorem unpackSig_nl (hn : IsIdent m.name ∧ m.name.length ≤ 500) (h : FnNames g m D) : '\n' ∉ unpackSig g m ∧ (unpackSig g m).length ≤ 5000 := by
  have e : unpackSig g m = segText (unpackSegs g m) := by
    unfold unpackSig unpackSegs unpackName typeName; seg_eqc
  rw [e]
  have hw : SegsW (unpackSegs g m) := ⟨(h.unpackW hn).1, (typeW hn).1, trivial⟩
  refine ⟨(plain_segs rfl hw trivial).parts.1, ?_⟩
  have hs : SegsShort 1100 (unpackSegs g m) := ⟨(h.unpackW hn).2, (typeW hn).2, trivial⟩
  refine Nat.le_trans (length_segs hs) ?_
  unfold unpackSegs
  seg_len

theorem head_unpack2 (hB : Base D) (hn : IsIdent m.name ∧ m.name.length ≤ 500) (h : FnNames g m D) :
    Gen files [.appendF (unpackSig g m ++ "\n{".toList)] D D
    (.word "uint32_t".toList :: .word (unpackName g m) :: .p ['('] :: (unpackInside m ++ [.p [')'], .p ['{']])) := by
  obtain ⟨h1, h2⟩ := unpackSig_nl hn h
  have := Gen.nl (b := "{".toList) (head_unpack (files := files) hB hn h) gen_open h1 (by decide) (by
    rw [List.length_append]
    simp only [String.reduceToList, List.length_cons, List.length_nil]
    omega)
  exact this.eq (by simp)

theorem line_void (hB : Base D) : GenS files D [opLine "  (void)dlc_;"] [.expr (.cast "void".toList (.id "dlc_".toList))] := by
  have hs := PStm.expr rfl ((PA.cast (w := "void".toList) (by decide) (PPst.word "dlc_".toList).at0).mono (l := topLevel) (by decide))
  exact GenS.stmtS [.l "  (void)dlc_;"] (by seg_eq) trivial trivial trivial (by seg_len)
    ((hB.lit [] _).append ExpP.nil) hs rfl

theorem head_packS (hB : Base D) (hn : IsIdent m.name ∧ m.name.length ≤ 500) (h : FnNames g m D) : Gen files [.appendF (packStructSig g m)] D D
    (.word "uint32_t".toList :: .word (packName g m) :: .p ['('] :: (packSInside m ++ [.p [')']])) :=
  Gen.lineT [.l "uint32_t ", .w (packName g m), .l "(", .w (typeName m), .l "* _m, __CoderDbcCanFrame_t__* cframe)"]
    (by unfold packStructSig packName typeName; seg_eqc) ⟨(h.packW hn).1, (typeW hn).1, trivial⟩ trivial ⟨(h.packW hn).2, (typeW hn).2, trivial⟩
    (by seg_len)
    ((hB.lit [] "uint32_t ").append ((ExpP.name h.pack).append ((hB.lit [] "(").append ((ExpP.name h.type).append
      (hB.lit [] "* _m, __CoderDbcCanFrame_t__* cframe)"))))) rfl rfl

theorem head_packA (hB : Base D) (hn : IsIdent m.name ∧ m.name.length ≤ 500) (h : FnNames g m D) : Gen files [.appendF (packArraySig g m)] D D
    (.word "uint32_t".toList :: .word (packName g m) :: .p ['('] :: (packAInside m ++ [.p [')']])) :=
  Gen.lineT [.l "uint32_t ", .w (packName g m), .l "(", .w (typeName m), .l "* _m, uint8_t* _d, uint8_t* _len, uint8_t* _ide)"]
    (by unfold packArraySig packName typeName; seg_eqc) ⟨(h.packW hn).1, (typeW hn).1, trivial⟩ trivial ⟨(h.packW hn).2, (typeW hn).2, trivial⟩
    (by seg_len)
    ((hB.lit [] "uint32_t ").append ((ExpP.name h.pack).append ((hB.lit [] "(").append ((ExpP.name h.type).append
      (hB.lit [] "* _m, uint8_t* _d, uint8_t* _len, uint8_t* _ide)"))))) rfl rfl

/-- `Unpack` of a message. -/
def unpackFunc (g : GenDesc) (m : Msg) (K : Look) (l : List CStmt) : Func :=
  ⟨"uint32_t".toList, unpackName g m, unpackParams m, seqs (.expr (.cast "void".toList (.id "dlc_".toList)) :: l.flatMap (stmsOf K)) .skip⟩

/-- `Pack` of a message. -/
def packFunc (g : GenDesc) (m : Msg) (K : Look) (l : List CStmt) : Func :=
  ⟨"uint32_t".toList, packName g m, packParams K.frame m, seqs (l.flatMap (stmsOf K)) .skip⟩

theorem Src.frame (h : Src g m cfg K D) (b : Bool) : Src g m cfg { K with frame := b } D :=
  ⟨h.base, h.flag, h.flagW, h.drvUp, h.drvLow, h.name, h.dlc, h.canid, h.ide, h.sig, h.conv, h.tick, h.hash, h.csm, h.fmon, h.valid, h.max, h.init⟩

/-- What is needed of the messages for printing. -/
structure Printed (m : Msg) (xs : List SigText) (tb : List Slot) : Prop where
  built : buildExprs m = .ok xs tb
  sigs : ∀ x ∈ xs, ∃ e, x = .expr e ∧ (render e).length ≤ 6000
  slots : ∀ sl ∈ tb, sl = .empty ∨ ∃ e, sl = .expr e ∧ (render e).length ≤ 6000
  bits : ∀ s ∈ m.signals, s.lengthBit < 2 ^ 31
  dlc : m.dlc ≤ 2 ^ 31
  roll : RollOk m
  csm : ∀ c, m.sigAt m.csmSig = some c → ∃ i e, csmExpr c = some (i, .expr e) ∧ (render e).length ≤ 6000

theorem Printed.csmOk {xs : List SigText} {tb : List Slot} (h : Printed m xs tb) : CsmOk m := by
  intro c hc e
  obtain ⟨i, x, h1, -⟩ := h.csm c hc
  rw [h1] at e
  cases e

section
variable {xs : List SigText} {tb : List Slot}

theorem Printed.text (h : Printed m xs tb) (hn : ∀ s ∈ m.signals, s.name.length ≤ 2000) : ∃ ts tt, buildText m = some (ts, tt) ∧ SigTexts xs ts ∧ SlotTexts tb tt := by
  have := build_text m hn
  rw [h.built] at this
  revert this
  cases buildText m with
  | none => intro h; exact h.elim
  | some q =>
    obtain ⟨ts, tt⟩ := q
    rintro ⟨h1, h2, h3⟩
    exact ⟨ts, tt, rfl, sigTexts_of h1 h2, h3⟩

theorem slotGood_of {sl : Slot} (h1 : SlotChain sl) (h2 : SlotShape (fun n => D.lookup n = none) sl)
    (h3 : sl = .empty ∨ ∃ e, sl = .expr e ∧ (render e).length ≤ 6000) : SlotGood D sl := by
  rcases h3 with rfl | ⟨e, rfl, hl⟩
  · trivial
  · exact ⟨h1, h2, hl⟩

theorem Printed.good (h : Printed m xs tb) (hn : ∀ s ∈ m.signals, IsIdent s.name ∧ D.lookup s.name = none) :
    (∀ x ∈ xs, SigGood D x) ∧ (∀ sl ∈ tb, SlotGood D sl) ∧ tb.length ≤ 2 ^ 31 ∧ xs.length = m.signals.length ∧
      ∀ c, m.sigAt m.csmSig = some c → ∀ i e, csmExpr c = some (i, e) → ∃ x, e = .expr x ∧ SlotGood D e := by
  have hb := h.built
  unfold buildExprs at hb
  have hc := buildLoop_chain m.signals (fun s hs => ⟨(hn s hs).1, h.bits s hs⟩) [] (List.replicate m.dlc .empty) (by simpa using h.dlc) (by simp)
    (fun sl h => by rw [(List.mem_replicate.1 h).2]; trivial)
  have hs := buildLoop_shape (P := fun n => D.lookup n = none) m.signals (fun s hs => (hn s hs).2) [] (List.replicate m.dlc .empty) (by simp)
    (fun sl h => by rw [(List.mem_replicate.1 h).2]; trivial)
  rw [hb] at hc hs
  obtain ⟨c1, c2, c3, c4⟩ := hc
  obtain ⟨s1, s2⟩ := hs
  refine ⟨fun x hx => ?_, fun sl hsl => slotGood_of (c2 sl hsl) (s2 sl hsl) (h.slots sl hsl), ?_, by simpa using c4, ?_⟩
  · obtain ⟨e, rfl, hl⟩ := h.sigs x hx
    exact ⟨c1 _ hx, Shape.mono (s1 _ hx) (fun _ h => h.elim), hl⟩
  · rw [c3]
    simpa using h.dlc
  · intro c hcs i e he
    obtain ⟨i', x, hx, hl⟩ := h.csm c hcs
    rw [he] at hx
    cases hx
    refine ⟨x, rfl, ?_⟩
    have hm := sigAt_mem hcs
    have hc := printSignal_chain c (hn c hm).1 (h.bits c hm) (List.replicate 8 .empty) (by simp)
      (fun sl h => by rw [(List.mem_replicate.1 h).2]; trivial)
    have hs := printSignal_shape (P := fun n => D.lookup n = none) c (hn c hm).2 (List.replicate 8 .empty)
      (fun sl h => by rw [(List.mem_replicate.1 h).2]; trivial)
    unfold csmExpr at he
    revert hc hs he
    cases printSignalExpr c (List.replicate 8 .empty) with
    | oob => intro h; cases h
    | ok y tb' =>
      dsimp only
      intro he hc hs
      cases hi : tb'.findIdx? (· != Slot.empty) with
      | none => rw [hi] at he; cases he
      | some j =>
        rw [hi] at he
        have hj : j < tb'.length := by
          rw [List.findIdx?_eq_some_iff_getElem] at hi
          exact hi.1
        have : Slot.expr x ∈ tb' := by
          have e2 : tb'.getD j .empty = .expr x := by injection he with he; injection he
          rw [← e2, List.getD_eq_getElem?_getD]
          simp [hj]
        exact ⟨hc.2.1 _ this, hs.2 _ this, hl⟩

end

/-- The last statements of `Pack`. -/
def packOutStmts (frame : Bool) (m : Msg) : List CStmt :=
  (if frame then [.outId m.msgId] else []) ++ [.outDlc m.dlc, .outIde m.ide, .ret m.msgId]

theorem packEnd_read (h : Src g m cfg K D) : GenS files D ((if K.frame then packStructEnd m else packArrayEnd m).dropLast.dropLast)
    ((packOutStmts K.frame m).flatMap (stmsOf K)) := by
  cases hk : K.frame with
  | true =>
    exact (line_outId h).cons ((line_outDlcS h hk).cons ((line_outIdeS h hk).cons ((line_ret h).append GenS.nil)))
  | false =>
    exact (line_outDlcA h hk).cons ((line_outIdeA h hk).cons ((line_ret h).append GenS.nil))

theorem packEnd_split (frame : Bool) : (if frame then packStructEnd m else packArrayEnd m) =
    (if frame then packStructEnd m else packArrayEnd m).dropLast.dropLast ++ [opLine "}", opEmpty] := by
  cases frame <;> rfl

/-- `Pack` with its head. -/
theorem pack_read (h : Src g m cfg K D) (hf : FnNames g m D) {ops : List WOp} {l : List CStmt}
    (hb : GenS files D ops (l.flatMap (stmsOf K))) :
    GItems files ([opEmpty, .appendF (if K.frame then packStructSig g m else packArraySig g m)] ++
      ([opLine "{"] ++ ops ++ (if K.frame then packStructEnd m else packArrayEnd m))) D D
      [.func (packFunc g m K (l ++ packOutStmts K.frame m))] := by
  have hb2 := hb.append (packEnd_read h)
  have hh : Gen files ([opEmpty, .appendF (if K.frame then packStructSig g m else packArraySig g m)] ++ [opLine "{"]) D D
      (.word "uint32_t".toList :: .word (packName g m) :: .p ['('] :: ((if K.frame then packSInside m else packAInside m) ++ [.p [')'], .p ['{']])) := by
    cases K.frame with
    | true => exact ((Gen.empty.cons (head_packS h.base h.name hf)).append gen_open).eq (by simp)
    | false => exact ((Gen.empty.cons (head_packA h.base h.name hf)).append gen_open).eq (by simp)
  have hc : Gen files [opLine "}", opEmpty] D D [.p ['}']] := gen_close.append Gen.empty
  have := GItems.func (ps := packParams K.frame m) hh hb2 hc (by cases K.frame <;> intro r <;> rfl) (by cases K.frame <;> rfl)
  rw [← List.flatMap_append] at this
  have e : ∀ a b c d : List WOp, a ++ (b ++ ops ++ (c ++ d)) = a ++ b ++ (ops ++ c) ++ d := by simp
  rw [packEnd_split (m := m) K.frame, e]
  exact this

/-- The functions of a message. -/
theorem functions_read (h : Src g m cfg K D) (hf : FnNames g m D) {xs : List SigText} {tb : List Slot} (hp : Printed m xs tb) (ho : m.frameNotEmpty = true)
    (hk : K.frame = cfg.flag .useCanStruct) :
    ∃ ops u p, sourceMsgOps g m = some ops ∧ writeUnpackBody m xs = some u ∧
      (if cfg.flag .useCanStruct then writePackStructBody m tb else writePackArrayBody m tb) = some p ∧
      GItems files ops D D [.func (unpackFunc g m K (preprocess cfg.flag [] u)), .func (packFunc g m K (preprocess cfg.flag [] p))] := by
  obtain ⟨ts, tt, hbt, hxs, htb⟩ := hp.text (fun s hs => by have := (h.sig s hs).1.len; omega)
  obtain ⟨g1, g2, g3, g4, g5⟩ := hp.good (D := D) (fun s hs => ⟨(h.sig s hs).1.id, (h.sig s hs).1.mac⟩)
  obtain ⟨uo, u, hu1, hu2, hu3⟩ := unpackBody_read (files := files) h hp.bits hp.roll hxs g1
  obtain ⟨so, sl, hs1, hs2, hs3, hs4⟩ := packCommon_read (files := files) (h.frame true) hp.bits hp.roll hp.csmOk g5 htb g2 g3
  obtain ⟨ao, al, ha1, ha2, ha3, ha4⟩ := packCommon_read (files := files) (h.frame false) hp.bits hp.roll hp.csmOk g5 htb g2 g3
  rw [hs2] at ha2
  cases ha2
  have s1 : packStructOps g m tt = some ([opLine "{"] ++ so ++ packStructEnd m) := by
    unfold packStructOps
    have : packCommonOps g "cframe->Data".toList m tt = some so := hs1
    rw [this]
    rfl
  have a1 : packArrayOps g m tt = some ([opLine "{"] ++ ao ++ packArrayEnd m) := by
    unfold packArrayOps
    have : packCommonOps g "_d".toList m tt = some ao := ha1
    rw [this]
    rfl
  have gS := pack_read (h.frame true) hf hs4
  have gA := pack_read (h.frame false) hf ha4
  have gU := GItems.func (head_unpack2 (files := files) h.base h.name hf) ((line_void h.base).append hu3)
    (gen_close.append (Gen.empty (files := files))) unpackClose (unpackParams_ok (m := m))
  refine ⟨functionsText g m uo ([opLine "{"] ++ so ++ packStructEnd m) ([opLine "{"] ++ ao ++ packArrayEnd m), u,
    sl ++ (packOutStmts K.frame m).map .stmt, ?_, hu2, ?_, ?_⟩
  · unfold sourceMsgOps
    rw [if_pos ho, hbt]
    simp only [Option.bind_some, hu1, s1, a1, Option.map_some]
  · rw [hk]
    cases cfg.flag .useCanStruct with
    | true =>
      rw [if_pos rfl]
      unfold writePackStructBody
      rw [hs2]
      rfl
    | false =>
      rw [if_neg Bool.false_ne_true]
      unfold writePackArrayBody
      rw [hs2]
      rfl
  · have hpp : preprocess cfg.flag [] (sl ++ (packOutStmts K.frame m).map .stmt) = preprocess cfg.flag [] sl ++ packOutStmts K.frame m := by
      rw [preprocess_append hs3, preprocess_stmts]
    rw [hpp]
    have hfw := h.flagW .useCanStruct
    have hfl : (D.lookup g.usestruct).isSome = cfg.flag .useCanStruct := h.flag .useCanStruct
    have hl : g.usestruct.length ≤ 1100 := hfw.2
    have gP : GItems files ([opIfdef g.usestruct] ++ ([opEmpty, .appendF (packStructSig g m)] ++ ([opLine "{"] ++ so ++ packStructEnd m)) ++
        [opLine "#else"] ++ ([opEmpty, .appendF (packArraySig g m)] ++ ([opLine "{"] ++ ao ++ packArrayEnd m)) ++ [opEndif g.usestruct]) D D
        [.func (packFunc g m K (preprocess cfg.flag [] sl ++ packOutStmts K.frame m))] := by
      cases hd : cfg.flag .useCanStruct with
      | true =>
        rw [hd] at hk hfl
        have eK : ({ K with frame := true } : Look) = K := by rw [← hk]
        obtain ⟨us, q1, q2⟩ := gS
        refine ⟨us, Gen.elseT hfw.1 (by omega) hfl (closeOp_comment hfw.1 (by omega)) q1 gA.skip, ?_⟩
        rw [eK] at q2
        exact q2
      | false =>
        rw [hd] at hk hfl
        have eK : ({ K with frame := false } : Look) = K := by rw [← hk]
        obtain ⟨us, q1, q2⟩ := gA
        refine ⟨us, Gen.elseF hfw.1 (by omega) hfl (closeOp_comment hfw.1 (by omega)) gS.skip q1, ?_⟩
        rw [eK] at q2
        exact q2
    have hE := (gU.append gP).append (GItems.silent Gen.empty)
    have e : functionsText g m uo ([opLine "{"] ++ so ++ packStructEnd m) ([opLine "{"] ++ ao ++ packArrayEnd m) =
      ([.appendF (unpackSig g m ++ "\n{".toList)] ++ ([opLine "  (void)dlc_;"] ++ uo) ++ ([opLine "}"] ++ [opEmpty])) ++
      ([opIfdef g.usestruct] ++ ([opEmpty, .appendF (packStructSig g m)] ++ ([opLine "{"] ++ so ++ packStructEnd m)) ++
        [opLine "#else"] ++ ([opEmpty, .appendF (packArraySig g m)] ++ ([opLine "{"] ++ ao ++ packArrayEnd m)) ++ [opEndif g.usestruct]) ++ [opEmpty] := by
      unfold functionsText
      simp only [List.append_assoc, List.cons_append, List.nil_append]
    rw [e]
    exact hE

end Funcs

end Verif
