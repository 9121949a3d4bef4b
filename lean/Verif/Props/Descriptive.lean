import Verif.Props.OtherLines
/-
C84: descriptive statements do not change the functions.
-/
namespace Verif
open Spec

/-- A signal without what only describes it: comment, value table, unit, range, receivers, kind of multiplexing. -/
def Spec.bareSig (s : Sig) : Sig :=
  { s with commentText := [], valueText := [], valDefs := {}, unit := [], minValue := Dec.ofInt 0, maxValue := Dec.ofInt 0, recS := [], multiplex := .none }

/-- A message without what only describes it: comment, cycle time, nodes. -/
def Spec.bareMsg (m : Msg) : Msg := { m with commentText := [], cycle := 0, tranS := [], recS := [], signals := m.signals.map bareSig }

/-! ### The functions -/

theorem bare_print (s : Sig) (tb : List Str) : printSignalText (bareSig s) tb = printSignalText s tb := rfl

theorem bare_buildLoop (ss : List Sig) (sx tb : List Str) : buildTextLoop (ss.map bareSig) sx tb = buildTextLoop ss sx tb := by
  induction ss generalizing sx tb with
  | nil => rfl
  | cons s ss ih =>
    rw [List.map_cons, buildTextLoop, buildTextLoop, bare_print]
    cases printSignalText s tb with
    | none => rfl
    | some r => exact ih _ _

theorem bare_build (m : Msg) : buildText (bareMsg m) = buildText m := bare_buildLoop _ _ _

theorem bare_sigAt (m : Msg) (i : Option Nat) : (bareMsg m).sigAt i = (m.sigAt i).map bareSig := by
  cases i with
  | none => rfl
  | some k =>
    show (m.signals.map bareSig)[k]? = (m.signals[k]?).map bareSig
    rw [List.getElem?_map]

theorem bare_unpackSigs (g : GenDesc) (ss : List Sig) (es : List Str) : unpackSigsOps g (ss.map bareSig) es = unpackSigsOps g ss es := by
  induction ss generalizing es with
  | nil => rfl
  | cons s ss ih =>
    cases es with
    | nil => rfl
    | cons e es =>
      rw [List.map_cons, unpackSigsOps, unpackSigsOps, ih]
      rfl

theorem bare_unpackRoll (g : GenDesc) (m : Msg) : unpackRollOps g (bareMsg m) = unpackRollOps g m := by
  unfold unpackRollOps
  rw [bare_sigAt, show (bareMsg m).rollSig = m.rollSig from rfl]
  cases m.sigAt m.rollSig <;> rfl

theorem bare_unpackCsm (g : GenDesc) (m : Msg) : unpackCsmOps g (bareMsg m) = unpackCsmOps g m := by
  unfold unpackCsmOps
  rw [bare_sigAt, show (bareMsg m).csmSig = m.csmSig from rfl]
  cases m.sigAt m.csmSig <;> rfl

theorem bare_packRoll (g : GenDesc) (m : Msg) : packRollOps g (bareMsg m) = packRollOps g m := by
  unfold packRollOps
  rw [bare_sigAt, show (bareMsg m).rollSig = m.rollSig from rfl]
  cases m.sigAt m.rollSig <;> rfl

theorem bare_packClear (g : GenDesc) (m : Msg) : packClearOps g (bareMsg m) = packClearOps g m := by
  unfold packClearOps
  rw [bare_sigAt, show (bareMsg m).csmSig = m.csmSig from rfl]
  cases m.sigAt m.csmSig <;> rfl

theorem bare_packCsm (g : GenDesc) (arr : Str) (m : Msg) : packCsmOps g arr (bareMsg m) = packCsmOps g arr m := by
  unfold packCsmOps
  rw [bare_sigAt, show (bareMsg m).csmSig = m.csmSig from rfl]
  cases m.sigAt m.csmSig <;> rfl

theorem bare_packPhys (g : GenDesc) (m : Msg) : packPhysOps g (bareMsg m) = packPhysOps g m := by
  unfold packPhysOps
  show (if m.hasPhys then _ else _) = _
  split
  · refine congrArg (fun x => [opIfdef g.usesigfloat] ++ x ++ [opEndif g.usesigfloat, opEmpty]) ?_
    show ((m.signals.map bareSig).filter _).map _ = _
    rw [List.filter_map, List.map_map]
    rfl
  · rfl

theorem bare_source (g : GenDesc) (m : Msg) : sourceMsgOps g (bareMsg m) = sourceMsgOps g m := by
  have hu : ∀ es, unpackBodyOps g (bareMsg m) es = unpackBodyOps g m es := by
    intro es
    unfold unpackBodyOps
    rw [bare_unpackRoll, bare_unpackCsm, show (bareMsg m).signals = m.signals.map bareSig from rfl, bare_unpackSigs]
    rfl
  have hp : ∀ arr bs, packCommonOps g arr (bareMsg m) bs = packCommonOps g arr m bs := by
    intro arr bs
    unfold packCommonOps
    rw [bare_packRoll, bare_packCsm, bare_packClear, bare_packPhys]
    rfl
  have h1 : ∀ bs, packStructOps g (bareMsg m) bs = packStructOps g m bs := fun bs => by
    unfold packStructOps
    rw [hp]
    rfl
  have h2 : ∀ bs, packArrayOps g (bareMsg m) bs = packArrayOps g m bs := fun bs => by
    unfold packArrayOps
    rw [hp]
    rfl
  unfold sourceMsgOps
  rw [bare_build]
  simp only [hu, h1, h2]
  rfl

/-- **C84**, the generator: the source file and the monitor files of two lists of messages that differ in descriptions only are the same, in every character. -/
theorem C84_generator (g : GenDesc) (ms ms' : List Msg) (h : ms.map bareMsg = ms'.map bareMsg) :
    mainSourceOps g ms = mainSourceOps g ms' ∧ fmonHeaderOps g ms = fmonHeaderOps g ms' ∧ fmonSourceOps g ms = fmonSourceOps g ms' := by
  have k1 : ∀ l : List Msg, mainSourceOps g l = mainSourceOps g (l.map bareMsg) := by
    intro l
    unfold mainSourceOps
    rw [List.map_map, show sourceMsgOps g ∘ bareMsg = sourceMsgOps g from funext (bare_source g)]
  have k2 : ∀ l : List Msg, fmonHeaderOps g l = fmonHeaderOps g (l.map bareMsg) := by
    intro l
    unfold fmonHeaderOps
    simp only [List.map_map]
    rfl
  have k3 : ∀ l : List Msg, fmonSourceOps g l = fmonSourceOps g (l.map bareMsg) := by
    intro l
    unfold fmonSourceOps
    simp only [List.map_map]
    rfl
  exact ⟨by rw [k1, h, ← k1], by rw [k2, h, ← k2], by rw [k3, h, ← k3]⟩

/-! ### The scanner -/

theorem splitGo_mem {m : Str → Option Nat} {f : Nat} {hit : Bool} {acc s p : Str} {x : Char} (hp : p ∈ splitGo m f hit acc s) (hx : x ∈ p) : x ∈ acc ∨ x ∈ s := by
  induction f generalizing hit acc s with
  | zero =>
    rw [splitGo, List.mem_singleton] at hp
    exact .inl (List.mem_reverse.1 (hp ▸ hx))
  | succ f ih =>
    cases s with
    | nil =>
      rw [splitGo] at hp
      split at hp
      · cases hp
      · rw [List.mem_singleton] at hp
        exact .inl (List.mem_reverse.1 (hp ▸ hx))
    | cons c s =>
      rw [splitGo] at hp
      split at hp
      · rcases List.mem_cons.1 hp with q | q
        · exact .inl (List.mem_reverse.1 (q ▸ hx))
        · rcases ih q with q | q
          · cases q
          · exact .inr (List.mem_of_mem_drop q)
      · rcases ih hp with q | q
        · rcases List.mem_cons.1 q with rfl | q
          · exact .inr List.mem_cons_self
          · exact .inl q
        · exact .inr (List.mem_cons_of_mem _ q)

theorem getD_mem_chars {ps : List Str} {i : Nat} {x : Char} (h : x ∈ ps.getD i []) : ∃ p ∈ ps, x ∈ p := by
  rw [List.getD_eq_getElem?_getD] at h
  cases e : ps[i]? with
  | none => rw [e] at h; cases h
  | some p => rw [e] at h; exact ⟨p, List.mem_of_getElem? e, h⟩

/-- A finished comment that is about something has its text from the statement. -/
theorem finish_text (P : Platform) (cm : Comment) {stmt : Str} (h : '<' ∉ stmt) : (finishComment P cm stmt).1.target = .undefined ∨ '<' ∉ (finishComment P cm stmt).1.text := by
  have hi : '<' ∉ (resplit mQuote stmt).getD 1 [] := by
    intro q
    obtain ⟨p, hp, hx⟩ := getD_mem_chars q
    rcases splitGo_mem hp hx with q | q
    · cases q
    · exact h q
  unfold finishComment
  dsimp only
  generalize resplit mQuote stmt = items at hi
  split
  · split
    · refine .inr ?_
      show '<' ∉ dropLastLf (items.getD 1 [])
      unfold dropLastLf
      split
      · exact fun q => hi (List.dropLast_subset _ q)
      · exact hi
    · exact .inl rfl
  · exact .inl rfl

theorem hasSub_none {s : Str} (h : '<' ∉ s) : hasSub "<RollingCounter>".toList s = false := by
  rw [← Bool.not_eq_true, hasSub_iff]
  rintro ⟨a, b, rfl⟩
  exact h (List.mem_append_right _ (List.mem_append_left _ (by decide)))

theorem csmTag_none (P : Platform) {s : Str} (h : '<' ∉ s) : csmTag P s = none := by
  unfold csmTag
  rw [show s.findIdx? (· == '<') = none from List.findIdx?_eq_none_iff.2 fun x hx => beq_eq_false_iff_ne.2 fun e => h (e ▸ hx)]

theorem modify_map {α β : Type} (b : α → β) (f : α → α) (hf : ∀ x, b (f x) = b x) (l : List α) (i : Nat) : (l.modify i f).map b = l.map b := by
  induction l generalizing i with
  | nil => simp
  | cons x l ih =>
    cases i with
    | zero => simp [hf]
    | succ i => simp [ih]

theorem bare_sigComment (P : Platform) {cm : Comment} (h : '<' ∉ cm.text) (m : Msg) (i : Nat) : bareMsg (sigComment P cm m i) = bareMsg m := by
  unfold sigComment
  rw [hasSub_none h, csmTag_none P h]
  split
  · rfl
  · split
    · show ({ (bareMsg m) with signals := (m.signals.modify i _).map bareSig } : Msg) = bareMsg m
      rw [modify_map bareSig (fun s => { s with commentText := cm.text }) (fun _ => rfl)]
      rfl
    · rfl

theorem bare_applyComment (P : Platform) {cm : Comment} (h : cm.target = .undefined ∨ '<' ∉ cm.text) (m : Msg) : bareMsg (applyComment P cm m) = bareMsg m := by
  unfold applyComment
  split
  · rfl
  · rename_i e
    have h : '<' ∉ cm.text := by
      rcases h with q | q
      · rw [e] at q; cases q
      · exact q
    generalize List.range m.signals.length = is
    induction is generalizing m with
    | nil => rfl
    | cons i is ih => rw [List.foldl_cons, ih, bare_sigComment P h]
  · rfl

theorem bare_applyVal (cm : Comment) (vt : ValTable) (m : Msg) : bareMsg (applyVal cm vt m) = bareMsg m := by
  unfold applyVal
  show ({ (bareMsg m) with signals := (m.signals.map _).map bareSig } : Msg) = bareMsg m
  rw [List.map_map]
  refine congrArg (fun x => ({ (bareMsg m) with signals := x } : Msg)) (List.map_congr_left fun s _ => ?_)
  show bareSig (if _ then _ else _) = _
  split <;> rfl

theorem bare_upd {f : Msg → Msg} (hf : ∀ m, bareMsg (f m) = bareMsg m) (ms : List Msg) (id : Nat) : (updMessage ms id f).map bareMsg = ms.map bareMsg := by
  unfold updMessage
  split
  · exact modify_map bareMsg f hf ms _
  · rfl

theorem collect_chars {start acc line : Str} (ha : '<' ∉ acc) (hl : '<' ∉ line) :
    '<' ∉ (collect start ['\n'] acc line).1 ∧ ∀ t, (collect start ['\n'] acc line).2 = some t → '<' ∉ t := by
  have hb : '<' ∉ acc ++ ['\n'] ++ line := by
    simp only [List.mem_append, not_or]
    exact ⟨⟨ha, by decide⟩, hl⟩
  have hc : '<' ∉ (if start.isPrefixOf line then line else if 0 < acc.length then acc ++ ['\n'] ++ line else acc) := by
    split
    · exact hl
    · split
      · exact hb
      · exact ha
  unfold collect
  split
  · exact ⟨ha, fun t q => nomatch q⟩
  · dsimp only
    generalize (if start.isPrefixOf line then line else if 0 < acc.length then acc ++ ['\n'] ++ line else acc) = x at hc
    split
    · exact ⟨List.not_mem_nil, fun t q => by cases q; exact hc⟩
    · exact ⟨hc, fun t q => nomatch q⟩

theorem bare_line (P : Platform) {st : Scan2} (hs : '<' ∉ st.commentline) {line : Str} (hl : '<' ∉ line) :
    (scanLine2 P st line).msgs.map bareMsg = st.msgs.map bareMsg ∧ '<' ∉ (scanLine2 P st line).commentline := by
  have hc : (commentStep P st line).msgs.map bareMsg = st.msgs.map bareMsg ∧ '<' ∉ (commentStep P st line).commentline := by
    obtain ⟨h1, h2⟩ := collect_chars (start := "CM_".toList) hs hl
    unfold commentStep parseCommentLine
    cases e : collect "CM_".toList ['\n'] st.commentline line with
    | mk acc o =>
      rw [e] at h1 h2
      cases o with
      | none => exact ⟨rfl, h1⟩
      | some t =>
        dsimp only
        have ht := finish_text P st.cm (h2 t rfl)
        cases ef : finishComment P st.cm t with
        | mk cm b =>
          rw [ef] at ht
          cases b with
          | true => exact ⟨bare_upd (bare_applyComment P ht) _ _, h1⟩
          | false => exact ⟨rfl, h1⟩
  have hv : ∀ s : Scan2, (valueStep P s line).msgs.map bareMsg = s.msgs.map bareMsg ∧ (valueStep P s line).commentline = s.commentline := by
    intro s
    unfold valueStep
    split
    · exact ⟨bare_upd (bare_applyVal _ _) _ _, rfl⟩
    · exact ⟨rfl, rfl⟩
  have ha : ∀ s : Scan2, (attribStep P s line).msgs.map bareMsg = s.msgs.map bareMsg ∧ (attribStep P s line).commentline = s.commentline := by
    intro s
    unfold attribStep
    split
    · rename_i id v _
      exact ⟨bare_upd (f := fun m => { m with cycle := v }) (fun _ => rfl) _ _, rfl⟩
    · exact ⟨rfl, rfl⟩
  unfold scanLine2
  rw [(ha _).1, (ha _).2, (hv _).1, (hv _).2]
  exact hc

theorem trim_chars {n : Nat} {l : Str} (h : '<' ∉ l) : '<' ∉ strTrim n l := by
  unfold strTrim
  split
  · intro q
    rcases List.mem_append.1 q with q | q
    · exact h q
    · exact absurd q (by decide)
  · dsimp only
    split
    · exact fun q => h (List.mem_of_mem_take q)
    · exact h

theorem bare_other (P : Platform) {ls : List Str} (h : ∀ l ∈ ls, '<' ∉ l) {st : Scan2} (hs : '<' ∉ st.commentline) : (parseOtherInfo P st ls).msgs.map bareMsg = st.msgs.map bareMsg := by
  unfold parseOtherInfo
  induction ls generalizing st with
  | nil => rfl
  | cons l ls ih =>
    have := bare_line P hs (trim_chars (n := P.charMax) (h l List.mem_cons_self))
    rw [List.foldl_cons, ih (fun x hx => h x (List.mem_cons_of_mem _ hx)) this.2, this.1]

/-- **C84**, the scanner: comments without tags, attributes and value tables change descriptions only. -/
theorem C84_scanner_partial (P : Platform) (text : Str) (h : ∀ l ∈ getLines text, '<' ∉ l) (L : DbcList) (hL : trimDbcText P text = .ok L) :
    ∃ L0, parseMessageInfo P {} (getLines text) = .ok L0 ∧ L.msgs.map bareMsg = L0.msgs.map bareMsg ∧ L.verHi = L0.verHi ∧ L.verLow = L0.verLow := by
  unfold trimDbcText at hL
  cases e : parseMessageInfo P {} (getLines text) with
  | ok L0 =>
    rw [e] at hL
    cases hL
    exact ⟨L0, rfl, bare_other P h (List.not_mem_nil), rfl, rfl⟩
  | ub => rw [e] at hL; cases hL
  | throws => rw [e] at hL; cases hL

/-- **C84**: two files with the same lines `pre` and then any comments, attributes and value tables, of which none has a tag.  The source file and the monitor files have the
same text. -/
theorem C84_files_partial (H : RunHost) (hsort : ∀ l, SortedBy (H.sort l) l) (text text' : Str) (pre body body' : List Str) (L L' : DbcList) (g : GenDesc)
    (h1 : getLines text = pre ++ body) (h2 : getLines text' = pre ++ body')
    (hi : ∀ l ∈ body, Inert H.plat (strTrim H.plat.charMax l)) (hi' : ∀ l ∈ body', Inert H.plat (strTrim H.plat.charMax l))
    (ht : ∀ l ∈ getLines text, '<' ∉ l) (ht' : ∀ l ∈ getLines text', '<' ∉ l)
    (hL : trimDbcText H.plat text = .ok L) (hL' : trimDbcText H.plat text' = .ok L') (hd : IdsDistinct L.msgs) :
    mainSourceOps g (H.sort L.msgs) = mainSourceOps g (H.sort L'.msgs) ∧ fmonHeaderOps g (H.sort L.msgs) = fmonHeaderOps g (H.sort L'.msgs) ∧
      fmonSourceOps g (H.sort L.msgs) = fmonSourceOps g (H.sort L'.msgs) ∧ L'.verHi = L.verHi ∧ L'.verLow = L.verLow := by
  obtain ⟨L0, a1, a2, a3, a4⟩ := C84_scanner_partial H.plat text ht L hL
  obtain ⟨L1, b1, b2, b3, b4⟩ := C84_scanner_partial H.plat text' ht' L' hL'
  rw [h1, parse_inert hi] at a1
  rw [h2, parse_inert hi'] at b1
  rw [a1] at b1
  cases b1
  have hb : L.msgs.map bareMsg = L'.msgs.map bareMsg := a2.trans b2.symm
  have srt : ∀ l : List Msg, SortedBy ((H.sort l).map bareMsg) (l.map bareMsg) := fun l =>
    ⟨(hsort l).1.map _, List.pairwise_map.2 ((hsort l).2.imp fun q => q)⟩
  have hd' : IdsDistinct (L.msgs.map bareMsg) := List.pairwise_map.2 (hd.imp fun q => q)
  have e := sorted_perm (List.Perm.of_eq hb) hd' (srt _) (srt _)
  obtain ⟨c1, c2, c3⟩ := C84_generator g _ _ e
  exact ⟨c1, c2, c3, b3.trans a3.symm, b4.trans a4.symm⟩

/-! ### Examples -/

/-- A check for `Inert`. -/
def quietB (P : Platform) (l : Str) : Bool := (matchVersion l).isNone && !IsHeader l && !IsTx P l && !l.contains ':'

theorem quietB_of {P : Platform} {l : Str} (h : quietB P l = true) : Inert P l := by
  unfold quietB at h
  simp only [Bool.and_eq_true, Bool.not_eq_true'] at h
  refine ⟨?_, h.1.1.2, h.1.2, fun _ => noColon_sig P fun q => ?_⟩
  · unfold findVersion
    rw [Option.isNone_iff_eq_none.1 h.1.1.1]
  · have := List.contains_iff_mem.2 q
    rw [h.2] at this
    cases this

namespace Fix

def descPre : List Str := ["VERSION \"1.2\"", "BU_: A B", "BO_ 5 Y: 8 B", " SG_ T : 0|12@1- (0.5,0) [0|0] \"km\" B", " SG_ U : 16|8@1+ (1,0) [0|0] \"\" A", "BO_ 7 X: 8 A", " SG_ V : 0|8@1+ (1,0) [0|0] \"\" B"].map String.toList
def descBody : List Str := ["CM_ SG_ 5 T \"speed", "of the car\";", "BA_ \"GenMsgCycleTime\" BO_ 5 100;", "VAL_ 5 U 0 \"off\" 1 \"on\" ;"].map String.toList
def descBody' : List Str := ["CM_ BO_ 7 \"second\";", "VAL_ 7 V 0 \"no\" 1 \"yes\" ;"].map String.toList

/-- The list of a file. -/
def listOf (text : Str) : DbcList := match trimDbcText (openHost []).plat text with
  | .ok L => L
  | _ => {}

end Fix

/-- Two files with different comments, cycle times and value tables. -/
example (g : GenDesc) : mainSourceOps g ((Fix.openHost []).sort (Fix.listOf (Fix.unlines (Fix.descPre ++ Fix.descBody))).msgs) =
    mainSourceOps g ((Fix.openHost []).sort (Fix.listOf (Fix.unlines (Fix.descPre ++ Fix.descBody'))).msgs) :=
  (C84_files_partial (Fix.openHost []) Fix.insSort_ok (Fix.unlines (Fix.descPre ++ Fix.descBody)) (Fix.unlines (Fix.descPre ++ Fix.descBody')) Fix.descPre Fix.descBody Fix.descBody' _ _ g
    (by decide +kernel) (by decide +kernel)
    (fun l hl => quietB_of (List.all_eq_true.1 (show (Fix.descBody.all fun l => quietB (Fix.openHost []).plat (strTrim (Fix.openHost []).plat.charMax l)) = true by decide +kernel) l hl))
    (fun l hl => quietB_of (List.all_eq_true.1 (show (Fix.descBody'.all fun l => quietB (Fix.openHost []).plat (strTrim (Fix.openHost []).plat.charMax l)) = true by decide +kernel) l hl))
    (by decide +kernel) (by decide +kernel) (by unfold Fix.listOf; cases h : trimDbcText (Fix.openHost []).plat (Fix.unlines (Fix.descPre ++ Fix.descBody)) with
      | ok L => rfl
      | _ => exact absurd (show (match trimDbcText (Fix.openHost []).plat (Fix.unlines (Fix.descPre ++ Fix.descBody)) with | .ok _ => true | _ => false) = true by decide +kernel) (by rw [h]; decide))
    (by unfold Fix.listOf; cases h : trimDbcText (Fix.openHost []).plat (Fix.unlines (Fix.descPre ++ Fix.descBody')) with
      | ok L => rfl
      | _ => exact absurd (show (match trimDbcText (Fix.openHost []).plat (Fix.unlines (Fix.descPre ++ Fix.descBody')) with | .ok _ => true | _ => false) = true by decide +kernel) (by rw [h]; decide))
    (by unfold IdsDistinct; decide +kernel)).1

/-- Their messages differ. -/
example : (Fix.listOf (Fix.unlines (Fix.descPre ++ Fix.descBody))).msgs ≠ (Fix.listOf (Fix.unlines (Fix.descPre ++ Fix.descBody'))).msgs := by decide +kernel

/-- With a tag the source file changes: the condition is needed. -/
example : (Fix.listOf (Fix.unlines (Fix.descPre ++ ["CM_ SG_ 5 U \"<RollingCounter>\";".toList]))).msgs.map (·.rollSig) = [some 1, none] ∧
    (Fix.listOf (Fix.unlines Fix.descPre)).msgs.map (·.rollSig) = [none, none] := by decide +kernel

end Verif
