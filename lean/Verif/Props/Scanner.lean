import Batteries.Data.List.Basic
import Verif.Spec.DbcFile
import Verif.Proofs.Tokens
import Verif.Props.SigLine
/-
C27, C28, C31 and the list level of C24.
-/
namespace Verif
open Spec

/-- A message without its transmitters. -/
def Msg.strip (m : Msg) : Msg := { m with tranS := [] }

theorem strip_modify (l : List Msg) (i : Nat) (g : List Str → List Str) :
    (l.modify i fun m => { m with tranS := g m.tranS }).map Msg.strip = l.map Msg.strip := by
  induction l generalizing i with
  | nil => cases i <;> rfl
  | cons a l ih =>
    cases i with
    | zero => rfl
    | succ i => simp only [List.modify_succ_cons, List.map_cons, ih]

theorem strip_upd (l : List Msg) (id : Nat) (g : List Str → List Str) :
    (updMessage l id fun m => { m with tranS := g m.tranS }).map Msg.strip = l.map Msg.strip := by
  unfold updMessage
  split
  · exact strip_modify _ _ _
  · rfl

/-- A header is no multi-transmitter line. -/
theorem header_not_tx (P : Platform) {l : Str} (h : IsHeader l = true) : IsTx P l = false := by
  unfold IsHeader at h
  rw [List.isPrefixOf_iff_prefix] at h
  obtain ⟨r, rfl⟩ := h
  have hd : ∀ x ∈ ' ' :: r.takeWhile (fun c => !isWord c), (fun c => !isWord c) x = true := by
    intro x hx
    rcases List.mem_cons.mp hx with rfl | hx
    · decide
    · exact mem_takeWhile hx
  have hb : ∀ c t, r.drop (r.takeWhile fun c => !isWord c).length = c :: t → (fun c => !isWord c) c = false := by
    intro c t e
    have : r.dropWhile (fun c => !isWord c) = c :: t := by
      rw [← e]
      clear e hd
      induction r with
      | nil => rfl
      | cons a r ih =>
        rw [List.dropWhile_cons, List.takeWhile_cons]
        split
        · exact ih
        · rfl
    have hn := List.head?_dropWhile_not (fun c => !isWord c) r
    rw [this] at hn
    simpa using hn
  have h0 : (resplit mTrans ("BO_ ".toList ++ r)).getD 0 [] = "BO_".toList := by
    have e : "BO_ ".toList ++ r = "BO_".toList ++ ((' ' :: r.takeWhile (fun c => !isWord c)) ++
        r.drop (r.takeWhile fun c => !isWord c).length) := by
      rw [List.cons_append, takeWhile_drop]; rfl
    rw [e]
    unfold mTrans
    rw [resplit_run (by decide) hd (by simp) hb]
    rfl
  unfold IsTx parseMultiTrans
  dsimp only
  rw [h0, if_neg (by rintro ⟨_, h⟩; exact absurd h (by decide))]
  rfl

/-- The signals of the lines of a section. -/
def lineSigs (P : Platform) (ls : List Str) : List Sig :=
  (ls.filter isSignalLine).filterMap fun l =>
    match parseSignalLine P l with
    | .ok r => r
    | _ => none

/-- All messages at the end of the first pass. -/
def Scan.finish (P : Platform) (st : Scan) : List Msg := addMessage P st.list.msgs st.cur

/-- The message of a section. -/
def secMsg (P : Platform) (s : Str × List Str) : Option Msg :=
  (parseMessageLine P s.1).map fun m => (closeMessage P ((sectionSigs P s.1 s.2).foldl addSignal m)).strip

/-- What the current message will become. -/
def curMsg (P : Platform) (cur : Option Msg) (ls : List Str) : List Msg :=
  match cur with
  | none => []
  | some m => [(closeMessage P ((lineSigs P (upTo (IsTx P) (ls.takeWhile fun x => !IsHeader x))).foldl addSignal m)).strip]

theorem transStep_no (P : Platform) {st : Scan} {l : Str} (h : IsTx P l = false) : transStep P st l = st := by
  unfold IsTx at h
  unfold transStep
  have : (parseMultiTrans P l).1 = 0 := by simpa using h
  dsimp only
  rw [if_neg (by rw [this]; simp)]

theorem transStep_yes (P : Platform) {st : Scan} {l : Str} (h : IsTx P l = true) :
    (transStep P st l).cur = none ∧
    (transStep P st l).list.msgs.map Msg.strip = (st.finish P).map Msg.strip ∧
    (transStep P st l).list.maxDlc = st.list.maxDlc := by
  unfold IsTx at h
  unfold transStep
  have : (parseMultiTrans P l).1 ≠ 0 := by simpa using h
  dsimp only
  rw [if_pos this]
  exact ⟨rfl, strip_upd _ _ (fun t => (parseMultiTrans P l).2.foldl addName t), rfl⟩

theorem lineSigs_cons_sig {P : Platform} {l : Str} {ls : List Str} {r : Option Sig} (h : isSignalLine l = true)
    (hp : parseSignalLine P l = .ok r) : lineSigs P (l :: ls) = r.toList ++ lineSigs P ls := by
  unfold lineSigs
  rw [List.filter_cons_of_pos h]
  cases r with
  | none => rw [List.filterMap_cons_none (by rw [hp])]; rfl
  | some s => rw [List.filterMap_cons_some (by rw [hp])]; rfl

theorem lineSigs_cons_no {P : Platform} {l : Str} {ls : List Str} (h : isSignalLine l = false) :
    lineSigs P (l :: ls) = lineSigs P ls := by
  unfold lineSigs
  rw [List.filter_cons_of_neg (by rw [h]; decide)]

theorem scanLine_ok {P : Platform} {st st' : Scan} {l : Str} (h : scanLine P st l = .ok st') :
    ∃ st1 : Scan, st1.list.msgs = st.list.msgs ∧ st1.cur = st.cur ∧ st1.list.maxDlc = st.list.maxDlc ∧
      let st2 := if IsHeader l then headerStep P st1 l else st1
      match st2.cur with
      | none => st' = transStep P st2 l
      | some m =>
        if isSignalLine l then
          ∃ r, parseSignalLine P l = .ok r ∧
            st' = transStep P { st2 with cur := some (r.toList.foldl addSignal m) } l
        else st' = transStep P st2 l := by
  unfold scanLine at h
  cases hv : findVersion P l with
  | ub => rw [hv] at h; cases h
  | throws => rw [hv] at h; cases h
  | ok ver =>
    rw [hv] at h
    dsimp only at h
    refine ⟨setVersion st ver, by cases ver <;> rfl, by cases ver <;> rfl, by cases ver <;> rfl, ?_⟩
    · generalize setVersion st ver = st1 at h
      unfold scanBody at h
      have e : isMessageLine l = IsHeader l := rfl
      rw [e] at h
      dsimp only at h ⊢
      generalize (if IsHeader l then headerStep P st1 l else st1) = st2 at h
      cases hc : st2.cur with
      | none => rw [hc] at h; cases h; rfl
      | some m =>
        rw [hc] at h
        dsimp only at h
        dsimp only
        by_cases hs : isSignalLine l = true
        · rw [if_pos hs] at h ⊢
          cases hp : parseSignalLine P l with
          | ub => rw [hp] at h; cases h
          | throws => rw [hp] at h; cases h
          | ok r =>
            rw [hp] at h
            cases r with
            | none =>
              cases h
              refine ⟨none, rfl, ?_⟩
              congr 1
              show st2 = { list := st2.list, cur := some m }
              rw [← hc]
            | some s => cases h; exact ⟨some s, rfl, rfl⟩
        · rw [if_neg hs] at h ⊢
          cases h; rfl

/-- The state machine of the scanner, for the messages without transmitters. -/
theorem scanLines_msgs (P : Platform) (ls : List Str) (st st' : Scan)
    (h : scanLines P st ls = .ok st') :
    (st'.finish P).map Msg.strip =
      st.list.msgs.map Msg.strip ++ curMsg P st.cur (ls.map (strTrim P.charMax)) ++
        (sections (ls.map (strTrim P.charMax))).filterMap (secMsg P) := by
  have fin : ∀ st : Scan, (st.finish P).map Msg.strip = st.list.msgs.map Msg.strip ++ curMsg P st.cur [] := by
    intro st
    unfold Scan.finish addMessage curMsg
    cases st.cur with
    | none => simp
    | some m => simp [lineSigs, upTo]
  induction ls generalizing st with
  | nil =>
    rw [scanLines] at h
    cases h
    rw [fin]
    simp [sections]
  | cons l0 ls ih =>
    rw [scanLines] at h
    cases h1 : scanLine P st (strTrim P.charMax l0) with
    | ub => rw [h1] at h; cases h
    | throws => rw [h1] at h; cases h
    | ok sta =>
      rw [h1] at h
      dsimp only at h
      have ih := ih sta h
      rw [ih]
      clear ih h
      rw [List.map_cons]
      generalize strTrim P.charMax l0 = l at *
      generalize ls.map (strTrim P.charMax) = ts
      obtain ⟨st1, e1, e2, e3, h2⟩ := scanLine_ok h1
      dsimp only at h2
      by_cases hh : IsHeader l = true
      · rw [if_pos hh] at h2
        have htx := header_not_tx P hh
        have hcur : curMsg P st.cur (l :: ts) = curMsg P st.cur [] := by
          unfold curMsg
          rw [List.takeWhile_cons_of_neg (by rw [hh]; decide)]
          rfl
        have hs2 : (headerStep P st1 l).list.msgs.map Msg.strip = st.list.msgs.map Msg.strip ++ curMsg P st.cur [] := by
          rw [← fin]
          unfold headerStep Scan.finish
          rw [e1, e2]
        have hsec : sections (l :: ts) = (l, ts.takeWhile fun x => !IsHeader x) :: sections ts := by
          rw [sections, if_pos hh]
        rw [hcur, hsec, ← hs2]
        have hc2 : (headerStep P st1 l).cur = parseMessageLine P l := rfl
        rw [hc2] at h2
        cases hp : parseMessageLine P l with
        | none =>
          rw [hp] at h2
          dsimp only at h2
          rw [transStep_no P htx] at h2
          subst h2
          rw [hc2, hp, List.filterMap_cons_none (by unfold secMsg; rw [hp]; rfl)]
          simp [curMsg]
        | some m =>
          rw [hp] at h2
          dsimp only at h2
          have hsm : secMsg P (l, ts.takeWhile fun x => !IsHeader x) =
              some (closeMessage P ((lineSigs P (l :: upTo (IsTx P) (ts.takeWhile fun x => !IsHeader x))).foldl
                addSignal m)).strip := by
            unfold secMsg sectionSigs
            dsimp only
            rw [hp, upTo, htx]
            rfl
          rw [List.filterMap_cons_some hsm]
          by_cases hs : isSignalLine l = true
          · rw [if_pos hs] at h2
            obtain ⟨r, hr, h2⟩ := h2
            rw [transStep_no P htx] at h2
            subst h2
            dsimp only
            rw [lineSigs_cons_sig hs hr, List.foldl_append, List.append_assoc]
            rfl
          · rw [if_neg hs] at h2
            rw [transStep_no P htx] at h2
            subst h2
            rw [lineSigs_cons_no (by simpa using hs), hc2, hp, List.append_assoc]
            rfl
      · have hh' : IsHeader l = false := by simpa using hh
        rw [if_neg hh] at h2
        have hsec : sections (l :: ts) = sections ts := by rw [sections, if_neg hh]
        rw [hsec]
        congr 1
        rw [e2] at h2
        cases hcur : st.cur with
        | none =>
          rw [hcur] at h2
          dsimp only at h2
          subst h2
          by_cases htx : IsTx P l = true
          · obtain ⟨a, b, _⟩ := transStep_yes P (st := st1) htx
            rw [a, b]
            unfold Scan.finish
            rw [e1, e2, hcur]
            rfl
          · rw [transStep_no P (by simpa using htx), e1, e2, hcur]
            rfl
        | some m =>
          rw [hcur] at h2
          dsimp only at h2
          have hcm : curMsg P (some m) (l :: ts) =
              [(closeMessage P ((lineSigs P (l :: if IsTx P l then [] else
                upTo (IsTx P) (ts.takeWhile fun x => !IsHeader x))).foldl addSignal m)).strip] := by
            unfold curMsg
            rw [List.takeWhile_cons_of_pos (by rw [hh']; rfl), upTo]
          rw [hcm]
          -- the signal step, then the transmitter step
          have hx : ∃ sigs : List Sig, (∀ ls, lineSigs P (l :: ls) = sigs ++ lineSigs P ls) ∧
              sta = transStep P { list := st1.list, cur := some (sigs.foldl addSignal m) } l := by
            by_cases hs : isSignalLine l = true
            · rw [if_pos hs] at h2
              obtain ⟨r, hr, h2⟩ := h2
              exact ⟨r.toList, fun _ => lineSigs_cons_sig hs hr, h2⟩
            · rw [if_neg hs] at h2
              refine ⟨[], fun _ => lineSigs_cons_no (by simpa using hs), ?_⟩
              rw [h2]
              congr 1
              show st1 = { list := st1.list, cur := some m }
              rw [← hcur, ← e2]
          obtain ⟨sigs, hl, rfl⟩ := hx
          rw [hl, List.foldl_append]
          by_cases htx : IsTx P l = true
          · rw [if_pos htx]
            obtain ⟨a, b, _⟩ := transStep_yes P (st := { list := st1.list, cur := some (sigs.foldl addSignal m) }) htx
            rw [a, b, fin]
            dsimp only
            rw [e1]
            simp [curMsg, lineSigs, upTo]
          · rw [if_neg htx, transStep_no P (by simpa using htx)]
            dsimp only
            rw [e1]
            rfl

/-! ### The second pass keeps names, ids and layouts -/

/-- A signal without what comments and value tables say about it. -/
def Sig.core (s : Sig) : Sig := { s with commentText := [], valueText := [], valDefs := {} }

/-- A message without transmitters, comments, value tables, tags and cycle time. -/
def Msg.core (m : Msg) : Msg :=
  { m with tranS := [], signals := m.signals.map Sig.core, commentText := [], cycle := 0, rollSig := none,
           csmSig := none, csmMethod := [], csmOp := 0 }

theorem core_strip (m : Msg) : m.strip.core = m.core := rfl

theorem core_modify {l : List Msg} {i : Nat} {f : Msg → Msg} (hf : ∀ m, (f m).core = m.core) :
    (l.modify i f).map Msg.core = l.map Msg.core := by
  induction l generalizing i with
  | nil => cases i <;> rfl
  | cons a l ih =>
    cases i with
    | zero => simp only [List.modify_zero_cons, List.map_cons, hf]
    | succ i => simp only [List.modify_succ_cons, List.map_cons, ih]

theorem core_upd {l : List Msg} {id : Nat} {f : Msg → Msg} (hf : ∀ m, (f m).core = m.core) :
    (updMessage l id f).map Msg.core = l.map Msg.core := by
  unfold updMessage
  split
  · exact core_modify hf
  · rfl

theorem sig_modify (l : List Sig) (i : Nat) (t : Str) :
    (l.modify i fun s => { s with commentText := t }).map Sig.core = l.map Sig.core := by
  induction l generalizing i with
  | nil => cases i <;> rfl
  | cons a l ih =>
    cases i with
    | zero => rfl
    | succ i => simp only [List.modify_succ_cons, List.map_cons, ih]

theorem core_sigComment (P : Platform) (cm : Comment) (m : Msg) (i : Nat) : (sigComment P cm m i).core = m.core := by
  have key : ({ m with signals := m.signals.modify i fun s => { s with commentText := cm.text } } : Msg).core = m.core := by
    unfold Msg.core
    dsimp only
    rw [sig_modify]
  unfold sigComment
  cases m.signals[i]? with
  | none => rfl
  | some s =>
    dsimp only
    by_cases hn : cm.sigName = s.name ∨ cm.sigName ++ "_ro".toList = s.name
    · rw [if_pos hn]
      have hk : ∀ m' : Msg, m'.core = m.core → ∀ o : Option (Str × Nat),
          (match o with
            | some (method, op) =>
              if (s.isSimple && boundaryOk s && !s.signed) = true then
                { m' with csmSig := some i, csmMethod := method, csmOp := op } else m'
            | none => m').core = m.core := by
        intro m' hm' o
        cases o with
        | none => exact hm'
        | some p => dsimp only; split <;> exact hm'
      apply hk
      by_cases hr : hasSub "<RollingCounter>".toList cm.text = true
      · rw [if_pos hr]; exact key
      · rw [if_neg hr]; exact key
    · rw [if_neg hn]

theorem core_applyComment (P : Platform) (cm : Comment) (m : Msg) : (applyComment P cm m).core = m.core := by
  unfold applyComment
  cases cm.target with
  | message => rfl
  | undefined => rfl
  | signal =>
    dsimp only
    generalize List.range m.signals.length = l
    induction l generalizing m with
    | nil => rfl
    | cons a l ih => rw [List.foldl_cons, ih, core_sigComment]

theorem core_applyVal (cm : Comment) (vt : ValTable) (m : Msg) : (applyVal cm vt m).core = m.core := by
  unfold applyVal Msg.core
  dsimp only
  congr 1
  rw [List.map_map]
  apply List.map_congr_left
  intro s _
  rw [Function.comp]
  split <;> rfl

theorem core_scanLine2 (P : Platform) (st : Scan2) (l : Str) :
    (scanLine2 P st l).msgs.map Msg.core = st.msgs.map Msg.core := by
  have h1 : ∀ st : Scan2, (commentStep P st l).msgs.map Msg.core = st.msgs.map Msg.core := by
    intro st
    unfold commentStep
    split
    · exact core_upd (core_applyComment P _)
    · rfl
  have h2 : ∀ st : Scan2, (valueStep P st l).msgs.map Msg.core = st.msgs.map Msg.core := by
    intro st
    unfold valueStep
    split
    · exact core_upd (core_applyVal _ _)
    · rfl
  have h3 : ∀ st : Scan2, (attribStep P st l).msgs.map Msg.core = st.msgs.map Msg.core := by
    intro st
    unfold attribStep
    split
    · exact core_upd (fun _ => rfl)
    · rfl
  unfold scanLine2
  rw [h3, h2, h1]

theorem core_parseOtherInfo (P : Platform) (st : Scan2) (ls : List Str) :
    (parseOtherInfo P st ls).msgs.map Msg.core = st.msgs.map Msg.core := by
  unfold parseOtherInfo
  induction ls generalizing st with
  | nil => rfl
  | cons l ls ih => rw [List.foldl_cons, ih, core_scanLine2]

/-- The lines of a file as the scanner sees them. -/
def fileLines (P : Platform) (text : Str) : List Str := (getLines text).map (strTrim P.charMax)

theorem trim_msgs {P : Platform} {text : Str} {out : DbcList} (h : trimDbcText P text = .ok out) :
    out.msgs.map Msg.core = ((sections (fileLines P text)).filterMap (secMsg P)).map Msg.core := by
  unfold trimDbcText parseMessageInfo at h
  cases hs : scanLines P { list := {} } (getLines text) with
  | ub => rw [hs] at h; cases h
  | throws => rw [hs] at h; cases h
  | ok st =>
    rw [hs] at h
    dsimp only at h
    cases h
    dsimp only
    rw [core_parseOtherInfo]
    have := scanLines_msgs P _ _ _ hs
    have h2 : ((st.finish P).map Msg.strip).map Msg.core = (st.finish P).map Msg.core := by
      rw [List.map_map]; rfl
    show (st.finish P).map Msg.core = _
    rw [← h2, this]
    rfl

/-! ### C27 -/

/-- `std::sort` by start bit. -/
def SortsByStart (P : Platform) : Prop :=
  ∀ l, (P.sortSigs l).Perm l ∧ (P.sortSigs l).Pairwise fun a b => a.startBit ≤ b.startBit

theorem foldl_addSignal (m : Msg) (l : List Sig) :
    (l.foldl addSignal m).signals = m.signals ++ l ∧ (l.foldl addSignal m).name = m.name ∧
    (l.foldl addSignal m).msgId = m.msgId ∧ (l.foldl addSignal m).dlc = m.dlc ∧ (l.foldl addSignal m).isExt = m.isExt ∧
    (l.foldl addSignal m).recS = m.recS ∧ (l.foldl addSignal m).tranS = m.tranS := by
  induction l generalizing m with
  | nil => simp
  | cons s l ih =>
    rw [List.foldl_cons]
    obtain ⟨a, b, c, d, e, f, g⟩ := ih (addSignal m s)
    refine ⟨?_, b, c, d, e, f, g⟩
    rw [a]
    simp [addSignal]

theorem closeMessage_fields (P : Platform) (m : Msg) :
    (closeMessage P m).name = m.name ∧ (closeMessage P m).msgId = m.msgId ∧ (closeMessage P m).dlc = m.dlc ∧
    (closeMessage P m).isExt = m.isExt ∧ (closeMessage P m).tranS = m.tranS ∧
    (closeMessage P m).signals = (if 0 < m.signals.length then P.sortSigs m.signals else m.signals) ∧
    (closeMessage P m).recS = (if 0 < m.signals.length then
      ((P.sortSigs m.signals).flatMap (·.recS)).foldl addName m.recS else m.recS) := by
  unfold closeMessage
  split <;> exact ⟨rfl, rfl, rfl, rfl, rfl, rfl, rfl⟩

theorem parseMessageLine_empty {P : Platform} {l : Str} {m : Msg} (h : parseMessageLine P l = some m) :
    m.signals = [] ∧ m.recS = [] := by
  unfold parseMessageLine at h
  dsimp only at h
  by_cases h1 : (resplit mMessage l).length < 5
  · rw [if_pos h1] at h; cases h
  · rw [if_neg h1] at h
    split at h
    · cases h
    · cases h; exact ⟨rfl, rfl⟩

/-- The message `m` is what the section `s` says: it has the name, id, DLC and frame format of the
header and exactly the signals of the section, ordered by start bit. -/
def FromSection (P : Platform) (s : Str × List Str) (m : Msg) : Prop :=
  (∃ m0, parseMessageLine P s.1 = some m0 ∧
    m.name = m0.name ∧ m.msgId = m0.msgId ∧ m.dlc = m0.dlc ∧ m.isExt = m0.isExt) ∧
  (m.signals.map Sig.core).Perm ((sectionSigs P s.1 s.2).map Sig.core) ∧
  m.signals.Pairwise fun a b => a.startBit ≤ b.startBit

theorem fromSection_of_core {P : Platform} (hs : SortsByStart P) {s : Str × List Str} {m m' : Msg}
    (h : secMsg P s = some m') (hc : m.core = m'.core) : FromSection P s m := by
  unfold secMsg at h
  rw [Option.map_eq_some_iff] at h
  obtain ⟨m0, hp, e⟩ := h
  subst e
  rw [core_strip] at hc
  obtain ⟨f1, f2, f3, f4, f5, f6, f7⟩ := foldl_addSignal m0 (sectionSigs P s.1 s.2)
  obtain ⟨c1, c2, c3, c4, c5, c6, c7⟩ := closeMessage_fields P ((sectionSigs P s.1 s.2).foldl addSignal m0)
  have hsig := congrArg Msg.signals hc
  have hnil := (parseMessageLine_empty hp).1
  rw [hnil, List.nil_append] at f1
  rw [f1] at c6
  have hsig' : m.signals.map Sig.core =
      ((closeMessage P ((sectionSigs P s.1 s.2).foldl addSignal m0)).signals).map Sig.core := hsig
  have hperm : ((closeMessage P ((sectionSigs P s.1 s.2).foldl addSignal m0)).signals).Perm (sectionSigs P s.1 s.2) ∧
      ((closeMessage P ((sectionSigs P s.1 s.2).foldl addSignal m0)).signals).Pairwise fun a b => a.startBit ≤ b.startBit := by
    rw [c6]
    split
    · exact hs _
    · rename_i hz
      have : sectionSigs P s.1 s.2 = [] := List.length_eq_zero_iff.mp (by omega)
      rw [this]
      exact ⟨List.Perm.refl _, List.Pairwise.nil⟩
  refine ⟨⟨m0, hp, ?_, ?_, ?_, ?_⟩, ?_, ?_⟩
  · exact (congrArg Msg.name hc).trans (c1.trans f2)
  · exact (congrArg Msg.msgId hc).trans (c2.trans f3)
  · exact (congrArg Msg.dlc hc).trans (c3.trans f4)
  · exact (congrArg Msg.isExt hc).trans (c4.trans f5)
  · rw [hsig']
    exact hperm.1.map _
  · have h2 := hperm.2
    have e : ∀ l : List Sig, (l.map Sig.core).Pairwise (fun a b => a.startBit ≤ b.startBit) ↔
        l.Pairwise fun a b => a.startBit ≤ b.startBit := by
      intro l
      rw [List.pairwise_map]
      rfl
    rw [← e, hsig', e]
    exact h2

/-- **C27**: the messages of the parsed list are, in order, the accepted sections of the file, each
with exactly its own signals ordered by start bit. -/
theorem C27_sections (P : Platform) (hs : SortsByStart P) (text : Str) (out : DbcList)
    (h : trimDbcText P text = .ok out) :
    List.Forall₂ (FromSection P)
      ((sections (fileLines P text)).filter fun s => (parseMessageLine P s.1).isSome) out.msgs := by
  have hm := trim_msgs h
  generalize out.msgs = ms at hm
  clear h
  generalize sections (fileLines P text) = ss at hm
  induction ss generalizing ms with
  | nil =>
    cases ms with
    | nil => exact List.Forall₂.nil
    | cons a l => cases hm
  | cons s ss ih =>
    cases hp : secMsg P s with
    | none =>
      have hn : (parseMessageLine P s.1).isSome = false := by
        unfold secMsg at hp
        cases hq : parseMessageLine P s.1 with
        | none => rfl
        | some m => rw [hq] at hp; cases hp
      rw [List.filterMap_cons_none hp] at hm
      rw [List.filter_cons_of_neg (by rw [hn]; decide)]
      exact ih ms hm
    | some m' =>
      have hn : (parseMessageLine P s.1).isSome = true := by
        unfold secMsg at hp
        cases hq : parseMessageLine P s.1 with
        | none => rw [hq] at hp; cases hp
        | some m => rfl
      rw [List.filterMap_cons_some hp] at hm
      rw [List.filter_cons, if_pos hn]
      cases ms with
      | nil => cases hm
      | cons a l =>
        rw [List.map_cons, List.map_cons] at hm
        injection hm with h1 h2
        exact List.Forall₂.cons (fromSection_of_core hs hp h1) (ih l h2)

/-! ### Example -/

/-- Insertion by start bit. -/
def insSig (a : Sig) : List Sig → List Sig
  | [] => [a]
  | b :: l => if a.startBit ≤ b.startBit then a :: b :: l else b :: insSig a l

/-- A platform whose `std::sort` is an insertion sort. -/
def platIns : Platform := { plat with sortSigs := fun l => l.foldr insSig [] }

theorem insSig_perm (a : Sig) (l : List Sig) : (insSig a l).Perm (a :: l) := by
  induction l with
  | nil => exact List.Perm.refl _
  | cons b l ih =>
    rw [insSig]
    split
    · exact List.Perm.refl _
    · exact (ih.cons b).trans (List.Perm.swap a b l)

theorem insSig_sorted (a : Sig) (l : List Sig) (h : l.Pairwise fun a b => a.startBit ≤ b.startBit) :
    (insSig a l).Pairwise fun a b => a.startBit ≤ b.startBit := by
  induction l with
  | nil => exact List.pairwise_singleton _ _
  | cons b l ih =>
    rw [List.pairwise_cons] at h
    rw [insSig]
    split
    · rename_i hab
      rw [List.pairwise_cons]
      refine ⟨?_, List.pairwise_cons.mpr h⟩
      intro c hc
      rcases List.mem_cons.mp hc with rfl | hc
      · exact hab
      · exact Nat.le_trans hab (h.1 c hc)
    · rename_i hab
      rw [List.pairwise_cons]
      refine ⟨?_, ih h.2⟩
      intro c hc
      rcases List.mem_cons.mp ((insSig_perm a l).mem_iff.mp hc) with rfl | hc
      · omega
      · exact h.1 c hc

theorem platIns_sorts : SortsByStart platIns := by
  intro l
  show (l.foldr insSig []).Perm l ∧ (l.foldr insSig []).Pairwise _
  induction l with
  | nil => exact ⟨List.Perm.refl _, List.Pairwise.nil⟩
  | cons a l ih =>
    rw [List.foldr_cons]
    exact ⟨(insSig_perm _ _).trans (ih.1.cons a), insSig_sorted _ _ ih.2⟩

/-- A file with two accepted headers and one rejected header (DLC 0), each followed by signals. -/
def threeText : Str := ("BO_ 100 Motor: 8 ECU\n SG_ B : 8|8@1+ (1,0) [0|255] \"\" Dash\n SG_ A : 0|8@1+ (1,0) [0|255] \"\" Dash\n" ++
  "BO_ 101 Bad: 0 ECU\n SG_ X : 0|8@1+ (1,0) [0|255] \"\" Dash\n" ++
  "BO_ 102 Gear: 2 ECU\n SG_ C : 0|4@1+ (1,0) [0|15] \"\" Dash\n").toList

example : (match trimDbcText platIns threeText with
    | .ok out => some (out.msgs.map fun m => (m.msgId, m.signals.map (·.name)))
    | _ => none) = some [(100, ["A".toList, "B".toList]), (102, ["C".toList])] := by decide +kernel

end Verif
