import Verif.Props.Scanner
import Verif.Props.Pack
/-
C24 on the level of the parsed list, and C28.
-/
namespace Verif
open Spec

/-! ### C24, list level -/

/-- **C24**: every message of the parsed list has a DLC of 1 to 64 and an id of 29 bits. -/
theorem C24_list (P : Platform) (text : Str) (out : DbcList) (h : trimDbcText P text = .ok out) :
    ∀ m ∈ out.msgs, 1 ≤ m.dlc ∧ m.dlc ≤ 64 ∧ m.msgId < 2 ^ 29 := by
  intro m hm
  have h1 : m.core ∈ out.msgs.map Msg.core := List.mem_map_of_mem hm
  rw [trim_msgs h] at h1
  obtain ⟨m', hm', e⟩ := List.mem_map.mp h1
  obtain ⟨s, -, hs⟩ := List.mem_filterMap.mp hm'
  unfold secMsg at hs
  rw [Option.map_eq_some_iff] at hs
  obtain ⟨m0, hp, e2⟩ := hs
  obtain ⟨-, f2, f3, f4, -⟩ := foldl_addSignal m0 (sectionSigs P s.1 s.2)
  obtain ⟨-, c2, c3, -⟩ := closeMessage_fields P ((sectionSigs P s.1 s.2).foldl addSignal m0)
  have hd : m.dlc = m0.dlc := by
    have a : m.dlc = m'.dlc := (congrArg Msg.dlc e).symm
    have b : m'.dlc = _ := (congrArg Msg.dlc e2).symm
    exact a.trans (b.trans (c3.trans f4))
  have hi : m.msgId = m0.msgId := by
    have a : m.msgId = m'.msgId := (congrArg Msg.msgId e).symm
    have b : m'.msgId = _ := (congrArg Msg.msgId e2).symm
    exact a.trans (b.trans (c2.trans f3))
  rw [hd, hi]
  obtain ⟨a, b, c, -⟩ := C24_limits P s.1 m0 hp
  exact ⟨a, b, c⟩

/-! ### C28 -/

/-- The DLCs that count: of accepted sections that are followed by another header, without an
effective multi-transmitter line in between. -/
def countedDlcs (P : Platform) : List (Str × List Str) → List Nat
  | s :: t :: r =>
    (if s.2.any (IsTx P) then [] else ((parseMessageLine P s.1).map (·.dlc)).toList) ++ countedDlcs P (t :: r)
  | _ => []

/-- The DLC of the current message counts if another header follows before a multi-transmitter line. -/
def curDlc (P : Platform) (cur : Option Msg) (ls : List Str) : List Nat :=
  match cur with
  | none => []
  | some m => if ls.any IsHeader && !(ls.takeWhile fun x => !IsHeader x).any (IsTx P) then [m.dlc] else []

theorem sections_nil {ls : List Str} (h : ls.any IsHeader = false) : sections ls = [] := by
  induction ls with
  | nil => rfl
  | cons l ls ih =>
    rw [List.any_cons, Bool.or_eq_false_iff] at h
    rw [sections, if_neg (by rw [h.1]; decide), ih h.2]

theorem sections_ne {ls : List Str} (h : ls.any IsHeader = true) : ∃ t r, sections ls = t :: r := by
  induction ls with
  | nil => cases h
  | cons l ls ih =>
    by_cases hl : IsHeader l = true
    · exact ⟨_, _, by rw [sections, if_pos hl]⟩
    · rw [List.any_cons, Bool.or_eq_true] at h
      obtain ⟨t, r, e⟩ := ih (h.resolve_left hl)
      exact ⟨t, r, by rw [sections, if_neg hl, e]⟩

theorem counted_cons (P : Platform) {l : Str} {ls : List Str} (h : IsHeader l = true) :
    countedDlcs P (sections (l :: ls)) = curDlc P (parseMessageLine P l) ls ++ countedDlcs P (sections ls) := by
  rw [sections, if_pos h]
  unfold curDlc
  cases ha : ls.any IsHeader with
  | false =>
    rw [sections_nil ha]
    cases parseMessageLine P l <;> rfl
  | true =>
    obtain ⟨t, r, e⟩ := sections_ne ha
    rw [e, countedDlcs]
    congr 1
    dsimp only
    cases hp : parseMessageLine P l with
    | none => cases (ls.takeWhile fun x => !IsHeader x).any (IsTx P) <;> rfl
    | some m => cases (ls.takeWhile fun x => !IsHeader x).any (IsTx P) <;> rfl

theorem scanLines_max (P : Platform) (ls : List Str) (st st' : Scan) (h : scanLines P st ls = .ok st') :
    st'.list.maxDlc = (curDlc P st.cur (ls.map (strTrim P.charMax)) ++
      countedDlcs P (sections (ls.map (strTrim P.charMax)))).foldl max st.list.maxDlc := by
  induction ls generalizing st with
  | nil =>
    rw [scanLines] at h
    cases h
    cases st'.cur <;> rfl
  | cons l0 ls ih =>
    rw [scanLines] at h
    cases h1 : scanLine P st (strTrim P.charMax l0) with
    | ub => rw [h1] at h; cases h
    | throws => rw [h1] at h; cases h
    | ok sta =>
      rw [h1] at h
      dsimp only at h
      rw [ih sta h]
      clear ih h
      rw [List.map_cons]
      generalize strTrim P.charMax l0 = l at *
      generalize ls.map (strTrim P.charMax) = ts
      obtain ⟨st1, e1, e2, e3, h2⟩ := scanLine_ok h1
      dsimp only at h2
      by_cases hh : IsHeader l = true
      · rw [if_pos hh] at h2
        have htx := header_not_tx P hh
        have hcur : (curDlc P st.cur (l :: ts)).foldl max st.list.maxDlc = (headerStep P st1 l).list.maxDlc := by
          unfold curDlc headerStep
          rw [e2, e3]
          cases st.cur with
          | none => rfl
          | some m =>
            dsimp only
            rw [List.any_cons, hh, List.takeWhile_cons_of_neg (by rw [hh]; decide)]
            show max st.list.maxDlc m.dlc = _
            split <;> omega
        have hc2 : (headerStep P st1 l).cur = parseMessageLine P l := rfl
        have hd : ∀ (m : Msg) (l : List Sig), curDlc P (some (l.foldl addSignal m)) ts = curDlc P (some m) ts := by
          intro m l
          unfold curDlc
          dsimp only
          rw [(foldl_addSignal m l).2.2.2.1]
        have hsta : sta.list.maxDlc = (headerStep P st1 l).list.maxDlc ∧ curDlc P sta.cur ts = curDlc P (parseMessageLine P l) ts := by
          rw [hc2] at h2
          cases hp : parseMessageLine P l with
          | none =>
            rw [hp] at h2
            dsimp only at h2
            rw [transStep_no P htx] at h2
            rw [h2, hc2, hp]
            exact ⟨rfl, rfl⟩
          | some m =>
            rw [hp] at h2
            dsimp only at h2
            by_cases hs : isSignalLine l = true
            · rw [if_pos hs] at h2
              obtain ⟨r, hr, h2⟩ := h2
              rw [transStep_no P htx] at h2
              subst h2
              exact ⟨rfl, hd _ _⟩
            · rw [if_neg hs, transStep_no P htx] at h2
              rw [h2, hc2, hp]
              exact ⟨rfl, rfl⟩
        rw [hsta.1, hsta.2, List.foldl_append, counted_cons P hh, List.foldl_append, List.foldl_append, hcur]
      · have hh' : IsHeader l = false := by simpa using hh
        rw [if_neg hh] at h2
        have hsec : sections (l :: ts) = sections ts := by rw [sections, if_neg hh]
        rw [hsec, List.foldl_append, List.foldl_append]
        congr 1
        rw [e2] at h2
        cases hcur : st.cur with
        | none =>
          rw [hcur] at h2
          dsimp only at h2
          subst h2
          by_cases htx : IsTx P l = true
          · obtain ⟨a, _, b⟩ := transStep_yes P (st := st1) htx
            rw [a, b, e3]
            rfl
          · rw [transStep_no P (by simpa using htx), e2, e3, hcur]
            rfl
        | some m =>
          rw [hcur] at h2
          dsimp only at h2
          have hx : ∃ sigs : List Sig,
              sta = transStep P { list := st1.list, cur := some (sigs.foldl addSignal m) } l := by
            by_cases hs : isSignalLine l = true
            · rw [if_pos hs] at h2
              obtain ⟨r, hr, h2⟩ := h2
              exact ⟨r.toList, h2⟩
            · rw [if_neg hs] at h2
              refine ⟨[], ?_⟩
              rw [h2]
              congr 1
              show st1 = { list := st1.list, cur := some m }
              rw [← hcur, ← e2]
          obtain ⟨sigs, rfl⟩ := hx
          by_cases htx : IsTx P l = true
          · obtain ⟨a, _, b⟩ := transStep_yes P (st := { list := st1.list, cur := some (sigs.foldl addSignal m) }) htx
            rw [a, b]
            dsimp only
            rw [e3]
            unfold curDlc
            dsimp only
            rw [List.takeWhile_cons_of_pos (by rw [hh']; rfl), List.any_cons, List.any_cons, htx]
            simp
          · have htx' : IsTx P l = false := by simpa using htx
            rw [transStep_no P htx']
            dsimp only
            rw [e3]
            unfold curDlc
            dsimp only
            rw [List.takeWhile_cons_of_pos (by rw [hh']; rfl), List.any_cons, List.any_cons, htx', hh',
              (foldl_addSignal m sigs).2.2.2.1]
            rfl

theorem trim_max {P : Platform} {text : Str} {out : DbcList} (h : trimDbcText P text = .ok out) :
    out.maxDlc = (countedDlcs P (sections (fileLines P text))).foldl max 0 := by
  unfold trimDbcText parseMessageInfo at h
  cases hs : scanLines P { list := {} } (getLines text) with
  | ub => rw [hs] at h; cases h
  | throws => rw [hs] at h; cases h
  | ok st =>
    rw [hs] at h
    dsimp only at h
    cases h
    dsimp only
    exact scanLines_max P _ _ _ hs

theorem foldl_max_ge (l : List Nat) (a d : Nat) : d ≤ l.foldl max a ↔ d ≤ a ∨ ∃ x ∈ l, d ≤ x := by
  induction l generalizing a with
  | nil => simp
  | cons b l ih =>
    rw [List.foldl_cons, ih]
    simp only [List.mem_cons, exists_eq_or_imp]
    rw [← or_assoc]
    apply or_congr_left
    omega

/-- **C28**, exact: the generated maximum is at least the DLC of a message iff some message that is
followed by another header, without a multi-transmitter line in between, has a DLC at least as
large.  Full statement: the maximum is at least every DLC (false, `C28_refuted`). -/
theorem C28_exact_partial (P : Platform) (text : Str) (out : DbcList) (h : trimDbcText P text = .ok out) :
    ∀ m ∈ out.msgs, (m.dlc ≤ out.maxDlc ↔ ∃ d ∈ countedDlcs P (sections (fileLines P text)), m.dlc ≤ d) := by
  intro m hm
  have := (C24_list P text out h m hm).1
  rw [trim_max h, foldl_max_ge]
  constructor
  · rintro (h | h)
    · omega
    · exact h
  · exact Or.inr

/-- **C28**: the generated maximum is never above the largest DLC. -/
theorem C28_no_larger (P : Platform) (text : Str) (out : DbcList) (h : trimDbcText P text = .ok out)
    (hp : 0 < out.maxDlc) : ∃ m ∈ out.msgs, m.dlc = out.maxDlc := by
  have h1 := trim_max h
  have h2 : ∃ d ∈ countedDlcs P (sections (fileLines P text)), out.maxDlc = d := by
    rw [h1] at hp ⊢
    have key : ∀ (l : List Nat) (a : Nat), l.foldl max a = a ∨ ∃ d ∈ l, l.foldl max a = d := by
      intro l
      induction l with
      | nil => intro a; exact Or.inl rfl
      | cons b l ih =>
        intro a
        rw [List.foldl_cons]
        rcases ih (max a b) with e | ⟨d, hd, e⟩
        · by_cases hab : a ≤ b
          · exact Or.inr ⟨b, List.mem_cons_self, by rw [e]; omega⟩
          · exact Or.inl (by rw [e]; omega)
        · exact Or.inr ⟨d, List.mem_cons_of_mem _ hd, e⟩
    rcases key (countedDlcs P (sections (fileLines P text))) 0 with e | ⟨d, hd, e⟩
    · omega
    · exact ⟨d, hd, e⟩
  obtain ⟨d, hd, e⟩ := h2
  have h3 : ∀ ss : List (Str × List Str), d ∈ countedDlcs P ss → ∃ s ∈ ss, ∃ m0, parseMessageLine P s.1 = some m0 ∧ m0.dlc = d := by
    intro ss
    induction ss with
    | nil => intro h; cases h
    | cons s ss ih =>
      intro h
      cases ss with
      | nil => cases h
      | cons t r =>
        rw [countedDlcs, List.mem_append] at h
        rcases h with h | h
        · split at h
          · cases h
          · cases hp : parseMessageLine P s.1 with
            | none => rw [hp] at h; cases h
            | some m0 =>
              rw [hp] at h
              simp only [Option.map_some, Option.toList_some, List.mem_singleton] at h
              exact ⟨s, List.mem_cons_self, m0, hp, h.symm⟩
        · obtain ⟨s', hs', h⟩ := ih h
          exact ⟨s', List.mem_cons_of_mem _ hs', h⟩
  obtain ⟨s, hs, m0, hp0, hm0⟩ := h3 _ hd
  have hsec : secMsg P s = some (closeMessage P ((sectionSigs P s.1 s.2).foldl addSignal m0)).strip := by
    unfold secMsg; rw [hp0]; rfl
  have hin := List.mem_map_of_mem (f := Msg.core) (List.mem_filterMap.mpr ⟨s, hs, hsec⟩)
  rw [← trim_msgs h] at hin
  obtain ⟨m, hm, em⟩ := List.mem_map.mp hin
  refine ⟨m, hm, ?_⟩
  have a0 := congrArg Msg.dlc em
  have a : m.dlc = (closeMessage P ((sectionSigs P s.1 s.2).foldl addSignal m0)).dlc := a0
  rw [a, (closeMessage_fields P _).2.2.1, (foldl_addSignal m0 _).2.2.2.1, hm0, e]

/-- **C28**: a file with a single header has the maximum 0. -/
theorem C28_single (P : Platform) (text : Str) (out : DbcList) (h : trimDbcText P text = .ok out)
    (h1 : (sections (fileLines P text)).length ≤ 1) : out.maxDlc = 0 := by
  rw [trim_max h]
  cases hs : sections (fileLines P text) with
  | nil => rfl
  | cons s r =>
    cases r with
    | nil => rfl
    | cons t r => rw [hs] at h1; simp at h1

/-- **C28**, consequence: bytes from the generated maximum up to the DLC of the message are not
initialised by Pack, so bits of whatever was in the buffer survive there. -/
theorem C28_stale (cfg : Cfg) (msgs : List Msg) (m : Msg) (fl : FloatOps φ)
    (hash : List Nat → Nat → Nat → Str → Nat → Nat) (tick dlcArg : Nat) (st st' : St φ)
    (hm : MsgOk m) (hty : ∀ s ∈ m.signals, s.TypeOk)
    (hcs : CsmHyp cfg m) (hi : cfg.initByte < 256) (hd : IsPayload st.dat) (hlen : m.dlc ≤ st.dat.length)
    (h : runPack (mkCtx cfg msgs m fl hash tick dlcArg) m st = .ok st') :
    ∀ p, cfg.maxDlc ≤ p / 8 → payloadBit st.dat p = true → payloadBit st'.dat p = true := by
  obtain ⟨-, -, h3, -⟩ := pack_bits (c := mkCtx cfg msgs m fl hash tick dlcArg) rfl hm hty hcs hi hd hlen h
  intro p hp hb
  rw [h3]
  left
  unfold baseBit
  rw [if_neg]
  · exact hb
  · show ¬ p / 8 < min m.dlc cfg.maxDlc
    omega

/-- A file with one message. -/
def oneMsg : Str := "BO_ 100 Motor: 8 ECU\n SG_ Speed : 0|8@1+ (1,0) [0|255] \"\" Dash\n".toList

/-- The signal of the file. -/
def oneSig : Sig :=
  { name := "Speed".toList, lengthBit := 8, isSimple := true, maxValue := Dec.ofInt 255, recS := ["Dash".toList] }

/-- The message of the file. -/
def oneM : Msg :=
  { name := "Motor".toList, dlc := 8, msgId := 100, tranS := ["ECU".toList], recS := ["Dash".toList],
    frameNotEmpty := true, signals := [oneSig] }

/-- What the parser makes of it. -/
def oneMsgList : DbcList := { msgs := [oneM] }

/-- **C28** is false: for a file with one message of eight bytes the maximum is 0, and Pack of a
structure of zeros over a buffer of ones sends 255. -/
theorem C28_refuted : trimDbcText plat oneMsg = .ok oneMsgList ∧
    oneM.dlc = 8 ∧ oneMsgList.maxDlc = 0 ∧
    ∃ st st' : St Unit,
      runPack (mkCtx { Fix.plain with maxDlc := oneMsgList.maxDlc } [oneM] oneM Fix.fl Fix.hash 0 0) oneM st = .ok st' ∧
      st'.fld oneSig.name = 0 ∧ rawValue (oneSig.order == .intel) oneSig.startBit oneSig.lengthBit st'.dat = 255 := by
  refine ⟨by decide +kernel, rfl, rfl, ?_⟩
  refine ⟨Fix.st (List.replicate 8 255), ?_⟩
  have h : ∀ r, (match runPack (mkCtx { Fix.plain with maxDlc := oneMsgList.maxDlc } [oneM] oneM Fix.fl Fix.hash 0 0) oneM
      (Fix.st (List.replicate 8 255)) with
    | .ok st' => some (st'.fld oneSig.name, rawValue (oneSig.order == .intel) oneSig.startBit oneSig.lengthBit st'.dat)
    | _ => none) = some r → ∃ st', runPack (mkCtx { Fix.plain with maxDlc := oneMsgList.maxDlc } [oneM] oneM Fix.fl Fix.hash 0 0) oneM
      (Fix.st (List.replicate 8 255)) = .ok st' ∧
        (st'.fld oneSig.name, rawValue (oneSig.order == .intel) oneSig.startBit oneSig.lengthBit st'.dat) = r := by
    intro r hr
    split at hr
    next st' h => exact ⟨st', h, by simpa using hr⟩
    next => cases hr
  obtain ⟨st', h1, h2⟩ := h (0, 255) (by decide)
  simp only [Prod.mk.injEq] at h2
  exact ⟨st', h1, h2.1, h2.2⟩

end Verif
