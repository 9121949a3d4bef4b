import Verif.Props.Tags
import Verif.Props.SigLine
import Verif.Spec.DbcMessage
/-
Messages stated by a file and the messages of the parsed list.
-/
namespace Verif
open Spec

/-! ### Lines that are no signal lines -/

theorem split_head {m : Str → Option Nat} {f : Nat} {hit : Bool} {acc s p : Str} {l : List Str} (h : splitGo m f hit acc s = p :: l) :
    ∃ t, p = acc.reverse ++ t ∧ t <+: s := by
  induction f generalizing hit acc s with
  | zero =>
    rw [splitGo] at h
    injection h with h1 h2
    exact ⟨[], by rw [← h1, List.append_nil], List.nil_prefix⟩
  | succ f ih =>
    cases s with
    | nil =>
      rw [splitGo] at h
      split at h
      · cases h
      · injection h with h1 h2
        exact ⟨[], by rw [← h1, List.append_nil], List.nil_prefix⟩
    | cons c cs =>
      rw [splitGo] at h
      cases hm : m (c :: cs) with
      | some n =>
        rw [hm] at h
        injection h with h1 h2
        exact ⟨[], by rw [← h1, List.append_nil], List.nil_prefix⟩
      | none =>
        rw [hm] at h
        obtain ⟨t, e, ht⟩ := ih h
        exact ⟨c :: t, by rw [e]; simp, List.cons_prefix_cons.2 ⟨rfl, ht⟩⟩

theorem split_second {m : Str → Option Nat} {f : Nat} {hit : Bool} {acc s p q : Str} {l : List Str} (h : splitGo m f hit acc s = p :: q :: l) :
    ∃ x y n, s = x ++ y ∧ m y = some n ∧ q <+: y.drop n := by
  induction f generalizing hit acc s with
  | zero => rw [splitGo] at h; cases h
  | succ f ih =>
    cases s with
    | nil =>
      rw [splitGo] at h
      split at h
      · cases h
      · cases h
    | cons c cs =>
      rw [splitGo] at h
      cases hm : m (c :: cs) with
      | some n =>
        rw [hm] at h
        injection h with h1 h2
        obtain ⟨t, e, ht⟩ := split_head h2
        exact ⟨[], c :: cs, n, rfl, hm, by rw [e]; exact ht⟩
      | none =>
        rw [hm] at h
        obtain ⟨x, y, n, e, r⟩ := ih h
        exact ⟨c :: x, y, n, by rw [e]; rfl, r⟩

theorem split_quotes {f : Nat} {hit : Bool} {acc s : Str} : (splitGo mQuote f hit acc s).length ≤ s.count '"' + 1 := by
  induction f generalizing hit acc s with
  | zero => rw [splitGo]; simp
  | succ f ih =>
    cases s with
    | nil => rw [splitGo]; split <;> simp
    | cons c cs =>
      rw [splitGo]
      by_cases hc : c = '"'
      · subst hc
        have : mQuote ('"' :: cs) = some 1 := rfl
        rw [this, List.count_cons_self]
        have := ih (hit := true) (acc := []) (s := cs)
        simp only [List.length_cons, List.drop_succ_cons, List.drop_zero]
        omega
      · have : mQuote (c :: cs) = none := by
          unfold mQuote mOne
          simp [hc]
        rw [this, List.count_cons_of_ne hc]
        exact ih

theorem isWs_blank (c : Char) : isWs c = true ↔ IsBlankC c := isWs_iff c

theorem colon_match {y : Str} {n : Nat} (h : mColon y = some n) :
    ∃ a x z b, y = a ++ x :: ':' :: z :: b ∧ IsBlankC x ∧ IsBlankC z ∧ (y.drop n).count '"' ≤ b.count '"' := by
  unfold mColon at h
  dsimp only at h
  split at h
  · rename_i r hr
    split at h
    · cases h
    · rename_i hn
      injection h with h
      have hs : y = y.takeWhile isWs ++ ':' :: r := by
        rw [← hr]; exact (takeWhile_drop isWs y).symm
      have hall : ∀ c ∈ y.takeWhile isWs, isWs c = true := fun c hc => mem_takeWhile hc
      cases r with
      | nil => exact absurd (Or.inr rfl) hn
      | cons z t =>
        have hz : isWs z = true := by
          cases hz : isWs z with
          | true => rfl
          | false => rw [List.takeWhile_cons_of_neg (by rw [hz]; decide)] at hn; exact absurd (Or.inr rfl) hn
        rcases List.eq_nil_or_concat (y.takeWhile isWs) with e | ⟨a, x, e⟩
        · rw [e] at hn; exact absurd (Or.inl rfl) hn
        · refine ⟨a, x, z, t, ?_, (isWs_blank x).1 (hall x (by rw [e]; simp)), (isWs_blank z).1 hz, ?_⟩
          · rw [hs, e]
            simp
          · have hd : y.drop n = (z :: t).drop ((z :: t).takeWhile isWs).length := by
              rw [← h]
              conv => lhs; arg 2; rw [hs]
              rw [Nat.add_assoc, List.drop_append, List.drop_eq_nil_of_le (by omega), List.nil_append, Nat.add_sub_cancel_left,
                Nat.add_comm, List.drop_succ_cons]
            rw [hd, List.takeWhile_cons_of_pos hz, List.length_cons, List.drop_succ_cons]
            exact List.Sublist.count_le _ (List.drop_sublist _ _)
  · cases h

theorem else_of {c : Prop} [Decidable c] {x : Res (Option Sig)} {s : Sig} (h : (if c then .ok none else x) = .ok (some s)) : ¬ c ∧ x = .ok (some s) := by
  by_cases hc : c
  · rw [if_pos hc] at h; cases h
  · exact ⟨hc, by rwa [if_neg hc] at h⟩

theorem finish_three {g : Option Sig} {c : Prop} [Decidable c] {u : Str} {r : List Str} {s : Sig}
    (h : (match g with
        | none => Res.ub
        | some s => if c then .ok (some { markSimple s with unit := u, recS := r }) else .ok none) = .ok (some s)) : c := by
  cases g with
  | none => cases h
  | some s1 =>
    dsimp only at h
    by_cases hc : c
    · exact hc
    · rw [if_neg hc] at h; cases h

theorem signal_halfs {P : Platform} {l : Str} {s : Sig} (h : parseSignalLine P l = .ok (some s)) :
    ¬ (resplit mColon l).length < 2 ∧ (resplit mQuote ((resplit mColon l).getD 1 [])).length = 3 := by
  unfold parseSignalLine at h
  obtain ⟨h1, h⟩ := else_of h
  exact ⟨h1, finish_three (else_of (else_of h).2).2⟩

theorem no_signal {P : Platform} {l : Str} {r : Option Sig} (h : NoSigLine l) (hp : parseSignalLine P l = .ok r) : r = none := by
  cases r with
  | none => rfl
  | some s =>
    exfalso
    obtain ⟨hlen, h3⟩ := signal_halfs hp
    cases hh : resplit mColon l with
    | nil => rw [hh] at hlen; exact hlen (by simp)
    | cons p ls =>
      cases ls with
      | nil => rw [hh] at hlen; exact hlen (by simp)
      | cons q ls =>
        rw [hh] at h3
        have eg : (p :: q :: ls).getD 1 [] = q := rfl
        rw [eg] at h3
        unfold resplit at hh h3
        obtain ⟨x, y, n, e, hm, hq⟩ := split_second hh
        have hc := split_quotes (f := q.length + 1) (hit := false) (acc := []) (s := q)
        obtain ⟨a, u, z, b, e2, hu, hz, hb⟩ := colon_match hm
        have h4 := h (x ++ a) u z b (by rw [e, e2, List.append_assoc]) hu hz
        have h5 := List.Sublist.count_le '"' hq.sublist
        omega

theorem noSig_of_quotes {l : Str} (h : l.count '"' < 2) : NoSigLine l := by
  intro a x z b e _ _
  have : b <:+ l := ⟨a ++ [x, ':', z], by rw [e]; simp⟩
  have := List.Sublist.count_le '"' this.sublist
  omega

theorem header_noSig (d : MsgDesc) (hn : IsIdent d.name) (ht : ∀ c ∈ d.tx, IsLetter c ∨ IsDigit c) : NoSigLine d.header := by
  refine noSig_of_quotes (Nat.lt_of_le_of_lt (Nat.le_of_eq (List.count_eq_zero.2 ?_)) (by decide : 0 < 2))
  have hw : ∀ s : Str, (∀ c ∈ s, isWord c = true) → '"' ∉ s := fun s h hm => absurd (h _ hm) (by decide)
  have h1 := hw _ (decStr_word (fileId d.id d.ext))
  have h2 := hw _ (decStr_word d.dlc)
  have h3 := hw _ (fun c hc => (isWord_iff c).mpr ((ident_word hn).2 c hc))
  have h4 := hw _ (fun c hc => (isWord_iff c).mpr (ht c hc))
  unfold MsgDesc.header msgLine
  simp only [List.mem_append, not_or]
  exact ⟨⟨⟨⟨⟨⟨by decide, h1⟩, by decide⟩, h3⟩, by decide⟩, h2⟩, by decide⟩ |> fun q => ⟨q, h4⟩

/-! ### Lines of a section -/

theorem line_cons (d : SigDesc) : ∃ r, d.line = ' ' :: 'S' :: 'G' :: '_' :: r := by
  refine ⟨?_, ?_⟩
  rotate_left
  · unfold SigDesc.line
    simp only [List.append_assoc]
    rfl

theorem line_signal (d : SigDesc) : isSignalLine d.line = true := by
  obtain ⟨r, e⟩ := line_cons d
  rw [e]
  rfl

theorem line_header (d : SigDesc) : IsHeader d.line = false := by
  obtain ⟨r, e⟩ := line_cons d
  rw [e]
  rfl

theorem line_tx (P : Platform) (d : SigDesc) : IsTx P d.line = false := by
  obtain ⟨r, e⟩ := line_cons d
  have h0 : (resplit mTrans d.line).getD 0 [] = [] := by
    rw [e]
    have hm : ∃ n, mTrans (' ' :: 'S' :: 'G' :: '_' :: r) = some n := ⟨1, rfl⟩
    obtain ⟨n, hm⟩ := hm
    unfold resplit
    rw [List.length_cons, splitGo, hm]
    rfl
  unfold IsTx parseMultiTrans
  dsimp only
  rw [h0, if_neg (by rintro ⟨_, h⟩; exact absurd h (by decide))]
  rfl

theorem section_mem {lines pre rest : List Str} {h : Str} (hh : IsHeader h = true) (e : lines = pre ++ h :: rest) :
    (h, rest.takeWhile fun l => !IsHeader l) ∈ sections lines := by
  subst e
  induction pre with
  | nil => rw [List.nil_append, sections, if_pos hh]; exact List.mem_cons_self
  | cons x pre ih =>
    rw [List.cons_append, sections]
    split
    · exact List.mem_cons_of_mem _ ih
    · exact ih

theorem upTo_mem {p : Str → Bool} {ls : List Str} {l : Str} (h : l ∈ upTo p ls) : l ∈ ls := by
  induction ls with
  | nil => exact h
  | cons x ls ih =>
    rw [upTo] at h
    rcases List.mem_cons.1 h with rfl | h
    · exact List.mem_cons_self
    · split at h
      · cases h
      · exact List.mem_cons_of_mem _ (ih h)

/-- No line of a section makes the parser undefined. -/
def SecFine (P : Platform) (ls : List Str) : Prop :=
  ∀ l ∈ upTo (IsTx P) ls, isSignalLine l = true → ∃ r, parseSignalLine P l = .ok r

theorem secFine_cons {P : Platform} {l : Str} {ls : List Str} (h1 : isSignalLine l = true → ∃ r, parseSignalLine P l = .ok r)
    (h2 : IsTx P l = false → SecFine P ls) : SecFine P (l :: ls) := by
  intro x hx hs
  rw [upTo] at hx
  rcases List.mem_cons.1 hx with rfl | hx
  · exact h1 hs
  · split at hx
    · cases hx
    · rename_i hb
      exact h2 (by simpa using hb) x hx hs

theorem scan_fine (P : Platform) (ls : List Str) (st st' : Scan) (h : scanLines P st ls = .ok st') :
    (st.cur.isSome = true → SecFine P ((ls.map (strTrim P.charMax)).takeWhile fun l => !IsHeader l)) ∧
    ∀ s ∈ sections (ls.map (strTrim P.charMax)), (parseMessageLine P s.1).isSome = true → SecFine P (s.1 :: s.2) := by
  induction ls generalizing st with
  | nil => exact ⟨fun _ l hl => (by cases hl), fun s hs => (by cases hs)⟩
  | cons l0 ls ih =>
    rw [scanLines] at h
    cases h1 : scanLine P st (strTrim P.charMax l0) with
    | ub => rw [h1] at h; cases h
    | throws => rw [h1] at h; cases h
    | ok sta =>
      rw [h1] at h
      dsimp only at h
      obtain ⟨ih1, ih2⟩ := ih sta h
      clear ih h
      rw [List.map_cons]
      generalize strTrim P.charMax l0 = l at *
      generalize ls.map (strTrim P.charMax) = ts at *
      obtain ⟨st1, e1, e2, e3, h2⟩ := scanLine_ok h1
      dsimp only at h2
      have key : ∀ {st2 : Scan}, st2.cur.isSome = true → (match st2.cur with
          | none => sta = transStep P st2 l
          | some m => if isSignalLine l then ∃ r, parseSignalLine P l = .ok r ∧ sta = transStep P { st2 with cur := some (r.toList.foldl addSignal m) } l
              else sta = transStep P st2 l) → SecFine P (l :: ts.takeWhile fun l => !IsHeader l) := by
        intro st2 hc h2
        cases hm : st2.cur with
        | none => rw [hm] at hc; cases hc
        | some m =>
          rw [hm] at h2
          dsimp only at h2
          by_cases hs : isSignalLine l = true
          · rw [if_pos hs] at h2
            obtain ⟨r, hr, h2⟩ := h2
            refine secFine_cons (fun _ => ⟨r, hr⟩) fun htx => ih1 ?_
            rw [h2, transStep_no P htx]
            rfl
          · rw [if_neg hs] at h2
            refine secFine_cons (fun q => absurd q hs) fun htx => ih1 ?_
            rw [h2, transStep_no P htx, hm]
            rfl
      by_cases hh : IsHeader l = true
      · rw [if_pos hh] at h2
        refine ⟨fun _ => ?_, fun s hs hp => ?_⟩
        · rw [List.takeWhile_cons_of_neg (by rw [hh]; decide)]
          intro x hx
          cases hx
        · rw [sections, if_pos hh] at hs
          rcases List.mem_cons.1 hs with rfl | hs
          · exact key (st2 := headerStep P st1 l) hp h2
          · exact ih2 s hs hp
      · have hh' : IsHeader l = false := by simpa using hh
        rw [if_neg hh] at h2
        refine ⟨fun hc => ?_, fun s hs hp => ?_⟩
        · rw [List.takeWhile_cons_of_pos (by rw [hh']; rfl)]
          exact key (st2 := st1) (by rw [e2]; exact hc) h2
        · rw [sections, if_neg hh] at hs
          exact ih2 s hs hp

theorem file_fine {P : Platform} {text : Str} {out : DbcList} (h : trimDbcText P text = .ok out) :
    ∀ s ∈ sections (fileLines P text), (parseMessageLine P s.1).isSome = true → SecFine P (s.1 :: s.2) := by
  unfold trimDbcText parseMessageInfo at h
  cases hs : scanLines P { list := {} } (getLines text) with
  | ub => rw [hs] at h; cases h
  | throws => rw [hs] at h; cases h
  | ok st => exact (scan_fine P _ _ _ hs).2

theorem lineSigs_append (P : Platform) (a b : List Str) : lineSigs P (a ++ b) = lineSigs P a ++ lineSigs P b := by
  unfold lineSigs
  rw [List.filter_append, List.filterMap_append]

theorem lineSigs_none {P : Platform} {ls : List Str} (hf : ∀ l ∈ ls, isSignalLine l = true → ∃ r, parseSignalLine P l = .ok r)
    (hn : ∀ l ∈ ls, NoSigLine l) : lineSigs P ls = [] := by
  induction ls with
  | nil => rfl
  | cons l ls ih =>
    have ih := ih (fun x hx => hf x (List.mem_cons_of_mem _ hx)) (fun x hx => hn x (List.mem_cons_of_mem _ hx))
    cases hs : isSignalLine l with
    | false => rw [lineSigs_cons_no hs, ih]
    | true =>
      obtain ⟨r, hr⟩ := hf l List.mem_cons_self hs
      rw [lineSigs_cons_sig hs hr, ih, no_signal (hn l List.mem_cons_self) hr]
      rfl

/-- A signal line as DBC editors write it, with numbers the parser can hold. -/
structure Spec.SigDescOk (dlc : Nat) (d : SigDesc) : Prop where
  line : LineOk d
  start : d.start < 2 ^ 31
  pos : 1 ≤ d.len
  len : d.len ≤ 64
  fac : d.factor.frac.length ≤ 9
  off : d.offset.frac.length ≤ 9
  fits : Fits d.intel d.start d.len dlc

/-- A message as DBC editors write it, with its signals in the payload. -/
structure Spec.MsgDescOk (d : MsgDesc) : Prop where
  id : d.id < 2 ^ 29
  name : IsIdent d.name
  tx : ∀ c ∈ d.tx, IsLetter c ∨ IsDigit c
  dlc : 1 ≤ d.dlc ∧ d.dlc ≤ 64
  sigs : ∀ s ∈ d.sigs, SigDescOk d.dlc s

theorem forall2_left {α β : Type} {R : α → β → Prop} {as : List α} {bs : List β} (h : List.Forall₂ R as bs) {a : α} (ha : a ∈ as) : ∃ b ∈ bs, R a b := by
  induction h with
  | nil => cases ha
  | cons r _ ih =>
    rcases List.mem_cons.1 ha with rfl | ha
    · exact ⟨_, List.mem_cons_self, r⟩
    · obtain ⟨b, hb, q⟩ := ih ha
      exact ⟨b, List.mem_cons_of_mem _ hb, q⟩

theorem forall2_right {α β : Type} {R : α → β → Prop} {as : List α} {bs : List β} (h : List.Forall₂ R as bs) {b : β} (hb : b ∈ bs) : ∃ a ∈ as, R a b := by
  induction h with
  | nil => cases hb
  | cons r _ ih =>
    rcases List.mem_cons.1 hb with rfl | hb
    · exact ⟨_, List.mem_cons_self, r⟩
    · obtain ⟨a, ha, q⟩ := ih hb
      exact ⟨a, List.mem_cons_of_mem _ ha, q⟩

/-- The parser's signal for a description: what the line says, with the types of `GetSigType`. -/
def Made (P : Platform) (d : SigDesc) (s : Sig) : Prop :=
  Says d s ∧ ∃ s1, getSigType P.toHost (SigDesc.sig d) = some s1 ∧ s.typeRo = s1.typeRo ∧ s.typePhys = s1.typePhys

theorem lineSigs_desc {P : Platform} {dlc : Nat} {ds : List SigDesc} (hd : ∀ s ∈ ds, SigDescOk dlc s)
    (hf : ∀ l ∈ ds.map SigDesc.line, isSignalLine l = true → ∃ r, parseSignalLine P l = .ok r) :
    List.Forall₂ (Made P) ds (lineSigs P (ds.map SigDesc.line)) := by
  induction ds with
  | nil => exact List.Forall₂.nil
  | cons d ds ih =>
    have ih := ih (fun s hs => hd s (List.mem_cons_of_mem _ hs)) (fun l hl => hf l (List.mem_cons_of_mem _ hl))
    have h := hd d List.mem_cons_self
    obtain ⟨r, hr⟩ := hf d.line List.mem_cons_self (line_signal d)
    rw [List.map_cons, lineSigs_cons_sig (line_signal d) hr]
    rw [parse_line P h.line h.start (Nat.lt_of_le_of_lt h.len (by decide)) h.fac h.off] at hr
    cases hg : getSigType P.toHost (SigDesc.sig d) with
    | none => rw [hg] at hr; cases hr
    | some s =>
      rw [hg] at hr
      cases hr
      have ht : (markSimple s).typeRo = s.typeRo ∧ (markSimple s).typePhys = s.typePhys := by
        unfold markSimple
        split <;> exact ⟨rfl, rfl⟩
      exact List.Forall₂.cons ⟨says_of_type hg, s, hg, ht⟩ ih

theorem upTo_lines (P : Platform) (ds : List SigDesc) (post : List Str) :
    upTo (IsTx P) (ds.map SigDesc.line ++ post) = ds.map SigDesc.line ++ upTo (IsTx P) post := by
  induction ds with
  | nil => rfl
  | cons d ds ih =>
    rw [List.map_cons, List.cons_append, upTo, line_tx P d, ih]
    rfl

/-- The parsed message has the signals of the description. -/
theorem stated_message {P : Platform} {text : Str} {out : DbcList} (hs : SortsByStart P) (h : trimDbcText P text = .ok out) {d : MsgDesc}
    (hd : MsgDescOk d) (hst : Stated (fileLines P text) d) :
    ∃ m ∈ out.msgs, m.name = d.name ∧ m.msgId = d.id ∧ m.dlc = d.dlc ∧ m.isExt = d.ext ∧ (d.sigs ≠ [] → m.frameNotEmpty = true) ∧
      ((∃ s ∈ d.sigs, ¬ s.plain) → m.hasPhys = true) ∧
      ∃ ss, List.Forall₂ (Made P) d.sigs ss ∧ (m.signals.map Sig.core).Perm (ss.map Sig.core) := by
  obtain ⟨pre, post, el, hpost⟩ := hst
  have hhd : IsHeader d.header = true := by
    unfold MsgDesc.header msgLine
    simp only [List.append_assoc]
    rfl
  have hmem := section_mem hhd el
  have hfid : (fileId d.id d.ext).testBit 29 = false ∧ (fileId d.id d.ext).testBit 30 = false ∧ (fileId d.id d.ext).testBit 31 = d.ext ∧
      fileId d.id d.ext % 2 ^ 29 = d.id ∧ fileId d.id d.ext < 2 ^ 63 := by
    have := hd.id
    simp only [Nat.testBit_eq_decide_div_mod_eq]
    unfold fileId
    cases d.ext
    · simp only [Bool.false_eq_true, if_false]
      refine ⟨decide_eq_false ?_, decide_eq_false ?_, decide_eq_false ?_, ?_, ?_⟩ <;> omega
    · simp only [if_true]
      refine ⟨decide_eq_false ?_, decide_eq_false ?_, decide_eq_true ?_, ?_, ?_⟩ <;> omega
  have hpm : parseMessageLine P d.header = some { name := d.name, dlc := d.dlc, msgId := d.id, isExt := d.ext, tranS := if 1 < d.tx.length then [d.tx] else [] } := by
    unfold MsgDesc.header
    have hx := hd.dlc
    have e : d.dlc % 256 = d.dlc := Nat.mod_eq_of_lt (by omega)
    rw [parse_msgLine P _ _ _ _ hd.name hd.tx hfid.2.2.2.2 (by omega), e, if_pos ⟨⟨hfid.1, hfid.2.1⟩, hx⟩, hfid.2.2.1, hfid.2.2.2.1]
  have htw : (d.sigs.map SigDesc.line ++ post).takeWhile (fun l => !IsHeader l) = d.sigs.map SigDesc.line ++ post.takeWhile (fun l => !IsHeader l) := by
    rw [List.takeWhile_append_of_pos]
    intro l hl
    obtain ⟨s, -, rfl⟩ := List.mem_map.1 hl
    rw [line_header]
    rfl
  rw [htw] at hmem
  have hfine := file_fine h _ hmem (by dsimp only; rw [hpm]; rfl)
  dsimp only at hfine
  have hup : upTo (IsTx P) (d.header :: (d.sigs.map SigDesc.line ++ post.takeWhile (fun l => !IsHeader l))) =
      d.header :: (d.sigs.map SigDesc.line ++ upTo (IsTx P) (post.takeWhile fun l => !IsHeader l)) := by
    rw [upTo, header_not_tx P hhd, upTo_lines]
    rfl
  unfold SecFine at hfine
  rw [hup] at hfine
  have hsig : sectionSigs P d.header (d.sigs.map SigDesc.line ++ post.takeWhile (fun l => !IsHeader l)) = lineSigs P (d.sigs.map SigDesc.line) := by
    unfold sectionSigs
    rw [hup]
    show lineSigs P ([d.header] ++ (d.sigs.map SigDesc.line ++ upTo (IsTx P) (post.takeWhile fun l => !IsHeader l))) = _
    rw [lineSigs_append, lineSigs_append, lineSigs_none (ls := [d.header]) ?_ ?_, lineSigs_none (ls := upTo _ _) ?_ ?_, List.nil_append, List.append_nil]
    · exact fun l hl => hfine l (List.mem_cons_of_mem _ (List.mem_append_right _ hl))
    · exact fun l hl => hpost l (upTo_mem hl)
    · exact fun l hl => hfine l (by rw [List.mem_singleton.1 hl]; exact List.mem_cons_self)
    · exact fun l hl => by rw [List.mem_singleton.1 hl]; exact header_noSig d hd.name hd.tx
  have hF := lineSigs_desc hd.sigs (P := P) fun l hl => hfine l (List.mem_cons_of_mem _ (List.mem_append_left _ hl))
  obtain ⟨m', hm'⟩ : ∃ m', secMsg P (d.header, d.sigs.map SigDesc.line ++ post.takeWhile (fun l => !IsHeader l)) = some m' := by
    unfold secMsg
    dsimp only
    rw [hpm]
    exact ⟨_, rfl⟩
  have hin : m'.core ∈ out.msgs.map Msg.core := by
    rw [trim_msgs h]
    exact List.mem_map_of_mem (List.mem_filterMap.2 ⟨_, hmem, hm'⟩)
  obtain ⟨m, hm, hc⟩ := List.mem_map.1 hin
  obtain ⟨⟨m0, p0, q1, q2, q3, q4⟩, hperm, -⟩ := fromSection_of_core hs hm' hc
  dsimp only at p0 hperm
  rw [hpm] at p0
  cases p0
  rw [hsig] at hperm
  suffices hb : (d.sigs ≠ [] → m.frameNotEmpty = true) ∧ ((∃ s ∈ d.sigs, ¬ s.plain) → m.hasPhys = true) from
    ⟨m, hm, q1, q2, q3, q4, hb.1, hb.2, _, hF, hperm⟩
  unfold secMsg at hm'
  rw [Option.map_eq_some_iff] at hm'
  obtain ⟨m1, -, rfl⟩ := hm'
  rw [core_strip] at hc
  dsimp only at hc
  rw [hsig] at hc
  have hfr : m.frameNotEmpty = (closeMessage P ((lineSigs P (d.sigs.map SigDesc.line)).foldl addSignal m1)).frameNotEmpty := by
    have := congrArg Msg.frameNotEmpty hc
    exact this
  have hcl : ∀ x : Msg, (closeMessage P x).frameNotEmpty = x.frameNotEmpty := by
    intro x
    unfold closeMessage
    split <;> rfl
  have hfold : ∀ (l : List Sig) (x : Msg), x.frameNotEmpty = true ∨ l ≠ [] → (l.foldl addSignal x).frameNotEmpty = true := by
    intro l
    induction l with
    | nil => intro x hx; exact hx.resolve_right (fun q => q rfl)
    | cons a l ih => intro x _; exact ih _ (Or.inl rfl)
  have hpr : m.hasPhys = (closeMessage P ((lineSigs P (d.sigs.map SigDesc.line)).foldl addSignal m1)).hasPhys := by
    have := congrArg Msg.hasPhys hc
    exact this
  have hclp : ∀ x : Msg, (closeMessage P x).hasPhys = x.hasPhys := by
    intro x
    unfold closeMessage
    split <;> rfl
  have hfoldp : ∀ (l : List Sig) (x : Msg), x.hasPhys = true ∨ (∃ s ∈ l, s.isSimple = false) → (l.foldl addSignal x).hasPhys = true := by
    intro l
    induction l with
    | nil =>
      rintro x (hx | ⟨s, hs, -⟩)
      · exact hx
      · cases hs
    | cons a l ih =>
      intro x hx
      refine ih _ ?_
      rcases hx with hx | ⟨s, hs, hp⟩
      · left
        show (x.hasPhys || _ || _) = true
        rw [hx]
        rfl
      · rcases List.mem_cons.1 hs with rfl | hs
        · left
          show (_ || !s.isSimple) = true
          rw [hp]
          simp
        · exact Or.inr ⟨s, hs, hp⟩
  constructor
  · intro hne
    rw [hfr, hcl]
    refine hfold _ _ (Or.inr ?_)
    intro e
    rw [e] at hF
    cases hF' : d.sigs with
    | nil => exact hne hF'
    | cons a b => rw [hF'] at hF; cases hF
  · rintro ⟨s, hs, hp⟩
    rw [hpr, hclp]
    refine hfoldp _ _ (Or.inr ?_)
    obtain ⟨s', hs', ⟨h1, -⟩, -⟩ := forall2_left hF hs
    refine ⟨s', hs', ?_⟩
    split at h1
    · rename_i hc; exact absurd (show s.plain from hc) hp
    · exact h1.2.2

/-! ### Parsed signals and their descriptions -/

/-- The parsed signal has place, sign, scaling and member names of the description, and the types of `GetSigType`. -/
structure FromDesc (P : Platform) (d : SigDesc) (s : Sig) : Prop where
  name : s.name = d.member
  start : s.startBit = d.start
  len : s.lengthBit = d.len
  signed : s.signed = d.signed
  intel : (s.order == .intel) = d.intel
  simple : s.isSimple = true ↔ d.plain
  phys : ¬ d.plain → s.nameFloat = d.name ++ "_phys".toList
  factor : s.factor = d.factor.value
  offset : s.offset = d.offset.value
  double : s.isDouble = true ↔ d.factor.frac ≠ [] ∨ d.offset.frac ≠ []
  recs : s.recS = d.recs
  type : ∃ s1, getSigType P.toHost (SigDesc.sig d) = some s1 ∧ s.typeRo = s1.typeRo ∧ s.typePhys = s1.typePhys

theorem fromDesc_of {P : Platform} {d : SigDesc} {s s' : Sig} (h : Made P d s') (e : s.core = s'.core) : FromDesc P d s := by
  obtain ⟨⟨h1, h2, h3, h4, h5, h6, h7, -, -, -, h12, -, -, h8⟩, s1, h9, h10, h11⟩ := h
  have e13 : s.recS = s'.recS := by have := congrArg Sig.recS e; exact this
  have e7 : s.nameFloat = s'.nameFloat := by have := congrArg Sig.nameFloat e; exact this
  have e8 : s.factor = s'.factor := by have := congrArg Sig.factor e; exact this
  have e9 : s.offset = s'.offset := by have := congrArg Sig.offset e; exact this
  have e10 : s.isDouble = s'.isDouble := by have := congrArg Sig.isDouble e; exact this
  have e11 : s.typeRo = s'.typeRo := by have := congrArg Sig.typeRo e; exact this
  have e12 : s.typePhys = s'.typePhys := by have := congrArg Sig.typePhys e; exact this
  have e1 : s.name = s'.name := by have := congrArg Sig.name e; exact this
  have e2 : s.startBit = s'.startBit := by have := congrArg Sig.startBit e; exact this
  have e3 : s.lengthBit = s'.lengthBit := by have := congrArg Sig.lengthBit e; exact this
  have e4 : s.signed = s'.signed := by have := congrArg Sig.signed e; exact this
  have e5 : s.order = s'.order := by have := congrArg Sig.order e; exact this
  have e6 : s.isSimple = s'.isSimple := by have := congrArg Sig.isSimple e; exact this
  refine ⟨?_, e2.trans h2, e3.trans h3, e4.trans h4, ?_, ?_, ?_, e8.trans h6, e9.trans h7, by rw [e10]; exact h8, e13.trans h12, s1, h9, e11.trans h10, e12.trans h11⟩
  · rw [e1]
    unfold SigDesc.member
    split at h1
    · rename_i hc; rw [if_pos (show d.plain from hc)]; exact h1.1
    · rename_i hc; rw [if_neg (show ¬ d.plain from hc)]; exact h1.1
  · rw [e5, Bool.eq_iff_iff, beq_iff_eq]
    exact h5
  · rw [e6]
    unfold SigDesc.plain
    split at h1
    · rename_i hc; exact ⟨fun _ => hc, fun _ => h1.2⟩
    · rename_i hc; exact ⟨fun q => (by rw [h1.2.2] at q; cases q), fun q => absurd q hc⟩
  · intro hp
    rw [e7]
    split at h1
    · rename_i hc; exact absurd (show d.plain from hc) hp
    · exact h1.2.1

theorem desc_signals {P : Platform} {ds : List SigDesc} {ms ss : List Sig} (h : List.Forall₂ (Made P) ds ss) (hp : (ms.map Sig.core).Perm (ss.map Sig.core)) :
    (∀ d ∈ ds, ∃ s ∈ ms, FromDesc P d s) ∧ ∀ s ∈ ms, ∃ d ∈ ds, FromDesc P d s := by
  constructor
  · intro d hd
    obtain ⟨s', hs', q⟩ := forall2_left h hd
    obtain ⟨s, hs, e⟩ := List.mem_map.1 (hp.mem_iff.2 (List.mem_map_of_mem hs'))
    exact ⟨s, hs, fromDesc_of q e⟩
  · intro s hs
    obtain ⟨s', hs', e⟩ := List.mem_map.1 (hp.mem_iff.1 (List.mem_map_of_mem (f := Sig.core) hs))
    obtain ⟨d, hd, q⟩ := forall2_right h hs'
    exact ⟨d, hd, fromDesc_of q e.symm⟩

end Verif
