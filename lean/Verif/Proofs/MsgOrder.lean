import Verif.Proofs.NsHead
import Verif.Props.OneFile
import Verif.Props.Meaning
/-
Messages in another order (C76).
-/
namespace Verif
open Spec

/-! ### Code generation -/

theorem distinct_perm {a b : List Msg} (h : a.Perm b) (hd : IdsDistinct a) : IdsDistinct b :=
  h.pairwise hd fun q => Ne.symm q

theorem sorted_perm {a b x y : List Msg} (h : a.Perm b) (hd : IdsDistinct a) (hx : SortedBy x a) (hy : SortedBy y b) : x = y := by
  refine List.Perm.eq_of_pairwise (le := fun m n : Msg => m.msgId ≤ n.msgId) ?_ hx.2 hy.2 ((hx.1.trans h).trans hy.1.symm)
  intro m n hm hn h1 h2
  exact ids_inj hd (hx.1.mem_iff.1 hm) (h.mem_iff.2 (hy.1.mem_iff.1 hn)) (Nat.le_antisymm h1 h2)

theorem filter_perm {a b : List Msg} (h : a.Perm b) {p q : Msg → Bool} (e : ∀ m, p m = q m) : (a.filter p).Perm (b.filter q) := by
  rw [show p = q from funext e]
  exact h.filter q

theorem distinct_filter {a : List Msg} (hd : IdsDistinct a) (p : Msg → Bool) : IdsDistinct (a.filter p) :=
  List.Pairwise.filter p hd

/-- The same groups, up to the order. -/
structure GroupsPerm (G G' : Groups) : Prop where
  rx : G.rx.Perm G'.rx
  tx : G.tx.Perm G'.tx
  both : G.both.Perm G'.both

theorem nodeGroups_perm {a b : List Msg} (h : a.Perm b) (n : Str) : GroupsPerm (nodeGroups a n) (nodeGroups b n) :=
  ⟨(h.filter _).map _, (h.filter _).map _, .refl _⟩

theorem allGroups_perm {a b : List Msg} (h : a.Perm b) : GroupsPerm (allGroups a) (allGroups b) := ⟨h.map _, .refl _, .refl _⟩

theorem utilPair_perm {H : RunHost} (hsort : ∀ l, SortedBy (H.sort l) l) {a b : List Msg} (h : a.Perm b) (hd : IdsDistinct a) {G G' : Groups}
    (hg : GroupsPerm G G') (u : UtilDesc) (hi lo : Nat) (ph pc : Str) : utilPair H u hi lo ph pc G a = utilPair H u hi lo ph pc G' b := by
  have hr : H.sort (selectRx G a) = H.sort (selectRx G' b) := by
    refine sorted_perm (a := selectRx G a) (b := selectRx G' b) ?_ (distinct_filter hd _) (hsort _) (hsort _)
    exact filter_perm h fun m => by rw [hg.both.contains_eq, hg.rx.contains_eq]
  have ht : H.sort (selectTx G a) = H.sort (selectTx G' b) := by
    refine sorted_perm (a := selectTx G a) (b := selectTx G' b) ?_ (distinct_filter hd _) (hsort _) (hsort _)
    exact filter_perm h fun m => by rw [hg.both.contains_eq, hg.tx.contains_eq]
  unfold utilPair
  rw [hr, ht]

theorem collectNodes_perm {a b : List Msg} (h : a.Perm b) : (collectNodes a).Perm (collectNodes b) := by
  obtain ⟨h1, h2⟩ := C23_nodes a
  obtain ⟨h3, h4⟩ := C23_nodes b
  refine (List.perm_ext_iff_of_nodup h1 h3).2 fun n => ?_
  rw [h2, h4]
  exact ⟨fun ⟨m, hm, q⟩ => ⟨m, h.mem_iff.1 hm, q⟩, fun ⟨m, hm, q⟩ => ⟨m, h.mem_iff.2 hm, q⟩⟩

theorem utilsFiles_perm {H : RunHost} (hsort : ∀ l, SortedBy (H.sort l) l) {out out' : DbcList} (h : out.msgs.Perm out'.msgs) (hd : IdsDistinct out.msgs)
    (h1 : out'.verHi = out.verHi) (h2 : out'.verLow = out.verLow) (o : GenOptions) (c : OutPaths) (g : GenDesc) :
    (utilsFiles H o c g out).Perm (utilsFiles H o c g out') := by
  unfold utilsFiles
  rw [h1, h2]
  split
  · have e : ∀ n, utilPair H (nodeUtil g o.drvname.1 n) out.verHi out.verLow (nodeUtilH c.utildir o.drvname.1 n) (nodeUtilC c.utildir o.drvname.1 n)
        (nodeGroups out'.msgs n) out'.msgs = utilPair H (nodeUtil g o.drvname.1 n) out.verHi out.verLow (nodeUtilH c.utildir o.drvname.1 n)
        (nodeUtilC c.utildir o.drvname.1 n) (nodeGroups out.msgs n) out.msgs := fun n => (utilPair_perm hsort h hd (nodeGroups_perm h n) ..).symm
    rw [show (fun n => utilPair H (nodeUtil g o.drvname.1 n) out.verHi out.verLow (nodeUtilH c.utildir o.drvname.1 n) (nodeUtilC c.utildir o.drvname.1 n)
        (nodeGroups out'.msgs n) out'.msgs) = _ from funext e]
    exact (collectNodes_perm h).flatMap_right _
  · rw [utilPair_perm hsort h hd (allGroups_perm h)]

/-- Code generation does not depend on the order of the messages. -/
theorem generate_perm {H : RunHost} (hsort : ∀ l, SortedBy (H.sort l) l) (hopen : ∀ p, H.canOpen p = true) {out out' : DbcList}
    (h : out.msgs.Perm out'.msgs) (hd : IdsDistinct out.msgs) (h1 : out'.verHi = out.verHi) (h2 : out'.verLow = out.verLow) (h3 : out'.maxDlc = out.maxDlc)
    {o : GenOptions} {files : List (Str × Str)} (hg : generate H o out = .done files) : ∃ files', generate H o out' = .done files' ∧ files.Perm files' := by
  have hs : H.sort out'.msgs = H.sort out.msgs := (sorted_perm h hd (hsort _) (hsort _)).symm
  unfold generate at hg ⊢
  dsimp only at hg ⊢
  rw [h1, h2, h3, hs]
  cases hp : prepareDirectory H.fs (configure o.drvname.1 (finalPath o)) o.isRewrite with
  | throws => rw [hp] at hg; cases hg
  | ub => rw [hp] at hg; cases hg
  | ret b d =>
    cases b with
    | false =>
      rw [hp] at hg
      cases hg
      exact ⟨_, rfl, .refl _⟩
    | true =>
      rw [hp] at hg
      dsimp only at hg ⊢
      obtain ⟨u1, a1, a2⟩ := utils_files hsort (o := o) (c := configure o.drvname.1 (finalPath o)) (g := configureGen o.drvname.1 (commonInfoOf o H.date) (driverSrcInfo (extractFileName o.dbc.1)) out.verHi out.verLow)
        (out := out) fun p _ => hopen p
      obtain ⟨u2, b1, b2⟩ := utils_files hsort (o := o) (c := configure o.drvname.1 (finalPath o)) (g := configureGen o.drvname.1 (commonInfoOf o H.date) (driverSrcInfo (extractFileName o.dbc.1)) out.verHi out.verLow)
        (out := out') fun p _ => hopen p
      rw [a1] at hg
      rw [b1]
      cases hm : mainOps H o (configure o.drvname.1 (finalPath o)) (configureGen o.drvname.1 (commonInfoOf o H.date) (driverSrcInfo (extractFileName o.dbc.1)) out.verHi out.verLow)
          out.maxDlc (H.sort out.msgs) with
      | none => rw [hm] at hg; cases hg
      | some mops =>
        rw [hm] at hg
        cases hg
        refine ⟨_, rfl, ?_⟩
        rw [a2, b2]
        exact (utilsFiles_perm hsort h hd h1 h2 ..).append_left _

/-! ### Lists in another order with the same last element -/

/-- The same messages in another order, the last one is the same. -/
inductive SameLast : List Msg → List Msg → Prop where
  | nil : SameLast [] []
  | snoc {a b : List Msg} (m : Msg) (h : a.Perm b) : SameLast (a ++ [m]) (b ++ [m])

theorem SameLast.perm {a b : List Msg} (h : SameLast a b) : a.Perm b := by
  cases h with
  | nil => exact .refl _
  | snoc m h => exact h.append_right _

theorem known_perm {a b : List Msg} (h : a.Perm b) {id : Nat} : Known a id ↔ Known b id :=
  ⟨fun ⟨m, hm, q⟩ => ⟨m, h.mem_iff.1 hm, q⟩, fun ⟨m, hm, q⟩ => ⟨m, h.mem_iff.2 hm, q⟩⟩

theorem SameLast.upd {a b : List Msg} (h : SameLast a b) (hd : IdsDistinct a) (id : Nat) (f : Msg → Msg) : SameLast (updMessage a id f) (updMessage b id f) := by
  by_cases hk : Known a id
  · rw [updMessage_known f hk, updMessage_known f ((known_perm h.perm).1 hk), onFirst_map hd, onFirst_map (distinct_perm h.perm hd)]
    cases h with
    | nil => exact .nil
    | snoc m h =>
      rw [List.map_append, List.map_append]
      exact .snoc _ (h.map _)
  · cases h with
    | nil => exact .nil
    | snoc m h =>
      have hk' : ∀ {l : List Msg}, (l ++ [m]).Perm (_ ++ [m]) → ¬ Known l id := fun {l} q ⟨x, hx, e⟩ =>
        hk ⟨x, q.mem_iff.1 (List.mem_append_left _ hx), e⟩
      rw [updMessage_unknown f (hk' (.refl _)), updMessage_unknown f (hk' (h.symm.append_right [m]))]
      exact .snoc _ h

theorem upd_ids (l : List Msg) (id : Nat) {f : Msg → Msg} (hf : ∀ m, (f m).msgId = m.msgId) : (updMessage l id f).map (·.msgId) = l.map (·.msgId) := by
  unfold updMessage
  split
  · rename_i i hi
    clear hi
    induction l generalizing i with
    | nil => cases i <;> rfl
    | cons a l ih =>
      cases i with
      | zero => rw [List.modify_zero_cons, List.map_cons, hf]; rfl
      | succ i => rw [List.modify_succ_cons, List.map_cons, ih, List.map_cons]
  · rfl

theorem distinct_ids {a b : List Msg} (h : a.map (·.msgId) = b.map (·.msgId)) (hd : IdsDistinct a) : IdsDistinct b := by
  have h1 : (a.map (·.msgId)).Pairwise (· ≠ ·) := List.pairwise_map.2 hd
  rw [h] at h1
  exact List.pairwise_map.1 h1

/-! ### First pass -/

/-- Signal part of the loop for one line. -/
def stepCur (P : Platform) (c : Option Msg) (l : Str) : Res (Option Msg) :=
  match c with
  | none => .ok none
  | some m =>
    if isSignalLine l then
      match parseSignalLine P l with
      | .ub => .ub
      | .throws => .throws
      | .ok none => .ok (some m)
      | .ok (some s) => .ok (some (addSignal m s))
    else .ok (some m)

/-- The largest DLC so far. -/
def bump (d : Nat) : Option Msg → Nat
  | some m => if d < m.dlc then m.dlc else d
  | none => d

/-- The list with the current message. -/
def closeCur (P : Platform) (L : DbcList) (c : Option Msg) : DbcList := { L with maxDlc := bump L.maxDlc c, msgs := addMessage P L.msgs c }

theorem headerStep_eq (P : Platform) (st : Scan) (l : Str) : headerStep P st l = { list := closeCur P st.list st.cur, cur := parseMessageLine P l } := by
  unfold headerStep closeCur bump
  cases st.cur <;> rfl

theorem scanBody_eq (P : Platform) (st : Scan) (l : Str) :
    scanBody P st l = match stepCur P (if isMessageLine l then headerStep P st l else st).cur l with
      | .ok c => .ok (transStep P { (if isMessageLine l then headerStep P st l else st) with cur := c } l)
      | .ub => .ub
      | .throws => .throws := by
  unfold scanBody stepCur
  dsimp only
  generalize (if isMessageLine l then headerStep P st l else st) = st2
  obtain ⟨L, c⟩ := st2
  cases c with
  | none => rfl
  | some m =>
    dsimp only
    by_cases h : isSignalLine l = true
    · rw [if_pos h, if_pos h]
      cases parseSignalLine P l with
      | ub => rfl
      | throws => rfl
      | ok r => cases r <;> rfl
    · rw [if_neg h, if_neg h]

theorem scan_plain {P : Platform} {l : Str} (hv : findVersion P l = .ok none) (hh : IsHeader l = false) (ht : IsTx P l = false) (st : Scan) :
    scanLine P st l = match stepCur P st.cur l with
      | .ok c => .ok { st with cur := c }
      | .ub => .ub
      | .throws => .throws := by
  unfold scanLine
  rw [hv]
  dsimp only [setVersion]
  rw [scanBody_eq, show isMessageLine l = IsHeader l from rfl, hh]
  dsimp only [Bool.false_eq_true, if_false]
  rw [if_neg (by decide)]
  cases stepCur P st.cur l with
  | ub => rfl
  | throws => rfl
  | ok c => dsimp only; rw [transStep_no P ht]

theorem scan_head {P : Platform} {l : Str} (hv : findVersion P l = .ok none) (hh : IsHeader l = true) (st : Scan) :
    scanLine P st l = match stepCur P (parseMessageLine P l) l with
      | .ok c => .ok { list := closeCur P st.list st.cur, cur := c }
      | .ub => .ub
      | .throws => .throws := by
  unfold scanLine
  rw [hv]
  dsimp only [setVersion]
  rw [scanBody_eq, show isMessageLine l = IsHeader l from rfl, hh, if_pos rfl, headerStep_eq]
  dsimp only
  cases stepCur P (parseMessageLine P l) l with
  | ub => rfl
  | throws => rfl
  | ok c => dsimp only; rw [transStep_no P (header_not_tx P hh)]

theorem header_no_version (P : Platform) {l : Str} (h : IsHeader l = true) : findVersion P l = .ok none := by
  unfold IsHeader at h
  rw [List.isPrefixOf_iff_prefix] at h
  obtain ⟨r, rfl⟩ := h
  have e : matchVersion ("BO_ ".toList ++ r) = none := by
    unfold matchVersion
    have e1 : ("BO_ ".toList ++ r).dropWhile isAlpha = '_' :: ' ' :: r := rfl
    dsimp only
    rw [e1]
    exact if_neg fun q => q.2.1 rfl
  unfold findVersion
  rw [e]

/-- A header line, and lines that belong to its message: no header, no list of transmitters and no version. -/
def Spec.MsgSection (P : Platform) (b : List Str) : Prop :=
  ∃ h body, b = h :: body ∧ IsHeader (strTrim P.charMax h) = true ∧
    ∀ l ∈ body, IsHeader (strTrim P.charMax l) = false ∧ IsTx P (strTrim P.charMax l) = false ∧ findVersion P (strTrim P.charMax l) = .ok none

/-- The message while the lines of a section are read. -/
def curAfter (P : Platform) : Option Msg → List Str → Res (Option Msg)
  | c, [] => .ok c
  | c, l :: ls =>
    match stepCur P c (strTrim P.charMax l) with
    | .ok c => curAfter P c ls
    | .ub => .ub
    | .throws => .throws

/-- The message of a section. -/
def sectionMsg (P : Platform) : List Str → Res (Option Msg)
  | [] => .ok none
  | h :: body => curAfter P (parseMessageLine P (strTrim P.charMax h)) (h :: body)

theorem scanLines_body {P : Platform} {body : List Str}
    (hb : ∀ l ∈ body, IsHeader (strTrim P.charMax l) = false ∧ IsTx P (strTrim P.charMax l) = false ∧ findVersion P (strTrim P.charMax l) = .ok none) (st : Scan) :
    scanLines P st body = match curAfter P st.cur body with
      | .ok c => .ok { st with cur := c }
      | .ub => .ub
      | .throws => .throws := by
  induction body generalizing st with
  | nil => rfl
  | cons l ls ih =>
    obtain ⟨h1, h2, h3⟩ := hb l List.mem_cons_self
    rw [scanLines, scan_plain h3 h1 h2, curAfter]
    cases stepCur P st.cur (strTrim P.charMax l) with
    | ub => rfl
    | throws => rfl
    | ok c =>
      dsimp only
      rw [ih fun l hl => hb l (List.mem_cons_of_mem _ hl)]

theorem scanLines_section {P : Platform} {b : List Str} (hb : MsgSection P b) (st : Scan) :
    scanLines P st b = match sectionMsg P b with
      | .ok c => .ok { list := closeCur P st.list st.cur, cur := c }
      | .ub => .ub
      | .throws => .throws := by
  obtain ⟨h, body, rfl, hh, hbody⟩ := hb
  rw [scanLines, scan_head (header_no_version P hh) hh, sectionMsg, curAfter]
  cases stepCur P (parseMessageLine P (strTrim P.charMax h)) (strTrim P.charMax h) with
  | ub => rfl
  | throws => rfl
  | ok c => dsimp only; rw [scanLines_body hbody]

theorem scanLines_append (P : Platform) (st : Scan) (a b : List Str) :
    scanLines P st (a ++ b) = match scanLines P st a with
      | .ok st => scanLines P st b
      | .ub => .ub
      | .throws => .throws := by
  induction a generalizing st with
  | nil => rfl
  | cons l a ih =>
    rw [List.cons_append, scanLines, scanLines]
    cases scanLine P st (strTrim P.charMax l) with
    | ub => rfl
    | throws => rfl
    | ok st => exact ih st

/-- The message of a section that can be read. -/
def sectionCur (P : Platform) (b : List Str) : Option Msg :=
  match sectionMsg P b with
  | .ok c => c
  | _ => none

theorem scanLines_sections {P : Platform} {B : List (List Str)} (hB : ∀ b ∈ B, MsgSection P b) {st st' : Scan} (h : scanLines P st B.flatten = .ok st') :
    (∀ b ∈ B, ∃ c, sectionMsg P b = .ok c) ∧
      closeCur P st'.list st'.cur = B.foldl (fun L b => closeCur P L (sectionCur P b)) (closeCur P st.list st.cur) := by
  induction B generalizing st with
  | nil =>
    cases h
    exact ⟨fun _ q => absurd q List.not_mem_nil, rfl⟩
  | cons b B ih =>
    rw [List.flatten_cons, scanLines_append, scanLines_section (hB b List.mem_cons_self)] at h
    cases hc : sectionMsg P b with
    | ub => rw [hc] at h; cases h
    | throws => rw [hc] at h; cases h
    | ok c =>
      rw [hc] at h
      obtain ⟨h1, h2⟩ := ih (fun x hx => hB x (List.mem_cons_of_mem _ hx)) h
      refine ⟨fun x hx => ?_, ?_⟩
      · rcases List.mem_cons.1 hx with rfl | hx
        · exact ⟨c, hc⟩
        · exact h1 x hx
      · rw [h2, List.foldl_cons, show sectionCur P b = c by unfold sectionCur; rw [hc]]

theorem scanLines_sections_ok {P : Platform} {B : List (List Str)} (hB : ∀ b ∈ B, MsgSection P b) (hc : ∀ b ∈ B, ∃ c, sectionMsg P b = .ok c) (st : Scan) :
    ∃ st', scanLines P st B.flatten = .ok st' := by
  induction B generalizing st with
  | nil => exact ⟨st, rfl⟩
  | cons b B ih =>
    obtain ⟨c, e⟩ := hc b List.mem_cons_self
    rw [List.flatten_cons, scanLines_append, scanLines_section (hB b List.mem_cons_self), e]
    exact ih (fun x hx => hB x (List.mem_cons_of_mem _ hx)) (fun x hx => hc x (List.mem_cons_of_mem _ hx)) _

/-- The same lists up to the order of the messages. -/
structure ListPerm (L L' : DbcList) : Prop where
  msgs : L.msgs.Perm L'.msgs
  maxDlc : L'.maxDlc = L.maxDlc
  verHi : L'.verHi = L.verHi
  verLow : L'.verLow = L.verLow

theorem bump_comm (d : Nat) (a b : Option Msg) : bump (bump d a) b = bump (bump d b) a := by
  cases a <;> cases b <;> unfold bump <;> dsimp only
  split <;> split <;> (try split) <;> (try split) <;> omega

theorem fold_sections (P : Platform) (f : List Str → Option Msg) (B : List (List Str)) (L : DbcList) :
    B.foldl (fun L b => closeCur P L (f b)) L =
      { L with maxDlc := B.foldl (fun d b => bump d (f b)) L.maxDlc, msgs := L.msgs ++ B.flatMap fun b => addMessage P [] (f b) } := by
  induction B generalizing L with
  | nil => rw [List.foldl_nil, List.flatMap_nil, List.append_nil]; rfl
  | cons b B ih =>
    rw [List.foldl_cons, ih, List.foldl_cons, List.flatMap_cons]
    unfold closeCur
    dsimp only
    have e : addMessage P L.msgs (f b) = L.msgs ++ addMessage P [] (f b) := by
      cases f b with
      | none => exact (List.append_nil _).symm
      | some m => rfl
    rw [e, List.append_assoc]

theorem fold_sections_perm (P : Platform) (f : List Str → Option Msg) {B B' : List (List Str)} (h : B.Perm B') (L : DbcList) :
    ListPerm (B.foldl (fun L b => closeCur P L (f b)) L) (B'.foldl (fun L b => closeCur P L (f b)) L) := by
  rw [fold_sections, fold_sections]
  exact ⟨(h.flatMap_right _).append_left _, (h.foldl_eq' (fun x _ y _ z => bump_comm z (f x) (f y)) _).symm, rfl, rfl⟩

/-- Two states of the first pass: the same up to the order of the messages, and the same last message if none is open. -/
structure ScanRel (s s' : Scan) : Prop where
  cur : s'.cur = s.cur
  list : ListPerm s.list s'.list
  last : s.cur = none → SameLast s.list.msgs s'.list.msgs

theorem ScanRel.finish {P : Platform} {s s' : Scan} (h : ScanRel s s') : SameLast (s.finish P) (s'.finish P) := by
  unfold Scan.finish
  rw [h.cur]
  cases hc : s.cur with
  | none => exact h.last hc
  | some m => exact .snoc _ h.list.msgs

theorem closeCur_perm (P : Platform) {L L' : DbcList} (h : ListPerm L L') (c : Option Msg) : ListPerm (closeCur P L c) (closeCur P L' c) := by
  refine ⟨?_, ?_, h.verHi, h.verLow⟩
  · cases c with
    | none => exact h.msgs
    | some m => exact h.msgs.append_right _
  · unfold closeCur
    dsimp only
    rw [h.maxDlc]

theorem stepCur_ids {P : Platform} {c c' : Option Msg} {l : Str} (h : stepCur P c l = .ok c') : c'.map (·.msgId) = c.map (·.msgId) := by
  unfold stepCur at h
  cases c with
  | none => cases h; rfl
  | some m =>
    dsimp only at h
    by_cases hs : isSignalLine l = true
    · rw [if_pos hs] at h
      cases hp : parseSignalLine P l with
      | ub => rw [hp] at h; cases h
      | throws => rw [hp] at h; cases h
      | ok r => rw [hp] at h; cases r <;> cases h <;> rfl
    · rw [if_neg hs] at h
      cases h
      rfl

theorem close_id (P : Platform) (m : Msg) : (closeMessage P m).msgId = m.msgId := by
  unfold closeMessage
  split <;> rfl

theorem finish_ids (P : Platform) (st : Scan) : (st.finish P).map (·.msgId) = st.list.msgs.map (·.msgId) ++ (st.cur.map (·.msgId)).toList := by
  unfold Scan.finish addMessage
  cases st.cur with
  | none => exact (List.append_nil _).symm
  | some m => dsimp only; rw [List.map_append, List.map_cons, List.map_nil, close_id]; rfl

theorem transStep_ids (P : Platform) (st : Scan) (l : Str) : ((transStep P st l).finish P).map (·.msgId) = (st.finish P).map (·.msgId) := by
  by_cases h : IsTx P l = true
  · have e := (transStep_yes P (st := st) h)
    have e2 := congrArg (List.map Msg.msgId) e.2.1
    rw [List.map_map, List.map_map] at e2
    unfold Scan.finish at e2 ⊢
    rw [e.1]
    exact e2
  · rw [transStep_no P (by simpa using h)]

theorem scanLine_ids {P : Platform} {s t : Scan} {l : Str} (h : scanLine P s l = .ok t) : (s.finish P).map (·.msgId) <+: (t.finish P).map (·.msgId) := by
  unfold scanLine at h
  cases hv : findVersion P l with
  | ub => rw [hv] at h; cases h
  | throws => rw [hv] at h; cases h
  | ok v =>
    rw [hv] at h
    dsimp only at h
    have e0 : (s.finish P).map (·.msgId) = ((setVersion s v).finish P).map (·.msgId) := by cases v <;> rfl
    rw [e0]
    generalize setVersion s v = s1 at h
    rw [scanBody_eq] at h
    have hp : (s1.finish P).map (·.msgId) <+: (((if isMessageLine l then headerStep P s1 l else s1).finish P).map (·.msgId)) := by
      split
      · rw [headerStep_eq, finish_ids P { list := closeCur P s1.list s1.cur, cur := parseMessageLine P l }]
        exact List.prefix_append _ _
      · exact List.prefix_refl _
    generalize (if isMessageLine l then headerStep P s1 l else s1) = s2 at h hp
    cases hc : stepCur P s2.cur l with
    | ub => rw [hc] at h; cases h
    | throws => rw [hc] at h; cases h
    | ok c =>
      rw [hc] at h
      cases h
      rw [transStep_ids, finish_ids P { s2 with cur := c }]
      rw [finish_ids P s2] at hp
      dsimp only at hp ⊢
      rw [stepCur_ids hc]
      exact hp

theorem distinct_prefix {a b : List Msg} (h : a.map (·.msgId) <+: b.map (·.msgId)) (hd : IdsDistinct b) : IdsDistinct a := by
  have h1 : (b.map (·.msgId)).Pairwise (· ≠ ·) := List.pairwise_map.2 hd
  exact List.pairwise_map.1 (h1.sublist h.sublist)

theorem scanLine_rel {P : Platform} {s s' t : Scan} {l : Str} (hr : ScanRel s s') (h : scanLine P s l = .ok t) (hd : IdsDistinct (t.finish P)) :
    ∃ t', scanLine P s' l = .ok t' ∧ ScanRel t t' := by
  unfold scanLine at h ⊢
  cases hv : findVersion P l with
  | ub => rw [hv] at h; cases h
  | throws => rw [hv] at h; cases h
  | ok v =>
    rw [hv] at h
    dsimp only at h ⊢
    have hr1 : ScanRel (setVersion s v) (setVersion s' v) := by
      cases v with
      | none => exact hr
      | some q => exact ⟨hr.cur, ⟨hr.list.msgs, hr.list.maxDlc, rfl, rfl⟩, hr.last⟩
    generalize setVersion s v = s1 at h hr1
    generalize setVersion s' v = s1' at hr1
    rw [scanBody_eq] at h ⊢
    have hr2 : ScanRel (if isMessageLine l then headerStep P s1 l else s1) (if isMessageLine l then headerStep P s1' l else s1') := by
      by_cases hm : isMessageLine l = true
      · rw [if_pos hm, if_pos hm, headerStep_eq, headerStep_eq, hr1.cur]
        refine ⟨rfl, closeCur_perm P hr1.list _, fun _ => ?_⟩
        have := hr1.finish (P := P)
        unfold Scan.finish at this
        rw [hr1.cur] at this
        exact this
      · rw [if_neg hm, if_neg hm]
        exact hr1
    generalize (if isMessageLine l then headerStep P s1 l else s1) = s2 at h hr2
    generalize (if isMessageLine l then headerStep P s1' l else s1') = s2' at hr2
    rw [hr2.cur]
    cases hc : stepCur P s2.cur l with
    | ub => rw [hc] at h; cases h
    | throws => rw [hc] at h; cases h
    | ok c =>
      rw [hc] at h
      cases h
      refine ⟨_, rfl, ?_⟩
      have hr3 : ScanRel { s2 with cur := c } { s2' with cur := c } := by
        refine ⟨rfl, hr2.list, fun q => hr2.last ?_⟩
        have e := stepCur_ids hc
        dsimp only at q
        rw [q] at e
        exact Option.map_eq_none_iff.1 e.symm
      rw [show IdsDistinct _ ↔ IdsDistinct ((Scan.mk s2.list c).finish P) from
        ⟨distinct_ids (transStep_ids P _ l), distinct_ids (transStep_ids P _ l).symm⟩] at hd
      unfold transStep
      dsimp only
      split
      · have hu := hr3.finish.upd hd (parseMultiTrans P l).1 fun m => { m with tranS := (parseMultiTrans P l).2.foldl addName m.tranS }
        exact ⟨rfl, ⟨hu.perm, hr3.list.maxDlc, hr3.list.verHi, hr3.list.verLow⟩, fun _ => hu⟩
      · exact hr3

theorem scanLines_ids {P : Platform} {ls : List Str} {s t : Scan} (h : scanLines P s ls = .ok t) : (s.finish P).map (·.msgId) <+: (t.finish P).map (·.msgId) := by
  induction ls generalizing s with
  | nil => cases h; exact List.prefix_refl _
  | cons l ls ih =>
    rw [scanLines] at h
    cases hl : scanLine P s (strTrim P.charMax l) with
    | ub => rw [hl] at h; cases h
    | throws => rw [hl] at h; cases h
    | ok u =>
      rw [hl] at h
      exact (scanLine_ids hl).trans (ih h)

theorem scanLines_rel {P : Platform} {ls : List Str} {s s' t : Scan} (hr : ScanRel s s') (h : scanLines P s ls = .ok t) (hd : IdsDistinct (t.finish P)) :
    ∃ t', scanLines P s' ls = .ok t' ∧ ScanRel t t' := by
  induction ls generalizing s s' with
  | nil => cases h; exact ⟨s', rfl, hr⟩
  | cons l ls ih =>
    rw [scanLines] at h ⊢
    cases hl : scanLine P s (strTrim P.charMax l) with
    | ub => rw [hl] at h; cases h
    | throws => rw [hl] at h; cases h
    | ok u =>
      rw [hl] at h
      obtain ⟨u', e, hu⟩ := scanLine_rel hr hl (distinct_prefix (scanLines_ids h) hd)
      rw [e]
      exact ih hu h

/-- The first pass over a file with the sections in another order; the last message stays where it is. -/
theorem parseMessageInfo_perm {P : Platform} {pre tail : List Str} {hd : Str} {B B' : List (List Str)} (hB : ∀ b ∈ B, MsgSection P b) (hp : B.Perm B')
    (hh : IsHeader (strTrim P.charMax hd) = true) (hm : (parseMessageLine P (strTrim P.charMax hd)).isSome = true) {L : DbcList}
    (h : parseMessageInfo P {} (pre ++ B.flatten ++ hd :: tail) = .ok L) (hi : IdsDistinct L.msgs) :
    ∃ L', parseMessageInfo P {} (pre ++ B'.flatten ++ hd :: tail) = .ok L' ∧ SameLast L.msgs L'.msgs ∧ L'.maxDlc = L.maxDlc ∧ L'.verHi = L.verHi ∧ L'.verLow = L.verLow := by
  have hB' : ∀ b ∈ B', MsgSection P b := fun b hb => hB b (hp.mem_iff.2 hb)
  unfold parseMessageInfo at h ⊢
  rw [List.append_assoc, scanLines_append] at h ⊢
  cases h0 : scanLines P { list := {} } pre with
  | ub => rw [h0] at h; cases h
  | throws => rw [h0] at h; cases h
  | ok s0 =>
    rw [h0] at h
    dsimp only at h ⊢
    rw [scanLines_append] at h ⊢
    cases h1 : scanLines P s0 B.flatten with
    | ub => rw [h1] at h; cases h
    | throws => rw [h1] at h; cases h
    | ok s1 =>
      rw [h1] at h
      dsimp only at h
      obtain ⟨a1, a2⟩ := scanLines_sections hB h1
      obtain ⟨s1', h1'⟩ := scanLines_sections_ok hB' (fun b hb => a1 b (hp.mem_iff.2 hb)) s0
      obtain ⟨-, a2'⟩ := scanLines_sections hB' h1'
      rw [h1']
      dsimp only
      rw [scanLines, scan_head (header_no_version P hh) hh] at h ⊢
      cases hc : stepCur P (parseMessageLine P (strTrim P.charMax hd)) (strTrim P.charMax hd) with
      | ub => rw [hc] at h; cases h
      | throws => rw [hc] at h; cases h
      | ok c =>
        rw [hc] at h
        dsimp only at h ⊢
        have hr : ScanRel { list := closeCur P s1.list s1.cur, cur := c } { list := closeCur P s1'.list s1'.cur, cur := c } := by
          refine ⟨rfl, ?_, fun q => ?_⟩
          · show ListPerm (closeCur P s1.list s1.cur) (closeCur P s1'.list s1'.cur)
            rw [a2, a2']
            exact fold_sections_perm P _ hp _
          · have e := stepCur_ids hc
            dsimp only at q
            rw [q] at e
            rw [Option.map_eq_none_iff.1 e.symm] at hm
            cases hm
        cases ht : scanLines P { list := closeCur P s1.list s1.cur, cur := c } tail with
        | ub => rw [ht] at h; cases h
        | throws => rw [ht] at h; cases h
        | ok t =>
          rw [ht] at h
          cases h
          obtain ⟨t', e, hr'⟩ := scanLines_rel hr ht hi
          rw [e]
          exact ⟨_, rfl, hr'.finish, hr'.list.maxDlc, hr'.list.verHi, hr'.list.verLow⟩

/-! ### Second pass -/

/-- Two states of the second pass: the same up to the order of the messages and to the comment that is collected. -/
structure Rel2 (s s' : Scan2) : Prop where
  msgs : SameLast s.msgs s'.msgs
  ids : IdsDistinct s.msgs
  attr : s'.attribline = s.attribline
  value : s'.valueline = s.valueline
  cm : s'.cm = s.cm

theorem Rel2.upd {s s' : Scan2} (h : Rel2 s s') (id : Nat) {f : Msg → Msg} (hf : ∀ m, (f m).core = m.core) :
    SameLast (updMessage s.msgs id f) (updMessage s'.msgs id f) ∧ IdsDistinct (updMessage s.msgs id f) :=
  ⟨h.msgs.upd h.ids id f, distinct_of_core (core_upd hf).symm h.ids⟩

theorem comment_rel (P : Platform) {s s' : Scan2} (h : Rel2 s s') {l : Str} (hc : s'.commentline = s.commentline ∨ "CM_".toList <+: l) :
    Rel2 (commentStep P s l) (commentStep P s' l) ∧ (commentStep P s' l).commentline = (commentStep P s l).commentline := by
  have e : collect "CM_".toList ['\n'] s'.commentline l = collect "CM_".toList ['\n'] s.commentline l := by
    rcases hc with hc | hc
    · rw [hc]
    · unfold collect
      rw [if_pos (List.isPrefixOf_iff_prefix.2 hc), if_pos (List.isPrefixOf_iff_prefix.2 hc)]
      have : l.length ≠ 0 := by
        obtain ⟨r, rfl⟩ := hc
        exact fun q => nomatch q
      rw [if_neg this, if_neg this]
  unfold commentStep parseCommentLine
  rw [e, h.cm]
  cases collect "CM_".toList ['\n'] s.commentline l with
  | mk acc o =>
    cases o with
    | none => exact ⟨⟨h.msgs, h.ids, h.attr, h.value, rfl⟩, rfl⟩
    | some stmt =>
      dsimp only
      cases finishComment P s.cm stmt with
      | mk cm b =>
        cases b with
        | false => exact ⟨⟨h.msgs, h.ids, h.attr, h.value, rfl⟩, rfl⟩
        | true =>
          obtain ⟨h1, h2⟩ := h.upd cm.msgId (core_applyComment P cm)
          exact ⟨⟨h1, h2, h.attr, h.value, rfl⟩, rfl⟩

theorem comment_rel_open (P : Platform) {s s' : Scan2} (h : Rel2 s s') {l : Str} (hl : l.getLast? ≠ some ';') : Rel2 (commentStep P s l) (commentStep P s' l) := by
  obtain ⟨a1, a2, a3, a4⟩ := comment_open P s hl
  obtain ⟨b1, b2, b3, b4⟩ := comment_open P s' hl
  exact ⟨by rw [a1, b1]; exact h.msgs, by rw [a1]; exact h.ids, by rw [a3, b3]; exact h.attr, by rw [a4, b4]; exact h.value, by rw [a2, b2]; exact h.cm⟩

theorem value_rel (P : Platform) {s s' : Scan2} (h : Rel2 s s') (l : Str) :
    Rel2 (valueStep P s l) (valueStep P s' l) ∧ (valueStep P s l).commentline = s.commentline ∧ (valueStep P s' l).commentline = s'.commentline := by
  unfold valueStep
  rw [h.value]
  cases parseValTableLine P s.valueline l with
  | mk acc o =>
    cases o with
    | none => exact ⟨⟨h.msgs, h.ids, h.attr, rfl, h.cm⟩, rfl, rfl⟩
    | some q =>
      obtain ⟨cm, vt⟩ := q
      obtain ⟨h1, h2⟩ := h.upd cm.msgId (core_applyVal cm vt)
      exact ⟨⟨h1, h2, h.attr, rfl, rfl⟩, rfl, rfl⟩

theorem attrib_rel (P : Platform) {s s' : Scan2} (h : Rel2 s s') (l : Str) :
    Rel2 (attribStep P s l) (attribStep P s' l) ∧ (attribStep P s l).commentline = s.commentline ∧ (attribStep P s' l).commentline = s'.commentline := by
  unfold attribStep
  rw [h.attr]
  cases parseAttributeLine P s.attribline l with
  | mk acc o =>
    cases o with
    | none => exact ⟨⟨h.msgs, h.ids, rfl, h.value, h.cm⟩, rfl, rfl⟩
    | some q =>
      obtain ⟨id, v⟩ := q
      obtain ⟨h1, h2⟩ := h.upd id (f := fun m => { m with cycle := v }) fun _ => rfl
      exact ⟨⟨h1, h2, rfl, h.value, h.cm⟩, rfl, rfl⟩

theorem tail_rel (P : Platform) {ls : List Str} {s s' : Scan2} (h : Rel2 s s')
    (hc : s'.commentline = s.commentline ∨ CommentFirst (ls.map (strTrim P.charMax))) :
    SameLast (parseOtherInfo P s ls).msgs (parseOtherInfo P s' ls).msgs := by
  unfold parseOtherInfo
  induction ls generalizing s s' with
  | nil => exact h.msgs
  | cons l ls ih =>
    rw [List.foldl_cons, List.foldl_cons]
    unfold scanLine2
    by_cases hk : s'.commentline = s.commentline ∨ "CM_".toList <+: strTrim P.charMax l
    · obtain ⟨h1, e1⟩ := comment_rel P h hk
      obtain ⟨h2, e2, e2'⟩ := value_rel P h1 (strTrim P.charMax l)
      obtain ⟨h3, e3, e3'⟩ := attrib_rel P h2 (strTrim P.charMax l)
      exact ih h3 (.inl (by rw [e3, e3', e2, e2', e1]))
    · have hc2 : CommentFirst ((l :: ls).map (strTrim P.charMax)) := hc.resolve_left fun q => hk (.inl q)
      have hl : (strTrim P.charMax l).getLast? ≠ some ';' := by
        intro q
        obtain ⟨x, hx, hp⟩ := hc2 [] _ _ rfl q
        rw [List.nil_append, List.mem_singleton] at hx
        exact hk (.inr (hx ▸ hp))
      obtain ⟨h2, -, -⟩ := value_rel P (comment_rel_open P h hl) (strTrim P.charMax l)
      obtain ⟨h3, -, -⟩ := attrib_rel P h2 (strTrim P.charMax l)
      refine ih h3 (.inr fun a x b e q => ?_)
      obtain ⟨y, hy, hp⟩ := hc2 (strTrim P.charMax l :: a) x b (by rw [List.map_cons, e]; rfl) q
      rcases List.mem_cons.1 hy with rfl | hy
      · exact absurd (.inr hp) hk
      · exact ⟨y, hy, hp⟩

/-- The second pass over two files with different first parts. -/
theorem parseOtherInfo_perm {P : Platform} {h h' t : List Str} (hh : ∀ l ∈ h, Plain (strTrim P.charMax l)) (hh' : ∀ l ∈ h', Plain (strTrim P.charMax l))
    (hc : (∀ l ∈ h ++ h', ¬ "CM_".toList <+: strTrim P.charMax l) ∨ CommentFirst (t.map (strTrim P.charMax))) {ms ms' : List Msg} (hm : SameLast ms ms') (hd : IdsDistinct ms) (cm : Comment) :
    SameLast (parseOtherInfo P { msgs := ms, cm := cm } (h ++ t)).msgs (parseOtherInfo P { msgs := ms', cm := cm } (h' ++ t)).msgs := by
  rw [parseOtherInfo_append, parseOtherInfo_append]
  obtain ⟨a1, a2, a3, a4, a5⟩ := head_scan P hh (s := { msgs := ms, cm := cm }) rfl rfl
  obtain ⟨b1, b2, b3, b4, b5⟩ := head_scan P hh' (s := { msgs := ms', cm := cm }) rfl rfl
  refine tail_rel P ⟨by rw [a1, b1]; exact hm, by rw [a1]; exact hd, by rw [a3, b3], by rw [a4, b4], by rw [a2, b2]⟩ ?_
  refine hc.imp (fun q => ?_) id
  rw [a5 rfl fun l hl => q l (List.mem_append_left _ hl), b5 rfl fun l hl => q l (List.mem_append_right _ hl)]

end Verif
