import Verif.Proofs.Blocks
import Verif.Props.ScanLists
/-
C29, C30, C32, C51: cycle times, comments and value tables in the second pass.
-/
namespace Verif
open Spec

/-! ### The statement lines as blocks -/

theorem fileId_mod {id : Nat} (h : id < 2 ^ 29) (ext : Bool) : fileId id ext % 2 ^ 29 = id ∧ fileId id ext < 2 ^ 63 := by
  unfold fileId
  cases ext <;> simp only [if_true, if_false, Bool.false_eq_true] <;> omega

theorem prefix_of_append {a b c : Str} (h : a <+: b) : a <+: b ++ c := h.trans (List.prefix_append _ _)

theorem stmt_ok {k : Kw} {l : Str} (h1 : k.text <+: l) (h2 : l.getLast? = some ';') : (Block.stmt k l []).Ok :=
  ⟨h1, by simp, [], l, rfl, h2, by simp⟩

theorem last_semi (s : Str) : (s ++ ";".toList).getLast? = some ';' := by
  simp

theorem last_semi' (s : Str) (c : Char) : (s ++ [c, ';']).getLast? = some ';' := by
  simp

theorem cycle_ok (id v : Nat) : (Block.stmt .attr (cycleLine id v) []).Ok := by
  refine stmt_ok ⟨"\"GenMsgCycleTime\" BO_ ".toList ++ decStr id ++ " ".toList ++ decStr v ++ ";".toList, ?_⟩ (last_semi _)
  unfold cycleLine Kw.text
  simp

theorem msgComment_ok (id : Nat) (t : Str) : (Block.stmt .comment (msgComment id t) []).Ok := by
  refine stmt_ok ⟨" BO_ ".toList ++ decStr id ++ " \"".toList ++ t ++ "\";".toList, ?_⟩ (last_semi' _ _)
  unfold msgComment Kw.text
  simp

theorem sigComment_ok (id : Nat) (n t : Str) : (Block.stmt .comment (sigCommentText id n t) []).Ok := by
  refine stmt_ok ⟨" SG_ ".toList ++ decStr id ++ " ".toList ++ n ++ " \"".toList ++ t ++ "\";".toList, ?_⟩ (last_semi' _ _)
  unfold sigCommentText Kw.text
  simp

theorem val_ok (id : Nat) (n : Str) (es : List (Int × Str)) : (Block.stmt .value (valText id n es) []).Ok := by
  refine stmt_ok ⟨decStr id ++ " ".toList ++ n ++ es.flatMap valEntry ++ " ;".toList, ?_⟩ (last_semi' _ _)
  unfold valText Kw.text
  simp

theorem scan_one (P : Platform) (k : Kw) (l : Str) (st : Scan2) (hq : st.Quiet) (hb : (Block.stmt k l []).Ok) :
    (scanLine2 P st l).Quiet ∧ (scanLine2 P st l).msgs = stmtEffect P k l st.msgs := by
  have h := scan_block P (.stmt k l []) st hq hb
  simp only [Block.lines, List.foldl_cons, List.foldl_nil, blockEffect] at h
  refine ⟨h.1, h.2.trans ?_⟩
  simp [joinLines]

/-! ### Signal comments -/

/-- The stored signals a comment for `name` concerns: the name as it is or with the suffix of scaled signals. -/
def Concerns (name : Str) (s : Sig) : Prop := s.name = name ∨ s.name = name ++ "_ro".toList

instance (name : Str) (s : Sig) : Decidable (Concerns name s) := by unfold Concerns; infer_instance

theorem sigComment_get (P : Platform) (cm : Comment) (m : Msg) (i j : Nat) :
    (sigComment P cm m i).signals[j]? =
      if i = j then m.signals[j]?.map fun s => if Concerns cm.sigName s then { s with commentText := cm.text } else s
      else m.signals[j]? := by
  unfold sigComment
  cases hi : m.signals[i]? with
  | none =>
    dsimp only
    split
    · rename_i e
      subst e
      rw [hi]; rfl
    · rfl
  | some s =>
    dsimp only
    have hc : (cm.sigName = s.name ∨ cm.sigName ++ "_ro".toList = s.name) ↔ Concerns cm.sigName s := by
      unfold Concerns; constructor <;> rintro (h | h) <;> first | exact .inl h.symm | exact .inr h.symm
    by_cases hn : Concerns cm.sigName s
    · rw [if_pos (hc.mpr hn)]
      have hg : (m.signals.modify i fun s => { s with commentText := cm.text })[j]? =
          if i = j then m.signals[j]?.map fun s => if Concerns cm.sigName s then { s with commentText := cm.text } else s
          else m.signals[j]? := by
        rw [List.getElem?_modify]
        by_cases e : i = j
        · subst e
          rw [hi, if_pos rfl]
          simp [hn]
        · rw [if_neg e]
          simp [e, Option.map_id']
      rw [← hg]
      split <;> (try split) <;> (try split) <;> rfl
    · rw [if_neg (fun h => hn (hc.mp h))]
      split
      · rename_i e
        subst e
        rw [hi]; simp [hn]
      · rfl

/-- The fields a signal comment does not touch. -/
def Msg.noTags (m : Msg) : Msg := { m with signals := [], rollSig := none, csmSig := none, csmMethod := [], csmOp := 0 }

theorem sigComment_noTags (P : Platform) (cm : Comment) (m : Msg) (i : Nat) : (sigComment P cm m i).noTags = m.noTags := by
  unfold sigComment
  split
  · rfl
  · split
    · dsimp only
      split <;> (try split) <;> (try split) <;> rfl
    · rfl

theorem sigComments_get (P : Platform) (cm : Comment) (m : Msg) (k j : Nat) :
    ((List.range k).foldl (sigComment P cm) m).signals[j]? =
      if j < k then m.signals[j]?.map fun s => if Concerns cm.sigName s then { s with commentText := cm.text } else s
      else m.signals[j]? := by
  induction k with
  | zero => simp
  | succ k ih =>
    rw [List.range_succ, List.foldl_append, List.foldl_cons, List.foldl_nil, sigComment_get, ih]
    by_cases h1 : k = j
    · subst h1
      rw [if_pos rfl, if_neg (by omega), if_pos (by omega)]
    · rw [if_neg h1]
      by_cases h2 : j < k
      · rw [if_pos h2, if_pos (by omega)]
      · rw [if_neg h2, if_neg (by omega)]

theorem applyComment_signals (P : Platform) (cm : Comment) (hc : cm.target = .signal) (m : Msg) :
    (applyComment P cm m).signals =
      m.signals.map fun s => if Concerns cm.sigName s then { s with commentText := cm.text } else s := by
  unfold applyComment
  rw [hc]
  dsimp only
  apply List.ext_getElem?
  intro j
  rw [sigComments_get, List.getElem?_map]
  by_cases h : j < m.signals.length
  · rw [if_pos h]
  · rw [if_neg h, List.getElem?_eq_none (by omega)]; rfl

theorem applyComment_noTags (P : Platform) (cm : Comment) (hc : cm.target = .signal) (m : Msg) :
    (applyComment P cm m).noTags = m.noTags := by
  unfold applyComment
  rw [hc]
  dsimp only
  generalize List.range m.signals.length = l
  induction l generalizing m with
  | nil => rfl
  | cons a l ih => rw [List.foldl_cons, ih, sigComment_noTags]

/-! ### C29 -/

/-- A signal with a value table. -/
def withTable (name : Str) (es : List (Int × Str)) (s : Sig) : Sig :=
  { s with valueText := valListing es,
           valDefs := { sigName := name, vpairs := es.map fun e => (makeCName e.2, (e.1 % 2 ^ 32).toNat) } }

/-- **C29**, cycle times (partial: the id is known): the first message with the id gets the cycle
time, nothing else changes, for standard and extended ids. -/
theorem C29_cycle_partial (P : Platform) (st : Scan2) (hq : st.Quiet) (id v : Nat) (ext : Bool) (hid : id < 2 ^ 29)
    (hv : v < 2 ^ 31) (hk : Known st.msgs id) :
    (scanLine2 P st (cycleLine (fileId id ext) v)).Quiet ∧
    (scanLine2 P st (cycleLine (fileId id ext) v)).msgs = onFirst id (fun m => { m with cycle := v }) st.msgs := by
  obtain ⟨h1, h2⟩ := scan_one P .attr _ st hq (cycle_ok (fileId id ext) v)
  refine ⟨h1, h2.trans ?_⟩
  obtain ⟨e1, e2⟩ := fileId_mod hid ext
  unfold stmtEffect
  rw [finish_cycleLine P _ v e2 hv, e1]
  exact updMessage_known _ hk

/-- **C29**, message comments (partial: the id is known). -/
theorem C29_comment_partial (P : Platform) (st : Scan2) (hq : st.Quiet) (id : Nat) (ext : Bool) (t : Str) (hid : id < 2 ^ 29)
    (ht : '"' ∉ t) (hlf : t.getLast? ≠ some '\n') (hk : Known st.msgs id) :
    (scanLine2 P st (msgComment (fileId id ext) t)).Quiet ∧
    (scanLine2 P st (msgComment (fileId id ext) t)).msgs = onFirst id (fun m => { m with commentText := t }) st.msgs := by
  obtain ⟨h1, h2⟩ := scan_one P .comment _ st hq (msgComment_ok (fileId id ext) t)
  refine ⟨h1, h2.trans ?_⟩
  obtain ⟨e1, e2⟩ := fileId_mod hid ext
  have hd : dropLastLf t = t := by unfold dropLastLf; rw [if_neg hlf]
  unfold stmtEffect
  dsimp only
  rw [finish_msgComment P _ _ t e2 ht, e1, hd]
  exact updMessage_known _ hk

/-- **C29**, signal comments (partial: the id is known): of the first message with the id, the
comments of the signals with the name (stored as it is or with the suffix of scaled signals) change;
of the rest of the message at most the rolling counter and the checksum. -/
theorem C29_sigComment_partial (P : Platform) (st : Scan2) (hq : st.Quiet) (id : Nat) (ext : Bool) (name t : Str)
    (hid : id < 2 ^ 29) (hn : IsWordStr name) (ht : '"' ∉ t) (hlf : t.getLast? ≠ some '\n') (hk : Known st.msgs id) :
    (scanLine2 P st (sigCommentText (fileId id ext) name t)).Quiet ∧
    ∃ f, (scanLine2 P st (sigCommentText (fileId id ext) name t)).msgs = onFirst id f st.msgs ∧
      ∀ m, (f m).signals = (m.signals.map fun s => if Concerns name s then { s with commentText := t } else s) ∧
        (f m).noTags = m.noTags := by
  obtain ⟨h1, h2⟩ := scan_one P .comment _ st hq (sigComment_ok (fileId id ext) name t)
  refine ⟨h1, applyComment P { msgId := id, sigName := name, target := .signal, text := t }, h2.trans ?_, fun m => ?_⟩
  · obtain ⟨e1, e2⟩ := fileId_mod hid ext
    have hd : dropLastLf t = t := by unfold dropLastLf; rw [if_neg hlf]
    unfold stmtEffect
    dsimp only
    rw [finish_sigComment P _ _ name t e2 hn ht, e1, hd]
    exact updMessage_known _ hk
  · exact ⟨applyComment_signals P _ rfl m, applyComment_noTags P _ rfl m⟩

/-- **C29**, value tables (partial: the id is known): of the first message with the id, exactly the
signals stored under the name get the table, with the listing for the comments. -/
theorem C29_values_partial (P : Platform) (st : Scan2) (hq : st.Quiet) (id : Nat) (ext : Bool) (name : Str)
    (es : List (Int × Str)) (hid : id < 2 ^ 29) (hn : IsWordStr name)
    (he : ∀ e ∈ es, '"' ∉ e.2 ∧ -(2 ^ 63) ≤ e.1 ∧ e.1 < 2 ^ 63) (hk : Known st.msgs id) :
    (scanLine2 P st (valText (fileId id ext) name es)).Quiet ∧
    (scanLine2 P st (valText (fileId id ext) name es)).msgs =
      onFirst id (fun m => { m with signals := m.signals.map fun s =>
        if s.name = name then withTable name es s else s }) st.msgs := by
  obtain ⟨h1, h2⟩ := scan_one P .value _ st hq (val_ok (fileId id ext) name es)
  refine ⟨h1, h2.trans ?_⟩
  obtain ⟨e1, e2⟩ := fileId_mod hid ext
  have hf := finish_val P _ name es e2 hn he
  rw [e1] at hf
  generalize valText (fileId id ext) name es = vt at hf
  have hstmt : stmtEffect P .value vt st.msgs =
      updMessage st.msgs id (applyVal { msgId := id, sigName := name, target := .signal, text := valListing es }
        { sigName := name, vpairs := es.map fun e => (makeCName e.2, (e.1 % 2 ^ 32).toNat) }) := by
    unfold stmtEffect
    rw [hf]
  rw [hstmt, updMessage_known _ hk]
  refine congrArg (fun f => onFirst id f st.msgs) (funext fun m => ?_)
  unfold applyVal
  refine congrArg (fun x => { m with signals := x }) (List.map_congr_left fun s _ => ?_)
  by_cases h : s.name = name
  · rw [if_pos h, if_pos h.symm]; rfl
  · rw [if_neg h, if_neg (fun e => h e.symm)]

/-- **C29**: a line that begins no statement changes nothing. -/
theorem C29_other (P : Platform) (st : Scan2) (hq : st.Quiet) (l : Str) (h : ∀ k : Kw, ¬ k.text <+: l) :
    (scanLine2 P st l).Quiet ∧ (scanLine2 P st l).msgs = st.msgs :=
  scan_block P (.other l) st hq h

/-- **C29** is false for every list: an id that no message has changes the last message. -/
theorem C29_unknown_changes_last (P : Platform) (st : Scan2) (hq : st.Quiet) (id v : Nat) (ext : Bool) (hid : id < 2 ^ 29)
    (hv : v < 2 ^ 31) (hk : ¬ Known st.msgs id) (ms : List Msg) (m : Msg) (e : st.msgs = ms ++ [m]) :
    (scanLine2 P st (cycleLine (fileId id ext) v)).msgs = ms ++ [{ m with cycle := v }] := by
  obtain ⟨-, h2⟩ := scan_one P .attr _ st hq (cycle_ok (fileId id ext) v)
  rw [h2]
  obtain ⟨e1, e2⟩ := fileId_mod hid ext
  unfold stmtEffect
  rw [finish_cycleLine P _ v e2 hv, e1]
  dsimp only
  rw [e] at hk ⊢
  exact updMessage_unknown _ (fun ⟨x, hx, h⟩ => hk ⟨x, by simp [hx], h⟩) m

/-- Two messages; a cycle time, a message comment and a signal comment for ids that do not occur. -/
def lostText : Str := ("BO_ 100 Motor: 8 ECU\n SG_ A : 0|8@1+ (1,0) [0|255] \"\" Dash\n" ++
  "BO_ 102 Gear: 2 ECU\n SG_ C : 0|4@1+ (1,0) [0|15] \"\" Dash\n" ++ "BA_ \"GenMsgCycleTime\" BO_ 777 50;\n" ++
  "CM_ BO_ 778 \"not Gear\";\nCM_ SG_ 779 C \"<RollingCounter>\";\n").toList

/-- **C29** is false: the last message `Gear` gets a cycle time, a comment and a rolling counter. -/
theorem C29_refuted : (match trimDbcText plat lostText with
    | .ok out => some (out.msgs.map fun m => (m.msgId, m.cycle, m.commentText, m.rollSig))
    | _ => none) = some [(100, 0, [], none), (102, 50, "not Gear".toList, some 0)] := by decide +kernel

/-- **C29** is false: the comment of `A` also replaces the comment of a signal that is named `A_ro` in the file. -/
theorem C29_refuted_suffix : (match trimDbcText plat ("BO_ 100 Motor: 8 ECU\n SG_ A : 0|8@1+ (1,0) [0|255] \"\" Dash\n" ++
      " SG_ A_ro : 8|8@1+ (1,0) [0|255] \"\" Dash\nCM_ SG_ 100 A_ro \"own\";\nCM_ SG_ 100 A \"other\";\n").toList with
    | .ok out => some (out.msgs.map fun m => m.signals.map fun s => (s.name, s.commentText))
    | _ => none) = some [[("A".toList, "other".toList), ("A_ro".toList, "other".toList)]] := by decide +kernel

/-- Standard and extended message; all statements reach the message they name. -/
def reachText : Str := ("BO_ 100 Motor: 8 ECU\n SG_ A : 0|8@1+ (1,0) [0|255] \"\" Dash\n SG_ T : 8|8@1+ (0.5,-40) [0|255] \"\" Dash\n" ++
  "BO_ 2147483750 Gear: 2 ECU\n SG_ C : 0|4@1+ (1,0) [0|15] \"\" Dash\n" ++
  "BA_ \"GenMsgCycleTime\" BO_ 100 50;\nCM_ BO_ 100 \"engine\";\nCM_ SG_ 100 T \"hot\";\nVAL_ 100 A 0 \"Off\" 1 \"On now\" ;\n").toList

example : (match trimDbcText plat reachText with
    | .ok out => some (out.msgs.map fun m => (m.msgId, m.isExt, m.cycle, m.commentText))
    | _ => none) = some [(100, false, 50, "engine".toList), (102, true, 0, [])] := by decide +kernel

example : (match trimDbcText plat reachText with
    | .ok out => some (out.msgs.map fun m => m.signals.map fun s => (s.name, s.commentText, s.valueText))
    | _ => none) = some [[("A".toList, [], " 0 : \"Off\"\n 1 : \"On now\"".toList), ("T_ro".toList, "hot".toList, [])],
      [("C".toList, [], [])]] := by decide +kernel

example : (match trimDbcText plat reachText with
    | .ok out => some (out.msgs.map fun m => m.signals.map fun s => s.valDefs.vpairs)
    | _ => none) = some [[[("Off".toList, 0), ("On_now".toList, 1)], []], [[]]] := by decide +kernel

/-! ### C30 -/

/-- **C30** (partial: the signal is stored under the name of the file, as it is unless it is scaled). -/
theorem C30_stored_partial (P : Platform) (st : Scan2) (hq : st.Quiet) (id : Nat) (ext : Bool) (name : Str)
    (es : List (Int × Str)) (hid : id < 2 ^ 29) (hn : IsWordStr name)
    (he : ∀ e ∈ es, '"' ∉ e.2 ∧ -(2 ^ 63) ≤ e.1 ∧ e.1 < 2 ^ 63)
    (ms : List Msg) (m : Msg) (ms' : List Msg) (hm : st.msgs = ms ++ m :: ms') (hid' : m.msgId = id)
    (hfirst : ∀ x ∈ ms, x.msgId ≠ id) (s : Sig) (hs : s ∈ m.signals) (hname : s.name = name) :
    ∃ m' s', (scanLine2 P st (valText (fileId id ext) name es)).msgs = ms ++ m' :: ms' ∧ s' ∈ m'.signals ∧
      s' = withTable name es s := by
  have hk : Known st.msgs id := ⟨m, by rw [hm]; simp, hid'⟩
  obtain ⟨-, h⟩ := C29_values_partial P st hq id ext name es hid hn he hk
  have hon : ∀ (f : Msg → Msg), onFirst id f (ms ++ m :: ms') = ms ++ f m :: ms' := by
    intro f
    clear hm
    induction ms with
    | nil => rw [List.nil_append, onFirst, if_pos hid']; rfl
    | cons a ms ih =>
      rw [List.cons_append, onFirst, if_neg (hfirst a (by simp)), ih (fun x hx => hfirst x (by simp [hx]))]
      rfl
  rw [hm, hon] at h
  refine ⟨_, _, h, ?_, rfl⟩
  dsimp only
  rw [List.mem_map]
  exact ⟨s, hs, by rw [if_pos hname]⟩

/-- **C30** is false for all scaled signals: if no signal of the message is stored under the name of
the table (scaled signals are stored with the suffix), the table has no effect at all. -/
theorem C30_scaled (P : Platform) (st : Scan2) (hq : st.Quiet) (id : Nat) (ext : Bool) (name : Str)
    (es : List (Int × Str)) (hid : id < 2 ^ 29) (hn : IsWordStr name)
    (he : ∀ e ∈ es, '"' ∉ e.2 ∧ -(2 ^ 63) ≤ e.1 ∧ e.1 < 2 ^ 63) (hk : Known st.msgs id)
    (hs : ∀ m ∈ st.msgs, m.msgId = id → ∀ s ∈ m.signals, s.name ≠ name) :
    (scanLine2 P st (valText (fileId id ext) name es)).msgs = st.msgs := by
  obtain ⟨-, h⟩ := C29_values_partial P st hq id ext name es hid hn he hk
  rw [h]
  clear h hq hk
  generalize st.msgs = ms at hs
  induction ms with
  | nil => rfl
  | cons a ms ih =>
    rw [onFirst]
    split
    · rename_i ha
      congr 1
      have e : (a.signals.map fun s => if s.name = name then withTable name es s else s) = a.signals := by
        rw [List.map_congr_left (g := fun s => s), List.map_id']
        intro s hs'
        rw [if_neg (hs a (by simp) ha s hs')]
      rw [e]
    · rw [ih (fun m hm => hs m (by simp [hm]))]

/-- A scaled signal with a value table. -/
def scaledText : Str := ("BO_ 100 Motor: 8 ECU\n SG_ T : 8|8@1+ (0.5,-40) [-40|80] \"\" Dash\nVAL_ 100 T 255 \"Invalid\" ;\n").toList

set_option synthInstance.maxSize 1000 in
/-- **C30** is false: the value table of the scaled signal is lost. -/
theorem C30_refuted : (match trimDbcText plat scaledText with
    | .ok out => some (out.msgs.map fun m => m.signals.map fun s => (s.name, s.valueText, s.valDefs.vpairs))
    | _ => none) = some [[("T_ro".toList, [], [])]] := by decide +kernel

/-! ### C32 -/

/-- **C32** (partial: only first lines begin with a keyword, only last lines end with a semicolon): a
file whose statements are split over several lines has the effect it would have if every statement
arrived in one piece. -/
theorem C32_one_piece_partial (P : Platform) (bs : List Block) (st : Scan2) (hq : st.Quiet) (hb : ∀ b ∈ bs, b.Ok) :
    ((bs.flatMap Block.lines).foldl (scanLine2 P) st).Quiet ∧
    ((bs.flatMap Block.lines).foldl (scanLine2 P) st).msgs =
      ((bs.map fun b => match b with
        | .other l => l
        | .stmt k f r => joinLines k f r).foldl (scanLine2 P) st).msgs := by
  obtain ⟨h1, h2⟩ := scan_blocks P bs st hq hb
  refine ⟨h1, ?_⟩
  let one : Block → Block := fun b => match b with
    | .other l => .other l
    | .stmt k f r => .stmt k (joinLines k f r) []
  have hone : ∀ b ∈ bs.map one, b.Ok := by
    intro b hbm
    obtain ⟨b0, hb0, rfl⟩ := List.mem_map.mp hbm
    have h0 := hb b0 hb0
    cases b0 with
    | other l => exact h0
    | stmt k f r =>
      obtain ⟨h1, h2, init, last, e, hl, hi⟩ := h0
      refine stmt_ok (prefix_of_append h1) ?_
      unfold joinLines
      cases init with
      | nil =>
        injection e with e1 e2
        subst e1 e2
        simpa using hl
      | cons i init =>
        injection e with e1 e2
        subst e1 e2
        have hne : last ≠ [] := by rintro rfl; cases hl
        rw [show init.append [last] = init ++ [last] from rfl]
        rw [List.flatMap_append, List.flatMap_cons, List.flatMap_nil, if_neg hne]
        rw [List.append_nil, ← List.append_assoc, ← List.append_assoc]
        rw [List.getLast?_append, hl]
        rfl
  obtain ⟨-, h4⟩ := scan_blocks P (bs.map one) st hq hone
  have e1 : (bs.map one).flatMap Block.lines = bs.map fun b => match b with
      | .other l => l
      | .stmt k f r => joinLines k f r := by
    clear hone h4 h1 h2 hb
    induction bs with
    | nil => rfl
    | cons b bs ih =>
      rw [List.map_cons, List.flatMap_cons, ih]
      cases b <;> rfl
  have e2 : ∀ ms, (bs.map one).foldl (blockEffect P) ms = bs.foldl (blockEffect P) ms := by
    clear hone h4 h1 h2 hb e1
    induction bs with
    | nil => exact fun _ => rfl
    | cons b bs ih =>
      intro ms
      rw [List.map_cons, List.foldl_cons, List.foldl_cons, ih]
      congr 1
      cases b with
      | other l => rfl
      | stmt k f r =>
        show stmtEffect P k (joinLines k (joinLines k f r) []) ms = stmtEffect P k (joinLines k f r) ms
        simp [joinLines]
  rw [h2, ← e2, ← h4, e1]

/-- **C32** for files: the messages of the file are those of the first pass, changed by the
statements in their order, each in one piece. -/
theorem C32_file_partial (P : Platform) (text : Str) (out : DbcList) (h : trimDbcText P text = .ok out) (bs : List Block)
    (hb : ∀ b ∈ bs, b.Ok) (hl : fileLines P text = bs.flatMap Block.lines) :
    ∃ l, parseMessageInfo P {} (getLines text) = .ok l ∧
      out.msgs = ((bs.map fun b => match b with
        | .other l => l
        | .stmt k f r => joinLines k f r).foldl (scanLine2 P) { msgs := l.msgs, cm := { msgId := P.junk } }).msgs := by
  unfold trimDbcText at h
  cases hp : parseMessageInfo P {} (getLines text) with
  | ub => rw [hp] at h; cases h
  | throws => rw [hp] at h; cases h
  | ok l =>
    rw [hp] at h
    dsimp only at h
    cases h
    refine ⟨l, rfl, ?_⟩
    dsimp only
    rw [← (C32_one_piece_partial P bs _ ⟨rfl, rfl, rfl⟩ hb).2, ← hl]
    unfold parseOtherInfo fileLines
    rw [List.foldl_map]

/-- **C32**, exactly once: nothing changes before the last line of a statement. -/
theorem C32_pending (P : Platform) (k : Kw) (init : List Str) (f : Str) (st : Scan2) (hq : st.Quiet) (hf : k.text <+: f)
    (hk : ∀ l ∈ init, ∀ k' : Kw, ¬ k'.text <+: l) (hs : ∀ l ∈ f :: init, l.getLast? ≠ some ';') :
    ((f :: init).foldl (scanLine2 P) st).msgs = st.msgs := by
  have hO : st.Only k := by
    intro k' _
    cases k' with
    | comment => exact hq.1
    | attr => exact hq.2.1
    | value => exact hq.2.2
  have hacc : st.acc k = [] := by
    cases k with
    | comment => exact hq.1
    | attr => exact hq.2.1
    | value => exact hq.2.2
  rw [List.foldl_cons]
  obtain ⟨h1, h2, h3⟩ := scanLine2_step P hO (fun k' hk' => kw_once hf hk')
  rw [hacc, collect_first (kw_ne k) hf, if_neg (hs f (by simp))] at h2 h3
  have hne : f ≠ [] := by
    rintro rfl
    exact kw_ne k (List.prefix_nil.mp hf)
  have hacc2 : (scanLine2 P st f).acc k ≠ [] := by rw [h2]; exact hne
  rw [← show (scanLine2 P st f).msgs = st.msgs from h3]
  clear h2 h3 hacc hO hq
  replace hs : ∀ l ∈ init, l.getLast? ≠ some ';' := fun l hl => hs l (by simp [hl])
  generalize scanLine2 P st f = st' at h1 hacc2
  induction init generalizing st' with
  | nil => rfl
  | cons l init ih =>
    rw [List.foldl_cons]
    obtain ⟨g1, g2, g3⟩ := scanLine2_step P h1 (fun k' _ => hk l (by simp) k')
    rw [collect_next hacc2 (hk l (by simp) k), if_neg (hs l (by simp))] at g2 g3
    rw [ih (fun x hx => hk x (by simp [hx])) (fun x hx => hs x (by simp [hx])) _ g1 (by rw [g2]; split <;> simp [hacc2]), g3]
    by_cases hz : l = []
    · rw [if_pos hz]
    · rw [if_neg hz]

/-- **C32**, comments: the text of a comment over several non-empty lines is stored with its line breaks. -/
theorem C32_comment_partial (P : Platform) (st : Scan2) (hq : st.Quiet) (id : Nat) (ext : Bool) (p : Str) (mid : List Str) (last : Str)
    (hid : id < 2 ^ 29) (hk : Known st.msgs id) (hm : ∀ l ∈ mid, l ≠ [])
    (ht : '"' ∉ p ∧ (∀ l ∈ mid, '"' ∉ l) ∧ '"' ∉ last) (hlf : last.getLast? ≠ some '\n') (hl : last ≠ [])
    (hb : (Block.stmt .comment ("CM_ BO_ ".toList ++ decStr (fileId id ext) ++ " \"".toList ++ p) (mid ++ [last ++ "\";".toList])).Ok) :
    (((("CM_ BO_ ".toList ++ decStr (fileId id ext) ++ " \"".toList ++ p) :: (mid ++ [last ++ "\";".toList])).foldl (scanLine2 P) st).msgs) =
      onFirst id (fun m => { m with commentText := p ++ (mid ++ [last]).flatMap ('\n' :: ·) }) st.msgs := by
  obtain ⟨-, h⟩ := scan_block P _ st hq hb
  simp only [Block.lines] at h
  rw [h]
  show stmtEffect P .comment (joinLines .comment _ _) st.msgs = _
  have e : joinLines .comment ("CM_ BO_ ".toList ++ decStr (fileId id ext) ++ " \"".toList ++ p) (mid ++ [last ++ "\";".toList]) =
      msgComment (fileId id ext) (p ++ (mid ++ [last]).flatMap ('\n' :: ·)) := by
    have em : (mid.flatMap fun l => if l = [] then [] else Kw.comment.sep ++ l) = mid.flatMap ('\n' :: ·) := by
      clear hb ht h
      induction mid with
      | nil => rfl
      | cons a mid ih =>
        rw [List.flatMap_cons, List.flatMap_cons, ih (fun l hl => hm l (by simp [hl])), if_neg (hm a (by simp))]
        rfl
    unfold joinLines msgComment
    rw [List.flatMap_append, List.flatMap_append, em]
    simp [Kw.sep]
  rw [e]
  have hq' : '"' ∉ p ++ (mid ++ [last]).flatMap ('\n' :: ·) := by
    simp only [List.mem_append, List.mem_flatMap, not_or, not_exists, not_and]
    refine ⟨ht.1, ?_⟩
    rintro l (h | h)
    · have := ht.2.1 l h
      simpa using this
    · rw [List.mem_singleton] at h
      subst h
      simpa using ht.2.2
  obtain ⟨e1, e2⟩ := fileId_mod hid ext
  have hd : dropLastLf (p ++ (mid ++ [last]).flatMap ('\n' :: ·)) = p ++ (mid ++ [last]).flatMap ('\n' :: ·) := by
    unfold dropLastLf
    rw [if_neg]
    rw [List.flatMap_append, List.flatMap_cons, List.flatMap_nil, List.append_nil, ← List.append_assoc, List.getLast?_append]
    intro hc
    cases last with
    | nil => exact hl rfl
    | cons c cs =>
      rw [List.getLast?_cons_cons] at hc
      rw [List.getLast?_eq_some_getLast (List.cons_ne_nil _ _)] at hc hlf
      exact hlf hc
  unfold stmtEffect
  dsimp only
  rw [finish_msgComment P _ _ _ e2 hq', e1, hd]
  exact updMessage_known _ hk

/-- What the second pass makes of the comment, cycle time and value table of a one-message file. -/
def secondPass (s : String) : Option (List (Str × Nat × List Str)) :=
  match trimDbcText plat ("BO_ 100 Motor: 8 ECU\n SG_ A : 0|8@1+ (1,0) [0|255] \"\" Dash\n" ++ s).toList with
  | .ok out => some (out.msgs.map fun m => (m.commentText, m.cycle, m.signals.map (·.valueText)))
  | _ => none

/-- Statements over several lines that work. -/
example : secondPass "CM_ BO_ 100 \"first\nsecond\";\nBA_ \"GenMsgCycleTime\" \nBO_ 100 20\n;\nVAL_ 100 A 0 \"Off\" \n1 \"On\" ;\n" =
    some [("first\nsecond".toList, 20, [" 0 : \"Off\"\n 1 : \"On\"".toList])] := by decide +kernel

/-- **C32** is false for statements with line breaks at other places: a comment line that ends with a
semicolon loses the whole comment; a comment line that begins like an attribute is executed; a value
table and a cycle time with a line break after a number or name are lost; an empty line in a comment
becomes two. -/
theorem C32_refuted :
    secondPass "CM_ BO_ 100 \"first;\nsecond\";\n" = some [([], 0, [[]])] ∧
    secondPass "CM_ BO_ 100 \"example:\nBA_ \"GenMsgCycleTime\" BO_ 100 20;\n \";\n" = some [([], 20, [[]])] ∧
    secondPass "VAL_ 100 \nA 0 \"Off\" ;\n" = some [([], 0, [[]])] ∧
    secondPass "BA_ \"GenMsgCycleTime\" BO_ 100 \n20;\n" = some [([], 0, [[]])] ∧
    secondPass "CM_ BO_ 100 \"a\n\n  b\";\n" = some [("a\n\n\n  b".toList, 0, [[]])] := by
  refine ⟨?_, ?_, ?_, ?_, ?_⟩ <;> decide +kernel

/-! ### C51 -/

/-- **C51**: the result of the second pass does not depend on what the comment variable holds before
the loop (the code does not initialise its id). -/
theorem C51_uninitialised (P : Platform) (ms : List Msg) (cm cm' : Comment) (lines : List Str) :
    (parseOtherInfo P { msgs := ms, cm := cm } lines).msgs = (parseOtherInfo P { msgs := ms, cm := cm' } lines).msgs := by
  have step : ∀ (st st' : Scan2) (l : Str), st.msgs = st'.msgs → st.commentline = st'.commentline → st.attribline = st'.attribline →
      st.valueline = st'.valueline →
      (scanLine2 P st l).msgs = (scanLine2 P st' l).msgs ∧ (scanLine2 P st l).commentline = (scanLine2 P st' l).commentline ∧
      (scanLine2 P st l).attribline = (scanLine2 P st' l).attribline ∧ (scanLine2 P st l).valueline = (scanLine2 P st' l).valueline := by
    intro st st' l h1 h2 h3 h4
    have hc : (commentStep P st l).msgs = (commentStep P st' l).msgs ∧ (commentStep P st l).commentline = (commentStep P st' l).commentline ∧
        (commentStep P st l).attribline = (commentStep P st' l).attribline ∧ (commentStep P st l).valueline = (commentStep P st' l).valueline := by
      unfold commentStep parseCommentLine
      rw [h2]
      generalize collect "CM_".toList ['\n'] st'.commentline l = r
      obtain ⟨acc, o⟩ := r
      cases o with
      | none => exact ⟨h1, rfl, h3, h4⟩
      | some stmt =>
        dsimp only
        obtain ⟨e1, e2⟩ := finishComment_effect P st.cm st'.cm stmt st'.msgs
        rw [h1]
        revert e1 e2
        generalize finishComment P st.cm stmt = f
        generalize finishComment P st'.cm stmt = f'
        obtain ⟨c1, b1⟩ := f
        obtain ⟨c2, b2⟩ := f'
        dsimp only
        rintro rfl e2
        cases b1 with
        | true => exact ⟨e2, rfl, h3, h4⟩
        | false => exact ⟨rfl, rfl, h3, h4⟩
    unfold scanLine2
    generalize commentStep P st l = s at hc
    generalize commentStep P st' l = s' at hc
    obtain ⟨c1, c2, c3, c4⟩ := hc
    have hv : (valueStep P s l).msgs = (valueStep P s' l).msgs ∧ (valueStep P s l).commentline = (valueStep P s' l).commentline ∧
        (valueStep P s l).attribline = (valueStep P s' l).attribline ∧ (valueStep P s l).valueline = (valueStep P s' l).valueline := by
      unfold valueStep
      rw [c4]
      generalize parseValTableLine P s'.valueline l = r
      obtain ⟨acc, o⟩ := r
      cases o with
      | none => exact ⟨c1, c2, c3, rfl⟩
      | some p => dsimp only; rw [c1]; exact ⟨rfl, c2, c3, rfl⟩
    generalize valueStep P s l = t at hv
    generalize valueStep P s' l = t' at hv
    obtain ⟨v1, v2, v3, v4⟩ := hv
    unfold attribStep
    rw [v3]
    generalize parseAttributeLine P t'.attribline l = r
    obtain ⟨acc, o⟩ := r
    cases o with
    | none => exact ⟨v1, v2, rfl, v4⟩
    | some p => dsimp only; rw [v1]; exact ⟨rfl, v2, rfl, v4⟩
  have key : ∀ (ls : List Str) (st st' : Scan2), st.msgs = st'.msgs → st.commentline = st'.commentline → st.attribline = st'.attribline →
      st.valueline = st'.valueline →
      (parseOtherInfo P st ls).msgs = (parseOtherInfo P st' ls).msgs := by
    intro ls
    induction ls with
    | nil => exact fun st st' h _ _ _ => h
    | cons a ls ih =>
      intro st st' h1 h2 h3 h4
      obtain ⟨g1, g2, g3, g4⟩ := step st st' (strTrim P.charMax a) h1 h2 h3 h4
      exact ih _ _ g1 g2 g3 g4
  exact key lines _ _ rfl rfl rfl rfl

/-- A comment without an id in front of other statements. -/
example : (parseOtherInfo plat { msgs := [{ msgId := 5 }, { msgId := 6 }], cm := { msgId := 123456 } }
    ["CM_ \"about the file\";".toList, "CM_ BO_ 5 \"five\";".toList]).msgs = [{ msgId := 5, commentText := "five".toList }, { msgId := 6 }] := by
  decide +kernel

end Verif
