import Verif.Proofs.Statements
/-
The second pass over statements.
-/
namespace Verif
open Spec

/-! ### Messages by id -/

/-- A message with the id exists. -/
def Known (ms : List Msg) (id : Nat) : Prop := ∃ m ∈ ms, m.msgId = id

theorem updMessage_known {ms : List Msg} {id : Nat} (f : Msg → Msg) (h : Known ms id) :
    updMessage ms id f = onFirst id f ms := by
  have key : ∀ ms : List Msg, Known ms id → ∃ i, ms.findIdx? (·.msgId == id) = some i ∧ ms.modify i f = onFirst id f ms := by
    intro ms
    induction ms with
    | nil => rintro ⟨m, hm, -⟩; cases hm
    | cons a ms ih =>
      rintro ⟨m, hm, e⟩
      by_cases ha : a.msgId = id
      · refine ⟨0, ?_, ?_⟩
        · rw [List.findIdx?_cons, if_pos (by simpa using ha)]
        · rw [onFirst, if_pos ha]; rfl
      · obtain ⟨i, h1, h2⟩ := ih ⟨m, by
          rcases List.mem_cons.mp hm with rfl | hm
          · exact absurd e ha
          · exact hm, e⟩
        refine ⟨i + 1, ?_, ?_⟩
        · rw [List.findIdx?_cons, if_neg (by simpa using ha), h1]; rfl
        · rw [onFirst, if_neg ha, List.modify_succ_cons, h2]
  obtain ⟨i, h1, h2⟩ := key ms h
  unfold updMessage findMessage
  rw [h1]
  exact h2

theorem updMessage_unknown {ms : List Msg} {id : Nat} (f : Msg → Msg) (h : ¬ Known ms id) (m : Msg) :
    updMessage (ms ++ [m]) id f = ms ++ [f m] := by
  have hmod : (ms ++ [m]).modify ms.length f = ms ++ [f m] := by
    clear h
    induction ms with
    | nil => rfl
    | cons a ms ih => rw [List.cons_append, List.length_cons, List.modify_succ_cons, ih]; rfl
  have hn : ms.findIdx? (·.msgId == id) = none := by
    rw [List.findIdx?_eq_none_iff]
    intro x hx
    cases hb : x.msgId == id with
    | false => rfl
    | true => exact absurd ⟨x, hx, by simpa using hb⟩ h
  unfold updMessage findMessage
  rw [List.findIdx?_append, hn]
  by_cases hm : m.msgId = id
  · rw [List.findIdx?_singleton, if_pos (by simpa using hm)]
    simpa using hmod
  · rw [List.findIdx?_singleton, if_neg (by simpa using hm)]
    simpa using hmod

theorem updMessage_id (ms : List Msg) (id : Nat) (f : Msg → Msg) (hf : ∀ m, f m = m) : updMessage ms id f = ms := by
  have : f = fun m => m := funext hf
  subst this
  unfold updMessage
  split
  · rename_i i _
    have key : ∀ (l : List Msg) (i : Nat), l.modify i (fun m => m) = l := by
      intro l
      induction l with
      | nil => intro i; cases i <;> rfl
      | cons a l ih =>
        intro i
        cases i with
        | zero => rfl
        | succ i => rw [List.modify_succ_cons, ih]
    exact key ms i
  · rfl

theorem onFirst_unknown {ms : List Msg} {id : Nat} (f : Msg → Msg) (h : ¬ Known ms id) : onFirst id f ms = ms := by
  induction ms with
  | nil => rfl
  | cons a ms ih =>
    rw [onFirst, if_neg (fun e => h ⟨a, by simp, e⟩), ih (fun ⟨m, hm, e⟩ => h ⟨m, by simp [hm], e⟩)]

/-! ### Collecting -/

theorem isPrefixOf_false {a b : Str} (h : ¬ a <+: b) : a.isPrefixOf b = false := by
  cases hc : a.isPrefixOf b with
  | false => rfl
  | true => exact absurd (List.isPrefixOf_iff_prefix.mp hc) h

theorem collect_other {start sep line : Str} (h : ¬ start <+: line) : collect start sep [] line = ([], none) := by
  unfold collect
  by_cases hl : line.length = 0
  · rw [if_pos hl]
  · rw [if_neg hl, isPrefixOf_false h]
    rfl

theorem collect_first {start sep acc line : Str} (hs : start ≠ []) (h : start <+: line) :
    collect start sep acc line = if line.getLast? = some ';' then ([], some line) else (line, none) := by
  have hl : 0 < line.length := by
    have := h.length_le
    have := List.length_pos_iff.mpr hs
    omega
  unfold collect
  rw [if_neg (by omega), if_pos (List.isPrefixOf_iff_prefix.mpr h)]
  by_cases he : line.getLast? = some ';'
  · rw [if_pos he, if_pos ⟨hl, he⟩]
  · rw [if_neg he, if_neg (fun h => he h.2)]

theorem collect_next {start sep acc line : Str} (ha : acc ≠ []) (h : ¬ start <+: line) :
    collect start sep acc line =
      if line = [] then (acc, none)
      else if line.getLast? = some ';' then ([], some (acc ++ (sep ++ line))) else (acc ++ (sep ++ line), none) := by
  have hl := List.length_pos_iff.mpr ha
  unfold collect
  by_cases hz : line = []
  · rw [if_pos (by rw [hz]; rfl), if_pos hz]
  · rw [if_neg (fun e => hz (List.length_eq_zero_iff.mp e)), if_neg hz, isPrefixOf_false h]
    rw [if_neg (show ¬ false = true by decide), if_pos hl, List.append_assoc]
    by_cases he : line.getLast? = some ';'
    · rw [if_pos he, if_pos ⟨by simp only [List.length_append]; omega, he⟩]
    · rw [if_neg he, if_neg (fun h => he h.2)]

/-! ### Effects -/

/-- What a finished statement does to the messages. -/
def stmtEffect (P : Platform) (k : Kw) (text : Str) (ms : List Msg) : List Msg :=
  match k with
  | .comment =>
    let r := finishComment P { msgId := 0 } text
    if r.2 then updMessage ms r.1.msgId (applyComment P r.1) else ms
  | .attr =>
    match finishAttr P text with
    | some (id, v) => updMessage ms id fun m => { m with cycle := v }
    | none => ms
  | .value =>
    match finishVal P text with
    | some (cm, vt) => updMessage ms cm.msgId (applyVal cm vt)
    | none => ms

/-- The comment of before does not matter. -/
theorem finishComment_effect (P : Platform) (cm cm' : Comment) (text : Str) (ms : List Msg) :
    (finishComment P cm text).2 = (finishComment P cm' text).2 ∧
    updMessage ms (finishComment P cm text).1.msgId (applyComment P (finishComment P cm text).1) =
      updMessage ms (finishComment P cm' text).1.msgId (applyComment P (finishComment P cm' text).1) := by
  have hun : ∀ (i : Nat) (c : Comment), c.target = .undefined → updMessage ms i (applyComment P c) = ms := by
    intro i c hc
    apply updMessage_id
    intro m
    unfold applyComment
    rw [hc]
  unfold finishComment
  dsimp only
  by_cases h1 : (resplit mQuote text).length = 3
  · rw [if_pos h1, if_pos h1]
    refine ⟨rfl, ?_⟩
    dsimp only
    generalize (resplit mBlanks ((resplit mQuote text).getD 0 [])) = mt
    by_cases h2 : 3 ≤ mt.length
    · rw [if_pos h2, if_pos h2]
      by_cases h3 : mt.getD 1 [] = "SG_".toList ∧ mt.length = 4
      · rw [if_pos h3, if_pos h3]
      · rw [if_neg h3, if_neg h3]
        by_cases h4 : mt.getD 1 [] = "BO_".toList
        · rw [if_pos h4, if_pos h4]
          rfl
        · rw [if_neg h4, if_neg h4]
          exact (hun _ _ rfl).trans (hun _ _ rfl).symm
    · rw [if_neg h2, if_neg h2]
      exact (hun _ _ rfl).trans (hun _ _ rfl).symm
  · rw [if_neg h1, if_neg h1]
    exact ⟨rfl, (hun _ _ rfl).trans (hun _ _ rfl).symm⟩

/-- No statement is open. -/
def Scan2.Quiet (st : Scan2) : Prop := st.commentline = [] ∧ st.attribline = [] ∧ st.valueline = []

theorem commentStep_other (P : Platform) {st : Scan2} {l : Str} (hc : st.commentline = []) (h : ¬ "CM_".toList <+: l) :
    commentStep P st l = st := by
  unfold commentStep parseCommentLine
  rw [hc, collect_other h]
  dsimp only
  rw [← hc]

theorem valueStep_other (P : Platform) {st : Scan2} {l : Str} (hc : st.valueline = []) (h : ¬ "VAL_ ".toList <+: l) :
    valueStep P st l = st := by
  unfold valueStep parseValTableLine
  rw [hc, collect_other h]
  dsimp only
  rw [← hc]

theorem attribStep_other (P : Platform) {st : Scan2} {l : Str} (hc : st.attribline = []) (h : ¬ "BA_ ".toList <+: l) :
    attribStep P st l = st := by
  unfold attribStep parseAttributeLine
  rw [hc, collect_other h]
  dsimp only
  rw [← hc]

theorem commentStep_attrib (P : Platform) (st : Scan2) (l : Str) :
    (commentStep P st l).attribline = st.attribline ∧ (commentStep P st l).valueline = st.valueline := by
  unfold commentStep
  split <;> exact ⟨rfl, rfl⟩

/-- The collected text of a keyword. -/
def Scan2.acc (st : Scan2) : Kw → Str
  | .comment => st.commentline
  | .attr => st.attribline
  | .value => st.valueline

/-- Only the statement of a keyword can be open. -/
def Scan2.Only (st : Scan2) (k : Kw) : Prop := ∀ k', k' ≠ k → st.acc k' = []

/-- One line while at most a statement of `k` is open. -/
theorem scanLine2_step (P : Platform) {st : Scan2} {k : Kw} {l : Str} (ho : st.Only k)
    (hl : ∀ k', k' ≠ k → ¬ k'.text <+: l) :
    ((scanLine2 P st l).Only k) ∧
    (scanLine2 P st l).acc k = (collect k.text k.sep (st.acc k) l).1 ∧
    (scanLine2 P st l).msgs =
      match (collect k.text k.sep (st.acc k) l).2 with
      | none => st.msgs
      | some text => stmtEffect P k text st.msgs := by
  cases k with
  | comment =>
    have ha : st.attribline = [] := ho .attr (by decide)
    have hv : st.valueline = [] := ho .value (by decide)
    obtain ⟨ka, kv⟩ := commentStep_attrib P st l
    have e : scanLine2 P st l = commentStep P st l := by
      unfold scanLine2
      rw [valueStep_other P (kv.trans hv) (hl .value (by decide)),
        attribStep_other P (ka.trans ha) (hl .attr (by decide))]
    rw [e]
    have hO : ∀ st' : Scan2, st'.attribline = st.attribline → st'.valueline = st.valueline → st'.Only .comment := by
      intro st' e1 e2 k' hk
      cases k' with
      | comment => exact absurd rfl hk
      | attr => exact e1.trans ha
      | value => exact e2.trans hv
    refine ⟨hO _ ka kv, ?_⟩
    show (commentStep P st l).commentline = (collect "CM_".toList ['\n'] st.commentline l).1 ∧ (commentStep P st l).msgs =
      match (collect "CM_".toList ['\n'] st.commentline l).2 with
      | none => st.msgs
      | some text => stmtEffect P .comment text st.msgs
    unfold commentStep parseCommentLine
    generalize collect "CM_".toList ['\n'] st.commentline l = r
    obtain ⟨acc, o⟩ := r
    cases o with
    | none => exact ⟨rfl, rfl⟩
    | some stmt =>
      dsimp only [stmtEffect]
      obtain ⟨e1, e2⟩ := finishComment_effect P st.cm { msgId := 0 } stmt st.msgs
      rw [← e1, ← e2]
      generalize finishComment P st.cm stmt = f
      obtain ⟨cm', ok⟩ := f
      cases ok <;> exact ⟨rfl, rfl⟩
  | attr =>
    have hc : st.commentline = [] := ho .comment (by decide)
    have hv : st.valueline = [] := ho .value (by decide)
    have e : scanLine2 P st l = attribStep P st l := by
      unfold scanLine2
      rw [commentStep_other P hc (hl .comment (by decide)), valueStep_other P hv (hl .value (by decide))]
    rw [e]
    have hO : ∀ st' : Scan2, st'.commentline = st.commentline → st'.valueline = st.valueline → st'.Only .attr := by
      intro st' e1 e2 k' hk
      cases k' with
      | attr => exact absurd rfl hk
      | comment => exact e1.trans hc
      | value => exact e2.trans hv
    have hk : (attribStep P st l).commentline = st.commentline ∧ (attribStep P st l).valueline = st.valueline := by
      unfold attribStep
      split <;> exact ⟨rfl, rfl⟩
    refine ⟨hO _ hk.1 hk.2, ?_⟩
    show (attribStep P st l).attribline = (collect "BA_ ".toList [] st.attribline l).1 ∧ (attribStep P st l).msgs =
      match (collect "BA_ ".toList [] st.attribline l).2 with
      | none => st.msgs
      | some text => stmtEffect P .attr text st.msgs
    unfold attribStep parseAttributeLine
    generalize collect "BA_ ".toList [] st.attribline l = r
    obtain ⟨acc, o⟩ := r
    cases o with
    | none => exact ⟨rfl, rfl⟩
    | some stmt =>
      dsimp only [stmtEffect]
      cases finishAttr P stmt with
      | none => exact ⟨rfl, rfl⟩
      | some p => exact ⟨rfl, rfl⟩
  | value =>
    have hc : st.commentline = [] := ho .comment (by decide)
    have ha : st.attribline = [] := ho .attr (by decide)
    have hk : (valueStep P st l).commentline = st.commentline ∧ (valueStep P st l).attribline = st.attribline := by
      unfold valueStep
      split <;> exact ⟨rfl, rfl⟩
    have e : scanLine2 P st l = valueStep P st l := by
      unfold scanLine2
      rw [commentStep_other P hc (hl .comment (by decide)), attribStep_other P (hk.2.trans ha) (hl .attr (by decide))]
    rw [e]
    have hO : ∀ st' : Scan2, st'.commentline = st.commentline → st'.attribline = st.attribline → st'.Only .value := by
      intro st' e1 e2 k' hk
      cases k' with
      | value => exact absurd rfl hk
      | comment => exact e1.trans hc
      | attr => exact e2.trans ha
    refine ⟨hO _ hk.1 hk.2, ?_⟩
    show (valueStep P st l).valueline = (collect "VAL_ ".toList [] st.valueline l).1 ∧ (valueStep P st l).msgs =
      match (collect "VAL_ ".toList [] st.valueline l).2 with
      | none => st.msgs
      | some text => stmtEffect P .value text st.msgs
    unfold valueStep parseValTableLine
    generalize collect "VAL_ ".toList [] st.valueline l = r
    obtain ⟨acc, o⟩ := r
    cases o with
    | none => exact ⟨rfl, rfl⟩
    | some stmt =>
      dsimp only [stmtEffect]
      cases finishVal P stmt with
      | none => exact ⟨rfl, rfl⟩
      | some p => exact ⟨rfl, rfl⟩

theorem kw_ne (k : Kw) : k.text ≠ [] := by cases k <;> decide

/-- Keywords do not begin each other. -/
theorem kw_once {k k' : Kw} {l : Str} (h : k.text <+: l) (hk : k' ≠ k) : ¬ k'.text <+: l := by
  intro h'
  obtain ⟨r, rfl⟩ := h
  obtain ⟨r', e⟩ := h'
  have e0 := congrArg (fun l : Str => l.head?) e
  cases k <;> cases k' <;> first | exact absurd rfl hk | (revert e0; simp [Kw.text])

/-- The continuation lines of a statement. -/
theorem scan_rest (P : Platform) (k : Kw) (init : List Str) (last : Str) (st : Scan2) (ho : st.Only k)
    (hacc : st.acc k ≠ []) (hk : ∀ l ∈ init ++ [last], ∀ k' : Kw, ¬ k'.text <+: l)
    (hlast : last.getLast? = some ';') (hinit : ∀ l ∈ init, l.getLast? ≠ some ';') :
    ((init ++ [last]).foldl (scanLine2 P) st).Quiet ∧
    ((init ++ [last]).foldl (scanLine2 P) st).msgs =
      stmtEffect P k (joinLines k (st.acc k) (init ++ [last])) st.msgs := by
  induction init generalizing st with
  | nil =>
    rw [List.nil_append, List.foldl_cons, List.foldl_nil]
    obtain ⟨h1, h2, h3⟩ := scanLine2_step P ho (fun k' _ => hk last (by simp) k')
    have hne : last ≠ [] := by rintro rfl; cases hlast
    rw [collect_next hacc (hk last (by simp) k), if_neg hne, if_pos hlast] at h2 h3
    refine ⟨?_, ?_⟩
    · have hall : ∀ k', (scanLine2 P st last).acc k' = [] := by
        intro k'
        by_cases e : k' = k
        · rw [e]; exact h2
        · exact h1 k' e
      exact ⟨hall .comment, hall .attr, hall .value⟩
    · rw [h3]
      simp [joinLines, hne]
  | cons l init ih =>
    rw [List.cons_append, List.foldl_cons]
    obtain ⟨h1, h2, h3⟩ := scanLine2_step P ho (fun k' _ => hk l (by simp) k')
    rw [collect_next hacc (hk l (by simp) k), if_neg (hinit l (by simp))] at h2 h3
    have hx : (scanLine2 P st l).acc k = st.acc k ++ (if l = [] then [] else k.sep ++ l) ∧ (scanLine2 P st l).msgs = st.msgs := by
      by_cases hz : l = []
      · rw [if_pos hz] at h2 h3 ⊢; exact ⟨by rw [h2]; simp, h3⟩
      · rw [if_neg hz] at h2 h3 ⊢; exact ⟨h2, h3⟩
    obtain ⟨g1, g2⟩ := ih (scanLine2 P st l) h1 (by rw [hx.1]; simp [hacc]) (fun x hx => hk x (by exact List.mem_cons_of_mem _ hx))
      (fun x hx => hinit x (by simp [hx]))
    refine ⟨g1, ?_⟩
    rw [g2, hx.1, hx.2]
    congr 1
    unfold joinLines
    rw [List.flatMap_cons, List.append_assoc]

/-- What a block does to the messages. -/
def blockEffect (P : Platform) (ms : List Msg) : Block → List Msg
  | .other _ => ms
  | .stmt k f r => stmtEffect P k (joinLines k f r) ms

theorem scan_block (P : Platform) (b : Block) (st : Scan2) (hq : st.Quiet) (hb : b.Ok) :
    (b.lines.foldl (scanLine2 P) st).Quiet ∧ (b.lines.foldl (scanLine2 P) st).msgs = blockEffect P st.msgs b := by
  have hO : ∀ k, st.Only k := by
    intro k k' _
    cases k' with
    | comment => exact hq.1
    | attr => exact hq.2.1
    | value => exact hq.2.2
  have hacc : ∀ k, st.acc k = [] := by
    intro k
    cases k with
    | comment => exact hq.1
    | attr => exact hq.2.1
    | value => exact hq.2.2
  cases b with
  | other l =>
    show (scanLine2 P st l).Quiet ∧ (scanLine2 P st l).msgs = st.msgs
    obtain ⟨h1, h2, h3⟩ := scanLine2_step P (hO .comment) (fun k' _ => hb k')
    rw [hacc, collect_other (hb .comment)] at h2 h3
    exact ⟨⟨h2, h1 .attr (by decide), h1 .value (by decide)⟩, h3⟩
  | stmt k f r =>
    obtain ⟨hf, hr, init, last, e, hlast, hinit⟩ := hb
    show ((f :: r).foldl (scanLine2 P) st).Quiet ∧ ((f :: r).foldl (scanLine2 P) st).msgs = stmtEffect P k (joinLines k f r) st.msgs
    rw [List.foldl_cons]
    obtain ⟨h1, h2, h3⟩ := scanLine2_step P (hO k) (fun k' hk' => kw_once hf hk')
    rw [hacc, collect_first (kw_ne k) hf] at h2 h3
    cases init with
    | nil =>
      rw [List.nil_append] at e
      injection e with e1 e2
      subst e1 e2
      rw [if_pos hlast] at h2 h3
      refine ⟨?_, ?_⟩
      · have hall : ∀ k', (scanLine2 P st f).acc k' = [] := by
          intro k'
          by_cases e : k' = k
          · rw [e]; exact h2
          · exact h1 k' e
        exact ⟨hall .comment, hall .attr, hall .value⟩
      · rw [List.foldl_nil, h3]
        simp [joinLines]
    | cons i init =>
      rw [List.cons_append] at e
      injection e with e1 e2
      subst e1 e2
      rw [if_neg (hinit f (by simp))] at h2 h3
      have hne : f ≠ [] := by
        rintro rfl
        exact kw_ne k (List.prefix_nil.mp hf)
      obtain ⟨g1, g2⟩ := scan_rest P k init last (scanLine2 P st f) h1 (by rw [h2]; exact hne) hr hlast
        (fun l hl => hinit l (by simp [hl]))
      refine ⟨g1, ?_⟩
      rw [g2, h2, h3]

theorem scan_blocks (P : Platform) (bs : List Block) (st : Scan2) (hq : st.Quiet) (hb : ∀ b ∈ bs, b.Ok) :
    ((bs.flatMap Block.lines).foldl (scanLine2 P) st).Quiet ∧
    ((bs.flatMap Block.lines).foldl (scanLine2 P) st).msgs = bs.foldl (blockEffect P) st.msgs := by
  induction bs generalizing st with
  | nil => exact ⟨hq, rfl⟩
  | cons b bs ih =>
    rw [List.flatMap_cons, List.foldl_append, List.foldl_cons]
    obtain ⟨h1, h2⟩ := scan_block P b st hq (hb b (by simp))
    obtain ⟨h3, h4⟩ := ih _ h1 (fun x hx => hb x (by simp [hx]))
    exact ⟨h3, by rw [h4, h2]⟩

end Verif
