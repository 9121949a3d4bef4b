import Verif.Props.MaxDlc
/-
C31: receiver and transmitter lists.
-/
namespace Verif
open Spec

/-! ### Lists of names -/

theorem mem_addName {l : List Str} {n x : Str} : x ∈ addName l n ↔ x ∈ l ∨ x = n := by
  unfold addName
  split
  · rename_i h
    have : n ∈ l := by simpa using h
    constructor
    · exact Or.inl
    · rintro (h | rfl)
      · exact h
      · exact this
  · simp

theorem nodup_addName {l : List Str} {n : Str} (h : l.Nodup) : (addName l n).Nodup := by
  unfold addName
  split
  · exact h
  · rename_i hn
    rw [List.nodup_append]
    refine ⟨h, (by simp), ?_⟩
    intro a ha b hb e
    rw [List.mem_singleton.mp hb] at e
    subst e
    exact hn (by simpa using ha)

theorem mem_addNames {l : List Str} {ns : List Str} {x : Str} : x ∈ ns.foldl addName l ↔ x ∈ l ∨ x ∈ ns := by
  induction ns generalizing l with
  | nil => simp
  | cons n ns ih => rw [List.foldl_cons, ih, mem_addName, List.mem_cons, or_assoc]

theorem nodup_addNames {l : List Str} {ns : List Str} (h : l.Nodup) : (ns.foldl addName l).Nodup := by
  induction ns generalizing l with
  | nil => exact h
  | cons n ns ih => rw [List.foldl_cons]; exact ih (nodup_addName h)

theorem prefix_addNames (l : List Str) (ns : List Str) : l <+: ns.foldl addName l := by
  induction ns generalizing l with
  | nil => exact List.prefix_rfl
  | cons n ns ih =>
    rw [List.foldl_cons]
    refine List.IsPrefix.trans ?_ (ih _)
    unfold addName
    split
    · exact List.prefix_rfl
    · exact List.prefix_append _ _

/-! ### Receivers -/

/-- **C31**, receivers: the receiver list of every message contains each receiver of each of its
signals, nothing else, and nothing twice. -/
theorem C31_receivers (P : Platform) (text : Str) (out : DbcList) (h : trimDbcText P text = .ok out) :
    ∀ m ∈ out.msgs, m.recS.Nodup ∧ ∀ r, r ∈ m.recS ↔ ∃ s ∈ m.signals, r ∈ s.recS := by
  intro m hm
  have h1 : m.core ∈ out.msgs.map Msg.core := List.mem_map_of_mem hm
  rw [trim_msgs h] at h1
  obtain ⟨m', hm', e⟩ := List.mem_map.mp h1
  obtain ⟨s, -, hs⟩ := List.mem_filterMap.mp hm'
  unfold secMsg at hs
  rw [Option.map_eq_some_iff] at hs
  obtain ⟨m0, hp, e2⟩ := hs
  obtain ⟨hn, hr⟩ := parseMessageLine_empty hp
  generalize hM : (sectionSigs P s.1 s.2).foldl addSignal m0 = M at e2
  have hMr : M.recS = [] := by
    rw [← hM, (foldl_addSignal m0 _).2.2.2.2.2.1, hr]
  have a0 := congrArg Msg.recS e
  have b0 := congrArg Msg.recS e2
  have er : m.recS = (closeMessage P M).recS := a0.symm.trans b0.symm
  have a1 := congrArg Msg.signals e
  have b1 := congrArg Msg.signals e2
  have es : m.signals.map Sig.core = (closeMessage P M).signals.map Sig.core := by
    have a2 : m'.signals.map Sig.core = m.signals.map Sig.core := a1
    have b2 : (closeMessage P M).signals = m'.signals := b1
    rw [← a2, b2]
  have hx : ∀ r, (∃ s ∈ m.signals, r ∈ s.recS) ↔ ∃ s ∈ (closeMessage P M).signals, r ∈ s.recS := by
    have key : ∀ (l l' : List Sig), l.map Sig.core = l'.map Sig.core → ∀ r, (∃ s ∈ l, r ∈ s.recS) → ∃ s ∈ l', r ∈ s.recS := by
      intro l l' e r ⟨s, hs, hr⟩
      have : s.core ∈ l'.map Sig.core := by rw [← e]; exact List.mem_map_of_mem hs
      obtain ⟨s', hs', e'⟩ := List.mem_map.mp this
      have e3 := congrArg Sig.recS e'
      have e4 : s'.recS = s.recS := e3
      exact ⟨s', hs', by rw [e4]; exact hr⟩
    exact fun r => ⟨key _ _ es r, key _ _ es.symm r⟩
  rw [er]
  simp only [hx]
  obtain ⟨-, -, -, -, -, c6, c7⟩ := closeMessage_fields P M
  rw [c6, c7, hMr]
  split
  · refine ⟨nodup_addNames List.nodup_nil, fun r => ?_⟩
    rw [mem_addNames, List.mem_flatMap]
    simp
  · rename_i hz
    have : M.signals = [] := List.length_eq_zero_iff.mp (by omega)
    rw [this]
    simp

/-! ### Transmitters -/

/-- Id and transmitters of a message. -/
def Msg.tx (m : Msg) : Nat × List Str := (m.msgId, m.tranS)

/-- Nodes added to the entry of the first message with the id (of the last message if there is none). -/
def updTx (l : List (Nat × List Str)) (id : Nat) (nodes : List Str) : List (Nat × List Str) :=
  match l.findIdx? (·.1 == id) with
  | some i => l.modify i fun e => (e.1, nodes.foldl addName e.2)
  | none => if l.length = 0 then l else l.modify (l.length - 1) fun e => (e.1, nodes.foldl addName e.2)

/-- What a line does to the transmitters. -/
def txStep (P : Platform) (l : List (Nat × List Str)) (line : Str) : List (Nat × List Str) :=
  if IsHeader line then l ++ ((parseMessageLine P line).map Msg.tx).toList
  else if IsTx P line then updTx l (parseMultiTrans P line).1 (parseMultiTrans P line).2
  else l

theorem map_modify_tx (l : List Msg) (i : Nat) (nodes : List Str) :
    (l.modify i fun m => { m with tranS := nodes.foldl addName m.tranS }).map Msg.tx =
      (l.map Msg.tx).modify i fun e => (e.1, nodes.foldl addName e.2) := by
  induction l generalizing i with
  | nil => cases i <;> rfl
  | cons a l ih =>
    cases i with
    | zero => rfl
    | succ i => simp only [List.modify_succ_cons, List.map_cons, ih]

theorem updMessage_tx (l : List Msg) (id : Nat) (nodes : List Str) :
    (updMessage l id fun m => { m with tranS := nodes.foldl addName m.tranS }).map Msg.tx =
      updTx (l.map Msg.tx) id nodes := by
  unfold updMessage updTx findMessage
  have e : (l.map Msg.tx).findIdx? (·.1 == id) = l.findIdx? (·.msgId == id) := by
    rw [List.findIdx?_map]; rfl
  rw [e, List.length_map]
  cases l.findIdx? (·.msgId == id) with
  | some i => exact map_modify_tx l i nodes
  | none =>
    dsimp only
    split
    · rename_i h; split at h
      · cases h
      · cases h
        rename_i hz
        rw [if_neg hz]
        exact map_modify_tx l _ nodes
    · rename_i h
      split at h
      · rename_i hz
        rw [if_pos hz]
      · cases h

theorem closeMessage_tx (P : Platform) (m : Msg) : (closeMessage P m).tx = m.tx := by
  unfold closeMessage
  split <;> rfl

theorem finish_tx (P : Platform) (st : Scan) :
    (st.finish P).map Msg.tx = st.list.msgs.map Msg.tx ++ (st.cur.map Msg.tx).toList := by
  unfold Scan.finish addMessage
  cases st.cur with
  | none => simp
  | some m => simp [closeMessage_tx]

theorem foldl_addSignal_tx (m : Msg) (l : List Sig) : (l.foldl addSignal m).tx = m.tx := by
  induction l generalizing m with
  | nil => rfl
  | cons s l ih => rw [List.foldl_cons, ih]; rfl

theorem transStep_tx (P : Platform) (st : Scan) {l : Str} (h : IsTx P l = true) :
    ((transStep P st l).finish P).map Msg.tx =
      updTx ((st.finish P).map Msg.tx) (parseMultiTrans P l).1 (parseMultiTrans P l).2 := by
  unfold IsTx at h
  have h' : (parseMultiTrans P l).1 ≠ 0 := by simpa using h
  unfold transStep
  dsimp only
  rw [if_pos h', ← updMessage_tx]
  rfl

theorem scanLine_tx {P : Platform} {st st' : Scan} {l : Str} (h : scanLine P st l = .ok st') :
    (st'.finish P).map Msg.tx = txStep P ((st.finish P).map Msg.tx) l := by
  obtain ⟨st1, e1, e2, -, h2⟩ := scanLine_ok h
  dsimp only at h2
  have hst1 : (st1.finish P).map Msg.tx = (st.finish P).map Msg.tx := by
    rw [finish_tx, finish_tx, e1, e2]
  rw [← hst1]
  -- the state before the transmitter step
  have hx : ∃ st3 : Scan, st' = transStep P st3 l ∧
      (st3.finish P).map Msg.tx = (if IsHeader l then ((st1.finish P).map Msg.tx) ++ ((parseMessageLine P l).map Msg.tx).toList
        else (st1.finish P).map Msg.tx) := by
    have hst2 : ((if IsHeader l then headerStep P st1 l else st1).finish P).map Msg.tx =
        (if IsHeader l then ((st1.finish P).map Msg.tx) ++ ((parseMessageLine P l).map Msg.tx).toList
          else (st1.finish P).map Msg.tx) := by
      by_cases hh : IsHeader l = true
      · rw [if_pos hh, if_pos hh, finish_tx]
        rfl
      · rw [if_neg hh, if_neg hh]
    rw [← hst2]
    generalize (if IsHeader l then headerStep P st1 l else st1) = st2 at h2
    cases hc : st2.cur with
    | none => rw [hc] at h2; exact ⟨st2, h2, rfl⟩
    | some m =>
      rw [hc] at h2
      dsimp only at h2
      by_cases hs : isSignalLine l = true
      · rw [if_pos hs] at h2
        obtain ⟨r, -, h2⟩ := h2
        refine ⟨_, h2, ?_⟩
        rw [finish_tx, finish_tx, hc]
        dsimp only
        rw [Option.map_some, Option.map_some, foldl_addSignal_tx]
      · rw [if_neg hs] at h2
        exact ⟨st2, h2, rfl⟩
  obtain ⟨st3, rfl, h3⟩ := hx
  unfold txStep
  by_cases hh : IsHeader l = true
  · rw [transStep_no P (header_not_tx P hh), h3, if_pos hh, if_pos hh]
  · rw [if_neg hh] at h3 ⊢
    by_cases htx : IsTx P l = true
    · rw [transStep_tx P st3 htx, if_pos htx, h3]
    · rw [transStep_no P (by simpa using htx), if_neg htx, h3]

theorem scanLines_tx (P : Platform) (ls : List Str) (st st' : Scan) (h : scanLines P st ls = .ok st') :
    (st'.finish P).map Msg.tx = (ls.map (strTrim P.charMax)).foldl (txStep P) ((st.finish P).map Msg.tx) := by
  induction ls generalizing st with
  | nil => rw [scanLines] at h; cases h; rfl
  | cons l ls ih =>
    rw [scanLines] at h
    cases h1 : scanLine P st (strTrim P.charMax l) with
    | ub => rw [h1] at h; cases h
    | throws => rw [h1] at h; cases h
    | ok sta =>
      rw [h1] at h
      dsimp only at h
      rw [ih sta h, List.map_cons, List.foldl_cons, scanLine_tx h1]

/-- What the second pass leaves alone. -/
theorem keep_modify {α : Type} {g : Msg → α} {l : List Msg} {i : Nat} {f : Msg → Msg} (hf : ∀ m, g (f m) = g m) :
    (l.modify i f).map g = l.map g := by
  induction l generalizing i with
  | nil => cases i <;> rfl
  | cons a l ih =>
    cases i with
    | zero => simp only [List.modify_zero_cons, List.map_cons, hf]
    | succ i => simp only [List.modify_succ_cons, List.map_cons, ih]

theorem keep_upd {α : Type} {g : Msg → α} {l : List Msg} {id : Nat} {f : Msg → Msg} (hf : ∀ m, g (f m) = g m) :
    (updMessage l id f).map g = l.map g := by
  unfold updMessage
  split
  · exact keep_modify hf
  · rfl

theorem keep_parseOtherInfo {α : Type} (P : Platform) (g : Msg → α) (h1 : ∀ cm m, g (applyComment P cm m) = g m)
    (h2 : ∀ cm vt m, g (applyVal cm vt m) = g m) (h3 : ∀ (m : Msg) v, g { m with cycle := v } = g m)
    (st : Scan2) (ls : List Str) : (parseOtherInfo P st ls).msgs.map g = st.msgs.map g := by
  have e1 : ∀ (st : Scan2) l, (commentStep P st l).msgs.map g = st.msgs.map g := by
    intro st l
    unfold commentStep
    split
    · exact keep_upd (h1 _)
    · rfl
  have e2 : ∀ (st : Scan2) l, (valueStep P st l).msgs.map g = st.msgs.map g := by
    intro st l
    unfold valueStep
    split
    · exact keep_upd (h2 _ _)
    · rfl
  have e3 : ∀ (st : Scan2) l, (attribStep P st l).msgs.map g = st.msgs.map g := by
    intro st l
    unfold attribStep
    split
    · exact keep_upd (fun m => h3 m _)
    · rfl
  unfold parseOtherInfo
  induction ls generalizing st with
  | nil => rfl
  | cons l ls ih =>
    rw [List.foldl_cons, ih]
    unfold scanLine2
    rw [e3, e2, e1]

theorem sigComment_tx (P : Platform) (cm : Comment) (m : Msg) (i : Nat) : (sigComment P cm m i).tx = m.tx := by
  unfold sigComment
  cases m.signals[i]? with
  | none => rfl
  | some s =>
    dsimp only
    split
    · have hk : ∀ m' : Msg, m'.tx = m.tx → ∀ o : Option (Str × Nat),
          (match o with
            | some (method, op) =>
              if (s.isSimple && boundaryOk s && !s.signed) = true then
                { m' with csmSig := some i, csmMethod := method, csmOp := op } else m'
            | none => m').tx = m.tx := by
        intro m' hm' o
        cases o with
        | none => exact hm'
        | some p => dsimp only; split <;> exact hm'
      apply hk
      split <;> rfl
    · rfl

theorem applyComment_tx (P : Platform) (cm : Comment) (m : Msg) : (applyComment P cm m).tx = m.tx := by
  unfold applyComment
  cases cm.target with
  | message => rfl
  | undefined => rfl
  | signal =>
    dsimp only
    generalize List.range m.signals.length = l
    induction l generalizing m with
    | nil => rfl
    | cons a l ih => rw [List.foldl_cons, ih, sigComment_tx]

theorem trim_tx {P : Platform} {text : Str} {out : DbcList} (h : trimDbcText P text = .ok out) :
    out.msgs.map Msg.tx = (fileLines P text).foldl (txStep P) [] := by
  unfold trimDbcText parseMessageInfo at h
  cases hs : scanLines P { list := {} } (getLines text) with
  | ub => rw [hs] at h; cases h
  | throws => rw [hs] at h; cases h
  | ok st =>
    rw [hs] at h
    dsimp only at h
    cases h
    dsimp only
    rw [keep_parseOtherInfo P Msg.tx (applyComment_tx P) (fun _ _ _ => rfl) (fun _ _ => rfl)]
    exact scanLines_tx P _ _ _ hs

/-! ### What follows for the file -/

theorem updTx_get (l : List (Nat × List Str)) (id : Nat) (nodes : List Str) :
    ∃ i : Nat, ∀ j : Nat, (updTx l id nodes)[j]? =
      if i = j then l[j]?.map fun e => (e.1, nodes.foldl addName e.2) else l[j]? := by
  unfold updTx
  split
  · rename_i i _
    refine ⟨i, fun j => ?_⟩
    rw [List.getElem?_modify]
    split <;> simp [Option.map_id']
  · split
    · rename_i hz
      refine ⟨0, fun j => ?_⟩
      have : l = [] := List.length_eq_zero_iff.mp hz
      subst this
      simp
    · refine ⟨l.length - 1, fun j => ?_⟩
      rw [List.getElem?_modify]
      split <;> simp [Option.map_id']

theorem txStep_mono (P : Platform) (l : List (Nat × List Str)) (line : Str) {i id : Nat} {t : List Str}
    (h : l[i]? = some (id, t)) : ∃ t', (txStep P l line)[i]? = some (id, t') ∧ t <+: t' := by
  unfold txStep
  split
  · refine ⟨t, ?_, List.prefix_rfl⟩
    rw [List.getElem?_append_left (List.getElem?_eq_some_iff.mp h).1]
    exact h
  · split
    · obtain ⟨k, hk⟩ := updTx_get l (parseMultiTrans P line).1 (parseMultiTrans P line).2
      rw [hk i, h]
      split
      · exact ⟨_, rfl, prefix_addNames _ _⟩
      · exact ⟨_, rfl, List.prefix_rfl⟩
    · exact ⟨t, h, List.prefix_rfl⟩

theorem txFold_mono (P : Platform) (ls : List Str) (l : List (Nat × List Str)) {i id : Nat} {t : List Str}
    (h : l[i]? = some (id, t)) : ∃ t', (ls.foldl (txStep P) l)[i]? = some (id, t') ∧ t <+: t' := by
  induction ls generalizing l t with
  | nil => exact ⟨t, h, List.prefix_rfl⟩
  | cons a ls ih =>
    obtain ⟨t1, h1, p1⟩ := txStep_mono P l a h
    obtain ⟨t2, h2, p2⟩ := ih (txStep P l a) h1
    exact ⟨t2, h2, p1.trans p2⟩

theorem txFold_length_mono (P : Platform) (ls : List Str) (l : List (Nat × List Str)) (i id : Nat) (t' : List Str)
    (hi : i < l.length) (h : (ls.foldl (txStep P) l)[i]? = some (id, t')) : ∃ t, l[i]? = some (id, t) := by
  obtain ⟨t2, h2, -⟩ := txFold_mono P ls l (i := i) (id := (l[i]).1) (t := (l[i]).2) (by simp [hi])
  rw [h2] at h
  cases h
  exact ⟨(l[i]).2, by simp [hi]⟩

/-- **C31**, transmitters: no name appears twice. -/
theorem C31_transmitters_once (P : Platform) (text : Str) (out : DbcList) (h : trimDbcText P text = .ok out) :
    ∀ m ∈ out.msgs, m.tranS.Nodup := by
  have key : ∀ (ls : List Str) (l : List (Nat × List Str)), (∀ e ∈ l, e.2.Nodup) →
      ∀ e ∈ ls.foldl (txStep P) l, e.2.Nodup := by
    intro ls
    induction ls with
    | nil => exact fun l h => h
    | cons a ls ih =>
      intro l hl
      rw [List.foldl_cons]
      apply ih
      intro e he
      unfold txStep at he
      split at he
      · rcases List.mem_append.mp he with he | he
        · exact hl e he
        · cases hp : parseMessageLine P a with
          | none => rw [hp] at he; cases he
          | some m =>
            rw [hp] at he
            simp only [Option.map_some, Option.toList_some, List.mem_singleton] at he
            subst he
            show m.tranS.Nodup
            unfold parseMessageLine at hp
            dsimp only at hp
            split at hp
            · cases hp
            · split at hp
              · cases hp
              · cases hp
                dsimp only
                generalize (if 6 ≤ (resplit mMessage a).length then (resplit mMessage a).getD 5 [] else []) = tx
                split
                · simp
                · exact List.nodup_nil
      · split at he
        · obtain ⟨i, hi⟩ := updTx_get l (parseMultiTrans P a).1 (parseMultiTrans P a).2
          obtain ⟨j, hj⟩ := List.getElem?_of_mem he
          rw [hi j] at hj
          split at hj
          · rw [Option.map_eq_some_iff] at hj
            obtain ⟨e0, h0, rfl⟩ := hj
            exact nodup_addNames (hl e0 (List.mem_of_getElem? h0))
          · exact hl e (List.mem_of_getElem? hj)
        · exact hl e he
  intro m hm
  have := key (fileLines P text) [] (by simp)
  rw [← trim_tx h] at this
  exact this m.tx (List.mem_map_of_mem hm)

/-- **C31**, transmitters: a multi-transmitter line for an id that a header accepted before names
transmitters of the first message with this id, and they all end up in its list. -/
theorem C31_transmitters_added (P : Platform) (text : Str) (out : DbcList) (h : trimDbcText P text = .ok out)
    (pre post : List Str) (l : Str) (hl : fileLines P text = pre ++ l :: post) (htx : IsTx P l = true)
    (hid : ∃ hd ∈ pre, IsHeader hd = true ∧ ∃ m0, parseMessageLine P hd = some m0 ∧ m0.msgId = (parseMultiTrans P l).1) :
    ∃ (i : Nat) (m : Msg), out.msgs[i]? = some m ∧ m.msgId = (parseMultiTrans P l).1 ∧
      (∀ j, j < i → ∀ m' : Msg, out.msgs[j]? = some m' → m'.msgId ≠ (parseMultiTrans P l).1) ∧
      ∀ n ∈ (parseMultiTrans P l).2, n ∈ m.tranS := by
  have ht := trim_tx h
  rw [hl, List.foldl_append, List.foldl_cons] at ht
  generalize hacc : pre.foldl (txStep P) [] = acc at ht
  -- the id is known
  have hk : ∃ e ∈ acc, e.1 = (parseMultiTrans P l).1 := by
    obtain ⟨hd, hm, hh, m0, hp, e0⟩ := hid
    obtain ⟨p1, p2, rfl⟩ := List.append_of_mem hm
    rw [List.foldl_append, List.foldl_cons] at hacc
    generalize p1.foldl (txStep P) [] = a1 at hacc
    have hs : txStep P a1 hd = a1 ++ [m0.tx] := by
      unfold txStep
      rw [if_pos hh, hp]; rfl
    have hg : (txStep P a1 hd)[a1.length]? = some (m0.msgId, m0.tranS) := by
      rw [hs]; simp [Msg.tx]
    obtain ⟨t', h1, -⟩ := txFold_mono P p2 _ hg
    rw [hacc] at h1
    exact ⟨_, List.mem_of_getElem? h1, e0⟩
  have hnh : IsHeader l = false := by
    cases hh : IsHeader l with
    | false => rfl
    | true => rw [header_not_tx P hh] at htx; cases htx
  have hstep : txStep P acc l = updTx acc (parseMultiTrans P l).1 (parseMultiTrans P l).2 := by
    unfold txStep
    rw [if_neg (by rw [hnh]; decide), if_pos htx]
  rw [hstep] at ht
  clear hstep htx hl hid
  generalize (parseMultiTrans P l).1 = id at *
  generalize (parseMultiTrans P l).2 = nodes at *
  unfold updTx at ht
  cases hf : acc.findIdx? (·.1 == id) with
  | none =>
    exfalso
    rw [List.findIdx?_eq_none_iff] at hf
    obtain ⟨e, he, ee⟩ := hk
    have := hf e he
    simp [ee] at this
  | some i =>
    rw [hf] at ht
    dsimp only at ht
    rw [List.findIdx?_eq_some_iff_getElem] at hf
    obtain ⟨hi, hp, hmin⟩ := hf
    have hidi : (acc[i]).1 = id := by simpa using hp
    have hg : (acc.modify i fun e => (e.1, nodes.foldl addName e.2))[i]? = some (id, nodes.foldl addName (acc[i]).2) := by
      rw [List.getElem?_modify, List.getElem?_eq_getElem hi]
      simp [hidi]
    obtain ⟨t', h1, hpre⟩ := txFold_mono P post _ hg
    rw [← ht, List.getElem?_map, Option.map_eq_some_iff] at h1
    obtain ⟨m, hm, em⟩ := h1
    have em1 : m.msgId = id := congrArg Prod.fst em
    have em2 : m.tranS = t' := congrArg Prod.snd em
    refine ⟨i, m, hm, em1, ?_, ?_⟩
    · intro j hj m' hm' e
      have hg' : (acc.modify i fun e => (e.1, nodes.foldl addName e.2))[j]? = some ((acc[j]'(by omega)).1, (acc[j]'(by omega)).2) := by
        rw [List.getElem?_modify, List.getElem?_eq_getElem (show j < acc.length by omega)]
        simp [show i ≠ j by omega]
      obtain ⟨t2, h2, -⟩ := txFold_mono P post _ hg'
      rw [← ht, List.getElem?_map, hm'] at h2
      simp only [Option.map_some, Option.some.injEq] at h2
      have h3 : m'.msgId = (acc[j]'(by omega)).1 := congrArg Prod.fst h2
      have h4 := hmin j hj
      rw [← h3, e] at h4
      simp at h4
    · intro n hn
      rw [em2]
      exact hpre.subset (mem_addNames.mpr (Or.inr hn))

/-- **C31**, transmitters: a name in the list of a message is the transmitter of a header with its
id, or a multi-transmitter line names it, for this id or for an id that no header accepted before. -/
theorem C31_transmitters_only (P : Platform) (text : Str) (out : DbcList) (h : trimDbcText P text = .ok out) :
    ∀ m ∈ out.msgs, ∀ n ∈ m.tranS,
      (∃ hd ∈ fileLines P text, IsHeader hd = true ∧ ∃ m0, parseMessageLine P hd = some m0 ∧ m0.msgId = m.msgId ∧ n ∈ m0.tranS) ∨
      ∃ pre l post, fileLines P text = pre ++ l :: post ∧ IsTx P l = true ∧ n ∈ (parseMultiTrans P l).2 ∧
        ((parseMultiTrans P l).1 = m.msgId ∨
          ∀ hd ∈ pre, IsHeader hd = true → ∀ m0, parseMessageLine P hd = some m0 → m0.msgId ≠ (parseMultiTrans P l).1) := by
  have key : ∀ (rest pre : List Str) (acc : List (Nat × List Str)),
      (∀ e ∈ acc, ∀ n ∈ e.2,
        (∃ hd ∈ pre, IsHeader hd = true ∧ ∃ m0, parseMessageLine P hd = some m0 ∧ m0.msgId = e.1 ∧ n ∈ m0.tranS) ∨
        ∃ p l q, pre = p ++ l :: q ∧ IsTx P l = true ∧ n ∈ (parseMultiTrans P l).2 ∧
          ((parseMultiTrans P l).1 = e.1 ∨
            ∀ hd ∈ p, IsHeader hd = true → ∀ m0, parseMessageLine P hd = some m0 → m0.msgId ≠ (parseMultiTrans P l).1)) →
      (∀ hd ∈ pre, IsHeader hd = true → ∀ m0, parseMessageLine P hd = some m0 → ∃ e ∈ acc, e.1 = m0.msgId) →
      ∀ e ∈ rest.foldl (txStep P) acc, ∀ n ∈ e.2,
        (∃ hd ∈ pre ++ rest, IsHeader hd = true ∧ ∃ m0, parseMessageLine P hd = some m0 ∧ m0.msgId = e.1 ∧ n ∈ m0.tranS) ∨
        ∃ p l q, pre ++ rest = p ++ l :: q ∧ IsTx P l = true ∧ n ∈ (parseMultiTrans P l).2 ∧
          ((parseMultiTrans P l).1 = e.1 ∨
            ∀ hd ∈ p, IsHeader hd = true → ∀ m0, parseMessageLine P hd = some m0 → m0.msgId ≠ (parseMultiTrans P l).1) := by
    intro rest
    induction rest with
    | nil => intro pre acc h1 h2; rw [List.append_nil]; exact h1
    | cons a rest ih =>
      intro pre acc h1 h2
      have e : pre ++ a :: rest = (pre ++ [a]) ++ rest := by simp
      rw [e, List.foldl_cons]
      have lift : ∀ (x : Nat) (n : Str),
          ((∃ hd ∈ pre, IsHeader hd = true ∧ ∃ m0, parseMessageLine P hd = some m0 ∧ m0.msgId = x ∧ n ∈ m0.tranS) ∨
          ∃ p l q, pre = p ++ l :: q ∧ IsTx P l = true ∧ n ∈ (parseMultiTrans P l).2 ∧
            ((parseMultiTrans P l).1 = x ∨
              ∀ hd ∈ p, IsHeader hd = true → ∀ m0, parseMessageLine P hd = some m0 → m0.msgId ≠ (parseMultiTrans P l).1)) →
          (∃ hd ∈ pre ++ [a], IsHeader hd = true ∧ ∃ m0, parseMessageLine P hd = some m0 ∧ m0.msgId = x ∧ n ∈ m0.tranS) ∨
          ∃ p l q, pre ++ [a] = p ++ l :: q ∧ IsTx P l = true ∧ n ∈ (parseMultiTrans P l).2 ∧
            ((parseMultiTrans P l).1 = x ∨
              ∀ hd ∈ p, IsHeader hd = true → ∀ m0, parseMessageLine P hd = some m0 → m0.msgId ≠ (parseMultiTrans P l).1) := by
        rintro x n (⟨hd, hm, r⟩ | ⟨p, l, q, rfl, r⟩)
        · exact Or.inl ⟨hd, by simp [hm], r⟩
        · exact Or.inr ⟨p, l, q ++ [a], by simp, r⟩
      have ids : ∀ x, (∃ e ∈ acc, e.1 = x) → ∃ e ∈ txStep P acc a, e.1 = x := by
        rintro x ⟨e, he, rfl⟩
        obtain ⟨i, hi⟩ := List.getElem?_of_mem he
        obtain ⟨t', h', -⟩ := txStep_mono P acc a (i := i) (id := e.1) (t := e.2) hi
        exact ⟨_, List.mem_of_getElem? h', rfl⟩
      apply ih
      · intro e he n hn
        unfold txStep at he
        split at he
        · rename_i hh
          rcases List.mem_append.mp he with he | he
          · exact lift _ _ (h1 e he n hn)
          · cases hp : parseMessageLine P a with
            | none => rw [hp] at he; cases he
            | some m0 =>
              rw [hp] at he
              simp only [Option.map_some, Option.toList_some, List.mem_singleton] at he
              subst he
              exact Or.inl ⟨a, by simp, hh, m0, hp, rfl, hn⟩
        · split at he
          · rename_i hh htx
            unfold updTx at he
            cases hf : acc.findIdx? (·.1 == (parseMultiTrans P a).1) with
            | some i =>
              rw [hf] at he
              dsimp only at he
              obtain ⟨j, hj⟩ := List.getElem?_of_mem he
              rw [List.getElem?_modify] at hj
              obtain ⟨e0, h0, rfl⟩ : ∃ e0, acc[j]? = some e0 ∧ (if i = j then (e0.1, (parseMultiTrans P a).2.foldl addName e0.2) else e0) = e := by
                cases hg : acc[j]? with
                | none => rw [hg] at hj; cases hj
                | some e0 =>
                  rw [hg] at hj
                  refine ⟨e0, rfl, ?_⟩
                  split at hj <;> simp_all
              split at hn
              · rename_i hij
                subst hij
                rw [if_pos rfl]
                rw [List.findIdx?_eq_some_iff_getElem] at hf
                obtain ⟨hi, hp, -⟩ := hf
                rw [List.getElem?_eq_getElem hi] at h0
                cases h0
                have hid : (acc[i]).1 = (parseMultiTrans P a).1 := by simpa using hp
                rcases mem_addNames.mp hn with hn | hn
                · exact lift _ _ (h1 _ (List.getElem_mem hi) n hn)
                · exact Or.inr ⟨pre, a, [], by simp, htx, hn, Or.inl hid.symm⟩
              · rename_i hij
                rw [if_neg hij]
                exact lift _ _ (h1 _ (List.mem_of_getElem? h0) n hn)
            | none =>
              rw [hf] at he
              dsimp only at he
              rw [List.findIdx?_eq_none_iff] at hf
              have hun : ∀ hd ∈ pre, IsHeader hd = true → ∀ m0, parseMessageLine P hd = some m0 →
                  m0.msgId ≠ (parseMultiTrans P a).1 := by
                intro hd hm hh m0 hp e
                obtain ⟨e1, he1, ee⟩ := h2 hd hm hh m0 hp
                have := hf e1 he1
                rw [ee, e] at this
                simp at this
              split at he
              · exact lift _ _ (h1 e he n hn)
              · obtain ⟨j, hj⟩ := List.getElem?_of_mem he
                rw [List.getElem?_modify] at hj
                cases hg : acc[j]? with
                | none => rw [hg] at hj; cases hj
                | some e0 =>
                  rw [hg] at hj
                  have h0 := h1 e0 (List.mem_of_getElem? hg)
                  split at hj
                  · simp only [Option.map_eq_map, Option.map_some, Option.some.injEq] at hj
                    subst hj
                    rcases mem_addNames.mp hn with hn | hn
                    · exact lift _ _ (h0 n hn)
                    · exact Or.inr ⟨pre, a, [], by simp, htx, hn, Or.inr hun⟩
                  · simp only [Option.map_eq_map, Option.map_some, Option.some.injEq] at hj
                    subst hj
                    exact lift _ _ (h0 n hn)
          · exact lift _ _ (h1 e he n hn)
      · intro hd hm hh m0 hp
        rcases List.mem_append.mp hm with hm | hm
        · exact ids _ (h2 hd hm hh m0 hp)
        · rw [List.mem_singleton.mp hm] at hh hp
          refine ⟨m0.tx, ?_, rfl⟩
          unfold txStep
          rw [if_pos hh, hp]
          simp
  have h3 := key (fileLines P text) [] [] (by simp) (by simp)
  rw [← trim_tx h, List.nil_append] at h3
  intro m hm n hn
  exact h3 m.tx (List.mem_map_of_mem hm) n hn

/-- **C31**, transmitters: the transmitter of an accepted header is never removed. -/
theorem C31_transmitters_kept (P : Platform) (text : Str) (out : DbcList) (h : trimDbcText P text = .ok out) :
    ∀ hd ∈ fileLines P text, IsHeader hd = true → ∀ m0, parseMessageLine P hd = some m0 →
      ∃ m ∈ out.msgs, m.msgId = m0.msgId ∧ ∀ n ∈ m0.tranS, n ∈ m.tranS := by
  intro hd hm hh m0 hp
  have ht := trim_tx h
  obtain ⟨p1, p2, e⟩ := List.append_of_mem hm
  rw [e, List.foldl_append, List.foldl_cons] at ht
  generalize p1.foldl (txStep P) [] = a1 at ht
  have hs : txStep P a1 hd = a1 ++ [m0.tx] := by
    unfold txStep
    rw [if_pos hh, hp]; rfl
  have hg : (txStep P a1 hd)[a1.length]? = some (m0.msgId, m0.tranS) := by
    rw [hs]; simp [Msg.tx]
  obtain ⟨t', h1, hpre⟩ := txFold_mono P p2 _ hg
  rw [← ht, List.getElem?_map, Option.map_eq_some_iff] at h1
  obtain ⟨m, hm, em⟩ := h1
  have em1 : m.msgId = m0.msgId := congrArg Prod.fst em
  have em2 : m.tranS = t' := congrArg Prod.snd em
  exact ⟨m, List.mem_of_getElem? hm, em1, fun n hn => by rw [em2]; exact hpre.subset hn⟩

/-- Two messages, a multi-transmitter line for the first (with the header's transmitter and a new one
twice), receivers that repeat. -/
def txText : Str := ("BO_ 100 Motor: 8 ECU\n SG_ B : 8|8@1+ (1,0) [0|255] \"\" Dash,Gate\n SG_ A : 0|8@1+ (1,0) [0|255] \"\" Gate,Dash\n" ++
  "BO_ 102 Gear: 2 ECU\n SG_ C : 0|4@1+ (1,0) [0|15] \"\" Dash\n" ++ "BO_TX_BU_ 100 : ECU,Diag,Diag;\n").toList

example : (match trimDbcText plat txText with
    | .ok out => some (out.msgs.map fun m => (m.msgId, m.tranS, m.recS))
    | _ => none) = some [(100, ["ECU".toList, "Diag".toList], ["Dash".toList, "Gate".toList]), (102, ["ECU".toList], ["Dash".toList])] := by
  decide +kernel

end Verif
