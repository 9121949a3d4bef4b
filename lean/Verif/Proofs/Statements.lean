import Verif.Proofs.Runs
import Verif.Spec.DbcStatements
import Verif.Props.ScanLists
import Verif.Props.Text
/-
What the line parser reads from statements in DBC syntax.
-/
namespace Verif
open Spec

/-! ### Multi-transmitter lines -/

/-- Words with the same separator, and a last one. -/
def withSep (sep last : Str) : List Str → List (Str × Str)
  | [] => []
  | [a] => [(a, last)]
  | a :: rest => (a, sep) :: withSep sep last rest

theorem withSep_join (last : Str) {l : List Str} (h : l ≠ []) : joinSep (withSep [','] last l) = commaList l ++ last := by
  induction l with
  | nil => exact absurd rfl h
  | cons a l ih =>
    cases l with
    | nil => simp [withSep, joinSep, commaList]
    | cons b l =>
      show (a ++ [',']) ++ joinSep (withSep [','] last (b :: l)) = (a ++ ',' :: commaList (b :: l)) ++ last
      rw [ih (by simp)]
      simp

theorem withSep_fst (sep last : Str) (l : List Str) : (withSep sep last l).map (·.1) = l := by
  induction l with
  | nil => rfl
  | cons a l ih =>
    cases l with
    | nil => rfl
    | cons b l => show a :: (withSep sep last (b :: l)).map (·.1) = _; rw [ih]

theorem withSep_ok {sep : Str} (last : Str) (hs : sep ≠ []) (l : List Str) : SepOk (withSep sep last l) := by
  induction l with
  | nil => trivial
  | cons a l ih =>
    cases l with
    | nil => trivial
    | cons b l =>
      have : ∃ p r, withSep sep last (b :: l) = p :: r := by
        cases l with
        | nil => exact ⟨_, _, rfl⟩
        | cons c l => exact ⟨_, _, rfl⟩
      obtain ⟨p, r, e⟩ := this
      show SepOk ((a, sep) :: withSep sep last (b :: l))
      rw [e] at ih ⊢
      exact ⟨hs, ih⟩

theorem withSep_mem {sep last : Str} {l : List Str} {e : Str × Str} (h : e ∈ withSep sep last l) :
    e.1 ∈ l ∧ (e.2 = sep ∨ e.2 = last) := by
  induction l with
  | nil => cases h
  | cons a l ih =>
    cases l with
    | nil =>
      rw [withSep, List.mem_singleton] at h
      subst h
      exact ⟨by simp, Or.inr rfl⟩
    | cons b l =>
      have h' : e ∈ (a, sep) :: withSep sep last (b :: l) := h
      rcases List.mem_cons.mp h' with rfl | h'
      · exact ⟨by simp, Or.inl rfl⟩
      · obtain ⟨x, y⟩ := ih h'
        exact ⟨List.mem_cons_of_mem _ x, y⟩

theorem word_isWord {s : Str} (h : IsWordStr s) : s ≠ [] ∧ ∀ c ∈ s, isWord c = true :=
  ⟨h.1, fun c hc => (isWord_iff c).mpr (h.2 c hc)⟩

theorem ident_isWord {s : Str} (h : IsIdent s) : s ≠ [] ∧ ∀ c ∈ s, isWord c = true := word_isWord (ident_word h)

theorem num_isWord (n : Nat) : decStr n ≠ [] ∧ ∀ c ∈ decStr n, isWord c = true := ⟨(decStr_spec n).1, decStr_word n⟩

theorem parse_txLine (P : Platform) (id : Nat) (nodes : List Str) (hid : id < 2 ^ 63) (hne : nodes ≠ [])
    (hn : ∀ n ∈ nodes, IsWordStr n) :
    parseMultiTrans P (txLine id nodes) = if id % 2 ^ 29 = 0 then (0, []) else (id % 2 ^ 29, nodes) := by
  have e : txLine id nodes =
      joinSep (("BO_TX_BU_".toList, " ".toList) :: (decStr id, " : ".toList) :: withSep [','] ";".toList nodes) := by
    unfold txLine
    show _ = ("BO_TX_BU_".toList ++ " ".toList) ++ ((decStr id ++ " : ".toList) ++ joinSep (withSep [','] ";".toList nodes))
    rw [withSep_join _ hne]
    simp only [List.append_assoc]
    rfl
  have hsep : SepOk (("BO_TX_BU_".toList, " ".toList) :: (decStr id, " : ".toList) :: withSep [','] ";".toList nodes) := by
    refine ⟨by decide, ?_⟩
    have h := withSep_ok (sep := [',']) ";".toList (by decide) nodes
    cases hw : withSep [','] ";".toList nodes with
    | nil => trivial
    | cons p r => rw [hw] at h; exact ⟨by dsimp only; decide, h⟩
  have hsplit : resplit mTrans (txLine id nodes) = "BO_TX_BU_".toList :: decStr id :: nodes := by
    rw [e]
    unfold mTrans
    rw [resplit_words _ (by simp) hsep]
    · rw [List.map_cons, List.map_cons, withSep_fst]
    · intro x hx
      rcases List.mem_cons.mp hx with rfl | hx
      · exact ⟨by decide, by decide, by decide⟩
      rcases List.mem_cons.mp hx with rfl | hx
      · exact ⟨(num_isWord id).1, fun c hc => by simp [(num_isWord id).2 c hc], by dsimp only; decide⟩
      · obtain ⟨h1, h2⟩ := withSep_mem hx
        obtain ⟨g1, g2⟩ := word_isWord (hn _ h1)
        refine ⟨g1, fun c hc => by simp [g2 c hc], ?_⟩
        rcases h2 with h2 | h2 <;> rw [h2] <;> decide
  unfold parseMultiTrans
  rw [hsplit]
  dsimp only
  rw [if_pos ⟨by
      have := List.length_pos_iff.mpr hne
      simp only [List.length_cons]; omega, rfl⟩]
  have h1 : ("BO_TX_BU_".toList :: decStr id :: nodes).getD 1 [] = decStr id := rfl
  rw [h1, atoll_decStr P hid, toU32_nat, clearMsgId_eq]
  have h29 : id % 2 ^ 32 % 2 ^ 29 = id % 2 ^ 29 := by omega
  rw [h29]
  by_cases hz : id % 2 ^ 29 = 0
  · rw [if_neg (by simpa using hz), if_pos hz]
  · rw [if_pos hz, if_neg hz]
    rfl

/-! ### Attributes -/

theorem finish_cycleLine (P : Platform) (id v : Nat) (hid : id < 2 ^ 63) (hv : v < 2 ^ 31) :
    finishAttr P (cycleLine id v) = some (id % 2 ^ 29, v) := by
  have hsplit : resplit mAttr (cycleLine id v) = ["BA_".toList, "GenMsgCycleTime".toList, "BO_".toList, decStr id, decStr v] := by
    have e : cycleLine id v = joinSep [("BA_".toList, " \"".toList), ("GenMsgCycleTime".toList, "\" ".toList),
        ("BO_".toList, " ".toList), (decStr id, " ".toList), (decStr v, ";".toList)] := by
      unfold cycleLine joinSep
      simp
    rw [e]
    unfold mAttr
    rw [resplit_words]
    · rfl
    · simp
    · exact ⟨by decide, by decide, by decide, by dsimp only; decide, trivial⟩
    · intro x hx
      simp only [List.mem_cons, List.not_mem_nil, or_false] at hx
      rcases hx with rfl | rfl | rfl | rfl | rfl
      · exact ⟨by decide, by decide, by decide⟩
      · exact ⟨by decide, by decide, by decide⟩
      · exact ⟨by decide, by decide, by decide⟩
      · exact ⟨(num_isWord id).1, fun c hc => by simp [(num_isWord id).2 c hc], by dsimp only; decide⟩
      · exact ⟨(num_isWord v).1, fun c hc => by simp [(num_isWord v).2 c hc], by dsimp only; decide⟩
  unfold finishAttr
  rw [hsplit]
  dsimp only
  rw [if_pos ⟨by simp, rfl, rfl⟩]
  have h1 : ["BA_".toList, "GenMsgCycleTime".toList, "BO_".toList, decStr id, decStr v].getD 3 [] = decStr id := rfl
  have h2 : ["BA_".toList, "GenMsgCycleTime".toList, "BO_".toList, decStr id, decStr v].getD 4 [] = decStr v := rfl
  rw [h1, h2, atoll_decStr P hid, atoi_decStr P hv, toU32_nat, toU32_nat, clearMsgId_eq]
  congr 2 <;> omega

/-! ### Comments -/

theorem finish_msgComment (P : Platform) (cm : Comment) (id : Nat) (t : Str) (hid : id < 2 ^ 63) (ht : '"' ∉ t) :
    finishComment P cm (msgComment id t) =
      ({ cm with msgId := id % 2 ^ 29, target := .message, text := dropLastLf t }, true) := by
  have hq : ∀ s : Str, (∀ c ∈ s, c ≠ '"') → ∀ c ∈ s, (c == '"') = false := by
    intro s h c hc; simp [h c hc]
  have hdq : ∀ c ∈ decStr id, c ≠ '"' := by
    intro c hc h; have := decStr_word id c hc; rw [h] at this; revert this; decide
  have hsplit : resplit mQuote (msgComment id t) = ["CM_ BO_ ".toList ++ decStr id ++ " ".toList, t, ";".toList] := by
    have e : msgComment id t = ("CM_ BO_ ".toList ++ decStr id ++ " ".toList) ++ '"' :: (t ++ '"' :: ";".toList) := by
      unfold msgComment; simp
    rw [e]
    unfold mQuote
    rw [resplit_one, restSplit_one (hq t (fun c hc h => ht (h ▸ hc))) (by decide), restSplit_one_last (by decide) (by decide)]
    · intro c hc
      rw [List.append_assoc] at hc
      rcases List.mem_append.mp hc with hc | hc
      · exact (by decide : ∀ c ∈ "CM_ BO_ ".toList, (c == '"') = false) c hc
      rcases List.mem_append.mp hc with hc | hc
      · exact hq _ hdq c hc
      · exact (by decide : ∀ c ∈ " ".toList, (c == '"') = false) c hc
    · decide
  have hmt : resplit mBlanks ("CM_ BO_ ".toList ++ decStr id ++ " ".toList) = ["CM_".toList, "BO_".toList, decStr id] := by
    have e : "CM_ BO_ ".toList ++ decStr id ++ " ".toList =
        joinSep [("CM_".toList, " ".toList), ("BO_".toList, " ".toList), (decStr id, " ".toList)] := by
      unfold joinSep; simp
    rw [e]
    unfold mBlanks
    rw [resplit_words]
    · rfl
    · simp
    · exact ⟨by decide, by decide, trivial⟩
    · intro x hx
      simp only [List.mem_cons, List.not_mem_nil, or_false] at hx
      rcases hx with rfl | rfl | rfl
      · exact ⟨by decide, by decide, by decide⟩
      · exact ⟨by decide, by decide, by decide⟩
      · refine ⟨(num_isWord id).1, fun c hc => ?_, by dsimp only; decide⟩
        have := decStr_word id c hc
        cases hb : c == ' ' with
        | false => rfl
        | true => rw [beq_iff_eq] at hb; rw [hb] at this; revert this; decide
  unfold finishComment
  rw [hsplit]
  dsimp only
  rw [if_pos (by rfl)]
  have h0 : ["CM_ BO_ ".toList ++ decStr id ++ " ".toList, t, ";".toList].getD 0 [] = "CM_ BO_ ".toList ++ decStr id ++ " ".toList := rfl
  rw [h0, hmt]
  rw [if_pos (by simp : 3 ≤ ["CM_".toList, "BO_".toList, decStr id].length)]
  rw [if_neg (by
    rintro ⟨h, -⟩
    have h' : "BO_".toList = "SG_".toList := h
    exact absurd h' (by decide)), if_pos (by rfl)]
  have h2 : ["CM_".toList, "BO_".toList, decStr id].getD 2 [] = decStr id := rfl
  rw [h2, atoll_decStr P hid, toU32_nat, clearMsgId_eq]
  have h29 : id % 2 ^ 32 % 2 ^ 29 = id % 2 ^ 29 := by omega
  rw [h29]
  rfl

theorem finish_sigComment (P : Platform) (cm : Comment) (id : Nat) (name t : Str) (hid : id < 2 ^ 63)
    (hn : IsWordStr name) (ht : '"' ∉ t) :
    finishComment P cm (sigCommentText id name t) =
      ({ msgId := id % 2 ^ 29, sigName := name, target := .signal, text := dropLastLf t }, true) := by
  have hq : ∀ s : Str, (∀ c ∈ s, c ≠ '"') → ∀ c ∈ s, (c == '"') = false := by
    intro s h c hc; simp [h c hc]
  have hwq : ∀ s : Str, (∀ c ∈ s, isWord c = true) → ∀ c ∈ s, (c == '"') = false := by
    intro s hs c hc
    cases hb : c == '"' with
    | false => rfl
    | true => have := hs c hc; rw [beq_iff_eq] at hb; rw [hb] at this; revert this; decide
  have hwb : ∀ s : Str, (∀ c ∈ s, isWord c = true) → ∀ c ∈ s, (c == ' ') = false := by
    intro s hs c hc
    cases hb : c == ' ' with
    | false => rfl
    | true => have := hs c hc; rw [beq_iff_eq] at hb; rw [hb] at this; revert this; decide
  have hnw := word_isWord hn
  generalize hA : "CM_ SG_ ".toList ++ decStr id ++ " ".toList ++ name ++ " ".toList = A
  have hsplit : resplit mQuote (sigCommentText id name t) = [A, t, ";".toList] := by
    have e : sigCommentText id name t = A ++ '"' :: (t ++ '"' :: ";".toList) := by
      rw [← hA]; unfold sigCommentText; simp
    rw [e]
    unfold mQuote
    rw [resplit_one, restSplit_one (hq t (fun c hc h => ht (h ▸ hc))) (by decide), restSplit_one_last (by decide) (by decide)]
    · intro c hc
      rw [← hA] at hc
      simp only [List.append_assoc] at hc
      rcases List.mem_append.mp hc with hc | hc
      · exact (by decide : ∀ c ∈ "CM_ SG_ ".toList, (c == '"') = false) c hc
      rcases List.mem_append.mp hc with hc | hc
      · exact hwq _ (decStr_word id) c hc
      rcases List.mem_append.mp hc with hc | hc
      · exact (by decide : ∀ c ∈ " ".toList, (c == '"') = false) c hc
      rcases List.mem_append.mp hc with hc | hc
      · exact hwq _ hnw.2 c hc
      · exact (by decide : ∀ c ∈ " ".toList, (c == '"') = false) c hc
    · decide
  have hmt : resplit mBlanks A = ["CM_".toList, "SG_".toList, decStr id, name] := by
    have e : A = joinSep [("CM_".toList, " ".toList), ("SG_".toList, " ".toList), (decStr id, " ".toList), (name, " ".toList)] := by
      rw [← hA]; unfold joinSep; simp
    rw [e]
    unfold mBlanks
    rw [resplit_words]
    · rfl
    · simp
    · exact ⟨by decide, by decide, by dsimp only; decide, trivial⟩
    · intro x hx
      simp only [List.mem_cons, List.not_mem_nil, or_false] at hx
      rcases hx with rfl | rfl | rfl | rfl
      · exact ⟨by decide, by decide, by decide⟩
      · exact ⟨by decide, by decide, by decide⟩
      · exact ⟨(num_isWord id).1, hwb _ (decStr_word id), by dsimp only; decide⟩
      · exact ⟨hnw.1, hwb _ hnw.2, by dsimp only; decide⟩
  unfold finishComment
  rw [hsplit]
  dsimp only
  rw [if_pos (by rfl)]
  have h0 : [A, t, ";".toList].getD 0 [] = A := rfl
  rw [h0, hmt]
  rw [if_pos (by simp : 3 ≤ ["CM_".toList, "SG_".toList, decStr id, name].length)]
  rw [if_pos (by exact ⟨rfl, rfl⟩)]
  have h2 : ["CM_".toList, "SG_".toList, decStr id, name].getD 2 [] = decStr id := rfl
  rw [h2, atoll_decStr P hid, toU32_nat, clearMsgId_eq]
  have h29 : id % 2 ^ 32 % 2 ^ 29 = id % 2 ^ 29 := by omega
  rw [h29]
  rfl

/-! ### Value tables -/

theorem intText_tok (z : Int) : intText z ≠ [] ∧ ∀ c ∈ intText z, tokChar c = true := by
  have hd := num_isWord z.natAbs
  have ht : ∀ c, isWord c = true → tokChar c = true := by
    intro c hc
    unfold tokChar
    have h1 : isWs c = false := valChar_not_ws (by simp [valChar, hc])
    have h2 : (c == '"') = false := by
      cases hb : c == '"' with
      | false => rfl
      | true => rw [beq_iff_eq] at hb; rw [hb] at hc; revert hc; decide
    rw [h1, h2]; rfl
  unfold intText
  refine ⟨by simp [hd.1], fun c hc => ?_⟩
  rcases List.mem_append.mp hc with hc | hc
  · split at hc
    · rw [List.mem_singleton.mp hc]; decide
    · cases hc
  · exact ht c (hd.2 c hc)

theorem tokens_entries (es : List (Int × Str)) (he : ∀ e ∈ es, '"' ∉ e.2) :
    tokens (es.flatMap valEntry ++ " ;".toList) =
      (es.flatMap fun e => [intText e.1, '"' :: e.2 ++ ['"']]) ++ [[';']] := by
  induction es with
  | nil => decide
  | cons e es ih =>
    have e1 : (e :: es).flatMap valEntry ++ " ;".toList =
        ' ' :: (intText e.1 ++ (' ' :: '"' :: (e.2 ++ '"' :: (es.flatMap valEntry ++ " ;".toList)))) := by
      rw [List.flatMap_cons]
      unfold valEntry
      simp
    rw [e1, tokens_ws (by decide), tokens_word (intText_tok _).1 (intText_tok _).2 (by
        intro c t h; cases h; decide), tokens_ws (by decide),
      tokens_quoted (fun c hc h => he e (by simp) (h ▸ hc)), ih (fun x hx => he x (List.mem_cons_of_mem _ hx))]
    simp

theorem valPairs_entries (es : List (Int × Str)) :
    valPairs (es.flatMap fun e => [intText e.1, '"' :: e.2 ++ ['"']]) = es.map fun e => (intText e.1, '"' :: e.2 ++ ['"']) := by
  induction es with
  | nil => rfl
  | cons e es ih =>
    rw [List.flatMap_cons, List.map_cons, ← ih]
    rfl

theorem intPrefix_intText (z : Int) : intPrefix (intText z) = z := by
  unfold intText
  by_cases hz : z < 0
  · rw [if_pos hz]
    have hdw : (['-'] ++ decStr z.natAbs).dropWhile isWs = '-' :: decStr z.natAbs := List.dropWhile_cons_of_neg (by decide)
    unfold intPrefix
    rw [hdw]
    show -(decVal ((decStr z.natAbs).takeWhile isDig) : Int) = z
    rw [(takeWhile_dec _).1, decVal_eq, (decStr_spec _).2.2.1]
    omega
  · rw [if_neg hz, List.nil_append, intPrefix_decStr]
    omega

theorem atoll_intText (P : Platform) {z : Int} (h : -(2 ^ 63) ≤ z ∧ z < 2 ^ 63) : atoll P (intText z) = z := by
  unfold atoll
  rw [intPrefix_intText, if_pos h]

theorem makeCName_quoted (d : Str) : makeCName ('"' :: d ++ ['"']) = makeCName d := by
  rw [C33_characterisation, C33_characterisation, List.cons_append, List.dropWhile_cons_of_pos (by decide)]
  induction d with
  | nil => decide
  | cons c d ih =>
    by_cases h : (fun c => !(decide (IsLetter c) || c == ' ')) c = true
    · rw [List.cons_append, List.dropWhile_cons_of_pos (p := fun c => !(decide (IsLetter c) || c == ' ')) h,
        List.dropWhile_cons_of_pos (p := fun c => !(decide (IsLetter c) || c == ' ')) h, ih]
    · rw [List.cons_append, List.dropWhile_cons_of_neg (p := fun c => !(decide (IsLetter c) || c == ' ')) h,
        List.dropWhile_cons_of_neg (p := fun c => !(decide (IsLetter c) || c == ' ')) h, ← List.cons_append,
        List.filterMap_append]
      have : ['"'].filterMap keepChar = [] := by decide
      rw [this, List.append_nil]

theorem finish_val (P : Platform) (id : Nat) (name : Str) (es : List (Int × Str)) (hid : id < 2 ^ 63)
    (hn : IsWordStr name) (he : ∀ e ∈ es, '"' ∉ e.2 ∧ -(2 ^ 63) ≤ e.1 ∧ e.1 < 2 ^ 63) :
    finishVal P (valText id name es) =
      some ({ msgId := id % 2 ^ 29, sigName := name, target := .signal, text := valListing es },
        { sigName := name, vpairs := es.map fun e => (makeCName e.2, (e.1 % 2 ^ 32).toNat) }) := by
  have htw : ∀ s : Str, (∀ c ∈ s, isWord c = true) → ∀ c ∈ s, tokChar c = true := by
    intro s hs c hc
    have h0 := hs c hc
    unfold tokChar
    have h1 : isWs c = false := valChar_not_ws (by simp [valChar, h0])
    have h2 : (c == '"') = false := by
      cases hb : c == '"' with
      | false => rfl
      | true => rw [beq_iff_eq] at hb; rw [hb] at h0; revert h0; decide
    rw [h1, h2]; rfl
  have hnw := word_isWord hn
  generalize hE : (es.flatMap fun e => [intText e.1, '"' :: e.2 ++ ['"']]) = E
  have htok : tokens (valText id name es) = "VAL_".toList :: decStr id :: name :: (E ++ [[';']]) := by
    have e1 : valText id name es = "VAL_".toList ++ (' ' :: (decStr id ++ (' ' :: (name ++ (es.flatMap valEntry ++ " ;".toList))))) := by
      unfold valText; simp
    rw [e1, tokens_word (by decide) (by decide) (by intro c t h; cases h; decide), tokens_ws (by decide),
      tokens_word (num_isWord id).1 (htw _ (num_isWord id).2) (by intro c t h; cases h; decide), tokens_ws (by decide),
      tokens_word hnw.1 (htw _ hnw.2), tokens_entries es (fun e h => (he e h).1), hE]
    intro c t h
    have : ∃ r, es.flatMap valEntry ++ " ;".toList = ' ' :: r := by
      cases es with
      | nil => exact ⟨_, rfl⟩
      | cons e es => exact ⟨_, by rw [List.flatMap_cons]; unfold valEntry; rfl⟩
    obtain ⟨r, hr⟩ := this
    rw [hr] at h
    cases h
    decide
  have hlen : E.length = 2 * es.length := by
    rw [← hE]
    clear hE htok he
    induction es with
    | nil => rfl
    | cons e es ih => rw [List.flatMap_cons, List.length_append, ih]; simp; omega
  unfold finishVal
  rw [htok]
  dsimp only
  rw [if_pos ⟨by simp, by
      show ("VAL_".toList :: decStr id :: name :: (E ++ [[';']])).getLast? = _
      rw [← List.cons_append, ← List.cons_append, ← List.cons_append, List.getLast?_append]; rfl, by
      simp only [List.length_cons, List.length_append, List.length_nil, hlen]; omega⟩]
  have h1 : ("VAL_".toList :: decStr id :: name :: (E ++ [[';']])).getD 1 [] = decStr id := rfl
  have h2 : ("VAL_".toList :: decStr id :: name :: (E ++ [[';']])).getD 2 [] = name := rfl
  have h3 : (("VAL_".toList :: decStr id :: name :: (E ++ [[';']])).drop 3).dropLast = E := by
    show (E ++ [[';']]).dropLast = E
    rw [List.dropLast_concat]
  rw [h1, h2, h3, atoll_decStr P hid, toU32_nat, clearMsgId_eq, ← hE, valPairs_entries]
  have h29 : id % 2 ^ 32 % 2 ^ 29 = id % 2 ^ 29 := by omega
  rw [h29]
  congr 2
  · congr 1
    unfold valListing
    rw [List.flatMap_map]
    congr 2
    funext e
    simp
  · congr 1
    rw [List.map_map]
    apply List.map_congr_left
    intro e hm
    rw [Function.comp]
    dsimp only
    rw [makeCName_quoted, atoll_intText P (he e hm).2]
    rfl

end Verif
