import Verif.Proofs.DirUtil
/-
The util files of a node: types, declarations, linking with the files of the driver.
-/
namespace Verif
open Spec

variable {g : GenDesc} {fl : ConfEdit} {mono : Bool} {msgs rx tx : List Msg} {cfg : Cfg} {K : Look} {u : UtilDesc} {D : Defs} {t : CTree} {ls : List (List Spec.Item)} {flag : Flag → Bool}

/-! ### Names -/

/-- The names that are made of the name of the util files. -/
def ownNames (u : UtilDesc) : List Str := [rxType u, txType u, utilName u "_rx", utilName u "_tx", recvName u]

/-- The name of the util files has no capital letter. -/
def NameLow (u : UtilDesc) : Prop := ∃ w, u.name = strLower w ∧ 1 ≤ w.length

theorem lower_char {s : Str} {c : Char} (h : c ∈ strLower s) (hc : c ∈ ['U', 'P', 'F']) : False := by
  obtain ⟨d, -, e⟩ := List.mem_map.1 h
  have key : ∀ n : Fin 128, lowerChar (Char.ofNat n) ∉ ['U', 'P', 'F'] := by decide +kernel
  by_cases hd : d.toNat < 128
  · refine key ⟨d.toNat, hd⟩ ?_
    rw [Char.ofNat_toNat]
    exact e ▸ hc
  · unfold lowerChar at e
    split at e
    · rename_i h
      have : d.toNat ≤ 90 := h.2
      omega
    · subst e
      have : ∀ x ∈ ['U', 'P', 'F'], x.toNat < 128 := by decide
      exact hd (this _ hc)

theorem own_form {n : Str} (hn : n ∈ ownNames u) : ∃ s : String, n = u.name ++ s.toList ∧ s.toList.getLast? ≠ some '_' ∧ s.toList ≠ [] := by
  unfold ownNames rxType txType recvName utilName at hn
  simp only [List.mem_cons, List.not_mem_nil, or_false] at hn
  rcases hn with rfl | rfl | rfl | rfl | rfl
  · exact ⟨"_rx_t", rfl, by decide, by decide⟩
  · exact ⟨"_tx_t", rfl, by decide, by decide⟩
  · exact ⟨"_rx", rfl, by decide, by decide⟩
  · exact ⟨"_tx", rfl, by decide, by decide⟩
  · exact ⟨"_Receive", rfl, by decide, by decide⟩

theorem own_take (hu : NameLow u) {n : Str} (hn : n ∈ ownNames u) {c d : Char} (h : n.take 2 = [c, d]) (hc : c ∈ ['U', 'P', 'F'] ∨ d ∈ ['U', 'P', 'F']) : False := by
  obtain ⟨w, e, hl⟩ := hu
  have hs : ∃ s : Str, n = u.name ++ '_' :: s := by
    unfold ownNames rxType txType recvName utilName at hn
    simp only [List.mem_cons, List.not_mem_nil, or_false] at hn
    rcases hn with rfl | rfl | rfl | rfl | rfl <;> exact ⟨_, rfl⟩
  obtain ⟨s, rfl⟩ := hs
  rw [e] at h
  cases hw : strLower w with
  | nil =>
    have := strLower_length w
    rw [hw] at this
    have : 0 = w.length := this
    omega
  | cons a r =>
    rw [hw] at h
    have hin : ∀ x ∈ a :: r, x ∈ strLower w := fun x hx => hw ▸ hx
    cases r with
    | nil =>
      have h : [a, '_'] = [c, d] := h
      injection h with h1 h2
      injection h2 with h2 _
      subst h1 h2
      exact hc.elim (lower_char (hin _ List.mem_cons_self)) (by decide)
    | cons b r =>
      have h : [a, b] = [c, d] := h
      injection h with h1 h2
      injection h2 with h2 _
      subst h1 h2
      exact hc.elim (lower_char (hin _ List.mem_cons_self)) (lower_char (hin _ (List.mem_cons_of_mem _ List.mem_cons_self)))

/-- No function of the driver has such a name. -/
theorem own_sig (hu : NameLow u) {n : Str} (hn : n ∈ ownNames u) {frame mon : Bool} {x : Str × Str × List (Str × Bool)} (hx : SigOf g frame mon mono msgs x) : x.1 ≠ n := by
  intro e
  cases hx with
  | unpack m hm hne =>
    have : n.take 2 = ['U', 'n'] := by rw [← e]; rfl
    exact own_take hu hn this (.inl (by decide))
  | pack m hm hne =>
    have : n.take 2 = ['P', 'a'] := by rw [← e]; rfl
    exact own_take hu hn this (.inl (by decide))
  | fmon k hk _ =>
    have : n.take 2 = ['_', 'F'] := by rw [← e]; exact fmonNames_head hk
    exact own_take hu hn this (.inr (by decide))
  | ext =>
    obtain ⟨s, rfl, h1, h2⟩ := own_form hn
    have e : "__ext_sig__".toList = u.name ++ s.toList := e
    have := congrArg List.getLast? e
    rw [List.getLast?_append] at this
    cases q : s.toList.getLast? with
    | none => exact h2 (List.getLast?_eq_none_iff.1 q)
    | some c =>
      rw [q] at this
      have : some '_' = some c := this
      exact h1 (q.trans this.symm)

/-! ### The declarations -/

/-- The receive function for other units. -/
def recvSig (u : UtilDesc) : Str × Str × List (Str × Bool) := (recvName u, "uint32_t".toList, paramTys (recvParams (rxType u) "_m" "_d" "_id" "dlc_"))

/-- What the util source file contains. -/
inductive UtilMem (u : UtilDesc) (D : Defs) (rx tx : List Msg) (t : CTree) : Spec.Item → Prop where
  | rxs (h : 0 < rx.length) : UtilMem u D rx tx t (.struct (rxType u) (mapMembers rx))
  | txs (h : 0 < tx.length) : UtilMem u D rx tx t (.struct (txType u) (mapMembers tx))
  | proto (h : 0 < rx.length) : UtilMem u D rx tx t (.proto "uint32_t".toList (recvName u) (recvParams (rxType u) "m" "d" "msgid" "dlc"))
  | rxv (h : 0 < rx.length) (hd : (D.lookup (defName u)).isSome = true) (ext : Bool) : UtilMem u D rx tx t (.var ext (rxType u) (utilName u "_rx"))
  | txv (h : 0 < tx.length) (hd : (D.lookup (defName u)).isSome = true) (ext : Bool) : UtilMem u D rx tx t (.var ext (txType u) (utilName u "_tx"))
  | func (h : 0 < rx.length) : UtilMem u D rx tx t (.func (recvFunc u t))

theorem vars_mem {ext : Bool} {i : Spec.Item} (hd : (D.lookup (defName u)).isSome = true) (h : i ∈ utilVars u ext rx tx) : UtilMem u D rx tx t i := by
  unfold utilVars at h
  rcases List.mem_append.1 h with h | h <;> split at h
  · rw [List.mem_singleton.1 h]; exact .rxv (by assumption) hd ext
  · cases h
  · rw [List.mem_singleton.1 h]; exact .txv (by assumption) hd ext
  · cases h

theorem utilHeader_mem {i : Spec.Item} (h : i ∈ utilHeaderItems u D rx tx) : UtilMem u D rx tx t i := by
  unfold utilHeaderItems utilDecls at h
  rcases List.mem_append.1 h with h | h
  · rcases List.mem_append.1 h with h | h
    · rcases List.mem_append.1 h with h | h <;> split at h
      · cases h
      · rw [List.mem_singleton.1 h]; exact .rxs (by omega)
      · cases h
      · rw [List.mem_singleton.1 h]; exact .txs (by omega)
    · split at h
      · rw [List.mem_singleton.1 h]; exact .proto (by assumption)
      · cases h
  · split at h
    · rename_i hd; exact vars_mem hd h
    · cases h

theorem util_mem {his : List Spec.Item} {i : Spec.Item} (h : i ∈ utilItems u D his rx tx t) : i ∈ his ∨ UtilMem u D rx tx t i := by
  unfold utilItems at h
  rcases List.mem_append.1 h with h | h
  · rcases List.mem_append.1 h with h | h
    · rcases List.mem_append.1 h with h | h
      · exact .inl h
      · exact .inr (utilHeader_mem h)
    · split at h
      · rename_i hd; exact .inr (vars_mem hd h)
      · cases h
  · split at h
    · rw [List.mem_singleton.1 h]; exact .inr (.func (by assumption))
    · cases h

/-- The converse, for what is defined. -/
theorem util_func {his : List Spec.Item} (h : 0 < rx.length) : .func (recvFunc u t) ∈ utilItems u D his rx tx t := by
  unfold utilItems
  rw [if_pos (c := rx.length > 0) h]
  exact List.mem_append_right _ (List.mem_singleton.2 rfl)

theorem util_rx {his : List Spec.Item} (h : 0 < rx.length) (hd : (D.lookup (defName u)).isSome = true) : .var false (rxType u) (utilName u "_rx") ∈ utilItems u D his rx tx t := by
  unfold utilItems utilVars
  rw [hd, if_pos rfl, if_pos (c := rx.length > 0) (t := [Spec.Item.var false (rxType u) (utilName u "_rx")]) h]
  exact List.mem_append_left _ (List.mem_append_right _ (List.mem_append_left _ (List.mem_singleton.2 rfl)))

theorem util_tx {his : List Spec.Item} (h : 0 < tx.length) (hd : (D.lookup (defName u)).isSome = true) : .var false (txType u) (utilName u "_tx") ∈ utilItems u D his rx tx t := by
  unfold utilItems utilVars
  rw [hd, if_pos rfl, if_pos (c := tx.length > 0) (t := [Spec.Item.var false (txType u) (utilName u "_tx")]) h]
  exact List.mem_append_left _ (List.mem_append_right _ (List.mem_append_right _ (List.mem_singleton.2 rfl)))

theorem utilMem_own {i : Spec.Item} (h : UtilMem u D rx tx t i) : ∀ n ∈ i.defines, n ∈ ownNames u := by
  intro n hn
  cases h with
  | rxs h => rw [List.mem_singleton.1 hn]; simp [ownNames]
  | txs h => rw [List.mem_singleton.1 hn]; simp [ownNames]
  | proto h => cases hn
  | rxv h hd ext =>
    cases ext with
    | true => cases hn
    | false => rw [List.mem_singleton.1 hn]; simp [ownNames]
  | txv h hd ext =>
    cases ext with
    | true => cases hn
    | false => rw [List.mem_singleton.1 hn]; simp [ownNames]
  | func h =>
    have hn : n ∈ [recvName u] := hn
    rw [List.mem_singleton.1 hn]; simp [ownNames]

theorem utilMem_sig {i : Spec.Item} (h : UtilMem u D rx tx t i) : (i.sig = none ∧ ∀ n ∈ i.defines, n ∈ [rxType u, txType u, utilName u "_rx", utilName u "_tx"]) ∨ 0 < rx.length ∧ i.sig = some (recvSig u) := by
  cases h with
  | rxs h => exact .inl ⟨rfl, fun n hn => by rw [List.mem_singleton.1 hn]; simp⟩
  | txs h => exact .inl ⟨rfl, fun n hn => by rw [List.mem_singleton.1 hn]; simp⟩
  | proto h => exact .inr ⟨h, rfl⟩
  | rxv h hd ext =>
    refine .inl ⟨rfl, fun n hn => ?_⟩
    cases ext with
    | true => cases hn
    | false => rw [List.mem_singleton.1 hn]; simp
  | txv h hd ext =>
    refine .inl ⟨rfl, fun n hn => ?_⟩
    cases ext with
    | true => cases hn
    | false => rw [List.mem_singleton.1 hn]; simp
  | func h => exact .inr ⟨h, rfl⟩

theorem recv_own {n : Str} (h : n ∈ [rxType u, txType u, utilName u "_rx", utilName u "_tx"]) : n ≠ recvName u := by
  intro e
  subst e
  unfold rxType txType recvName utilName at h
  simp only [List.mem_cons, List.not_mem_nil, or_false] at h
  rcases h with h | h | h | h <;> exact absurd (List.append_cancel_left h) (by decide)

/-- Names of the types of the headers of the driver. -/
theorem header_sigs {i : Spec.Item} (hi : i ∈ confItems fl (cfg.flag .useMon) ++ headerItems g cfg.flag msgs) :
    (i.sig = none ∧ ∀ n ∈ i.defines, n ∈ (confItems fl (cfg.flag .useMon)).flatMap Item.defines ∨ n ∈ (msgs.filter (·.frameNotEmpty)).map typeName) ∨
      ∃ x, i.sig = some x ∧ SigOf g (cfg.flag .useCanStruct) (cfg.flag .useMon) mono msgs x := by
  rcases List.mem_append.1 hi with hi | hi
  · exact .inl ⟨conf_sig i hi, fun n hn => .inl (List.mem_flatMap.2 ⟨i, hi, hn⟩)⟩
  unfold headerItems at hi
  rcases List.mem_append.1 hi with hi | hi
  · obtain ⟨m, hm, hi⟩ := List.mem_flatMap.1 hi
    unfold structItems at hi
    cases hne : m.frameNotEmpty with
    | false => rw [hne, if_neg Bool.false_ne_true] at hi; cases hi
    | true =>
      rw [hne, if_pos rfl] at hi
      rw [List.mem_singleton.1 hi]
      refine .inl ⟨rfl, fun n hn => .inr ?_⟩
      rw [List.mem_singleton.1 hn]
      exact List.mem_map.2 ⟨m, List.mem_filter.2 ⟨hm, hne⟩, rfl⟩
  · obtain ⟨m, hm, hi⟩ := List.mem_flatMap.1 hi
    unfold protoItems at hi
    cases hne : m.frameNotEmpty with
    | false => rw [hne, if_neg Bool.false_ne_true] at hi; cases hi
    | true =>
      rw [hne, if_pos rfl] at hi
      rcases List.mem_cons.1 hi with rfl | hi
      · exact .inr ⟨_, rfl, .unpack m hm hne⟩
      · rw [List.mem_singleton.1 hi]
        exact .inr ⟨_, rfl, .pack m hm hne⟩

theorem util_allDefines (u : UtilDesc) (D : Defs) (t : CTree) (p : List Spec.Item) :
    (utilItems u D (p ++ headerItems g flag msgs) rx tx t).flatMap Item.defines = p.flatMap Item.defines ++ utilNames u D msgs rx tx := by
  rw [← util_defines (g := g) (flag := flag) u D t, ← List.flatMap_append]
  unfold utilItems
  simp only [List.append_assoc]

theorem recv_mem (h : 0 < rx.length) : recvName u ∈ utilNames u D msgs rx tx := by
  unfold utilNames
  rw [if_pos (c := rx.length > 0) (t := [recvName u]) h]
  exact List.mem_append_right _ (List.mem_singleton.2 rfl)

theorem types_mem {n : Str} (h : n ∈ (msgs.filter (·.frameNotEmpty)).map typeName) : n ∈ utilNames u D msgs rx tx := by
  unfold utilNames
  exact List.mem_append_left _ (List.mem_append_left _ (List.mem_append_left _ h))

/-- Declarations and definitions agree. -/
theorem util_agree (hu : NameLow u) (hn : ((confItems fl (cfg.flag .useMon)).flatMap Item.defines ++ definedNames g msgs).Nodup)
    (hf : cfg.flag .useMon = true → ∀ n ∈ fmonNames g mono msgs, n ∉ (msgs.filter (·.frameNotEmpty)).map typeName)
    (hd : ((confItems fl (cfg.flag .useMon)).flatMap Item.defines ++ utilNames u D msgs rx tx).Nodup) :
    declsAgree (utilItems u D (confItems fl (cfg.flag .useMon) ++ headerItems g cfg.flag msgs) rx tx t) = true := by
  have hfree : 0 < rx.length → ¬ (recvName u ∈ (confItems fl (cfg.flag .useMon)).flatMap Item.defines ∨ recvName u ∈ (msgs.filter (·.frameNotEmpty)).map typeName) := by
    rintro q (h | h)
    · exact (List.nodup_append.1 hd).2.2 _ h _ (recv_mem q) rfl
    · have hd := (List.nodup_append.1 hd).2.1
      unfold utilNames at hd
      rw [if_pos (c := rx.length > 0) (t := [recvName u]) q] at hd
      exact (List.nodup_append.1 hd).2.2 _ (List.mem_append_left _ (List.mem_append_left _ h)) _ (List.mem_singleton.2 rfl) rfl
  have key : ∀ {i}, i ∈ utilItems u D (confItems fl (cfg.flag .useMon) ++ headerItems g cfg.flag msgs) rx tx t →
      (i.sig = none ∧ ∀ n ∈ i.defines, (n ∈ (confItems fl (cfg.flag .useMon)).flatMap Item.defines ∨ n ∈ (msgs.filter (·.frameNotEmpty)).map typeName) ∨ n ∈ [rxType u, txType u, utilName u "_rx", utilName u "_tx"]) ∨
      ∃ x, i.sig = some x ∧ (SigOf g (cfg.flag .useCanStruct) (cfg.flag .useMon) mono msgs x ∨ 0 < rx.length ∧ x = recvSig u) := by
    intro i hi
    rcases util_mem hi with hi | hi
    · rcases header_sigs (mono := mono) hi with ⟨h1, h2⟩ | ⟨x, h1, h2⟩
      · exact .inl ⟨h1, fun n hn => .inl (h2 n hn)⟩
      · exact .inr ⟨x, h1, .inl h2⟩
    · rcases utilMem_sig hi with ⟨h1, h2⟩ | ⟨h1, h2⟩
      · exact .inl ⟨h1, fun n hn => .inr (h2 n hn)⟩
      · exact .inr ⟨_, h2, .inr ⟨h1, rfl⟩⟩
  have hr : recvName u ∈ ownNames u := by simp [ownNames]
  unfold declsAgree
  rw [List.all_eq_true]
  intro a ha
  rw [List.all_eq_true]
  intro b hb
  rcases key ha with ⟨ea, -⟩ | ⟨x, ea, hx⟩
  · rw [ea]
  · rw [ea]
    rcases key hb with ⟨eb, hb⟩ | ⟨y, eb, hy⟩
    · rw [eb]
      dsimp only
      rw [Bool.not_eq_true', ← Bool.not_eq_true, List.contains_iff_mem]
      intro q
      rcases hx with hx | ⟨h0, rfl⟩
      · rcases hb _ q with q | q
        · exact hx.free hn hf q
        · refine own_sig hu ?_ hx rfl
          have : ownNames u = [rxType u, txType u, utilName u "_rx", utilName u "_tx"] ++ [recvName u] := rfl
          rw [this]
          exact List.mem_append_left _ q
      · rcases hb _ q with q | q
        · exact hfree h0 q
        · exact recv_own q rfl
    · rw [eb]
      dsimp only
      refine decide_eq_true fun e => ?_
      rcases hx with hx | ⟨h0, rfl⟩ <;> rcases hy with hy | ⟨h1, rfl⟩
      · exact hx.agree hy e
      · exact absurd e (own_sig hu hr hx)
      · exact absurd e.symm (own_sig hu hr hy)
      · rfl

/-! ### Types -/

theorem util_types (h : ∀ p ∈ msgs.zip ls, IsFuncs g cfg K p.1 p.2) (hk : K.frame = cfg.flag .useCanStruct) (hl : ls.length = msgs.length)
    (hc : cfg.flag .useCanStruct = true → fl.data.isSome = true) (hs : fl.flt = true ∨ ∀ m ∈ msgs, m.frameNotEmpty = true → floatDecls cfg m = []) (hm : ∀ m ∈ rx ++ tx, m ∈ msgs ∧ m.frameNotEmpty = true) :
    typesKnown baseTypes (utilItems u D (confItems fl (cfg.flag .useMon) ++ headerItems g cfg.flag msgs) rx tx t) = true := by
  have h0 := unit_types (mono := false) h hk hl hc hs
  unfold unitItems at h0
  rw [List.append_assoc, ← List.append_assoc, typesKnown_app, Bool.and_eq_true] at h0
  have h0 := h0.1
  have hty : ∀ m ∈ rx ++ tx, typeName m ∈ typesAfter baseTypes (confItems fl (cfg.flag .useMon) ++ headerItems g cfg.flag msgs) := by
    intro m hx
    refine (typesAfter_mem _ _).2 (.inr (List.mem_flatMap.2 ⟨.struct (typeName m) (structMembers cfg.flag m), List.mem_append_right _ (List.mem_append_left _ (List.mem_flatMap.2 ⟨m, (hm m hx).1, ?_⟩)), List.mem_cons_self⟩))
    unfold structItems
    rw [(hm m hx).2, if_pos rfl]
    exact List.mem_cons_self
  have hb : ∀ t ∈ baseTypes, t ∈ typesAfter baseTypes (confItems fl (cfg.flag .useMon) ++ headerItems g cfg.flag msgs) := fun t ht => (typesAfter_mem _ _).2 (.inl ht)
  have e : utilItems u D (confItems fl (cfg.flag .useMon) ++ headerItems g cfg.flag msgs) rx tx t = (confItems fl (cfg.flag .useMon) ++ headerItems g cfg.flag msgs) ++
      (((if rx.length = 0 then [] else [.struct (rxType u) (mapMembers rx)]) ++ (if tx.length = 0 then [] else [.struct (txType u) (mapMembers tx)])) ++
       ((if rx.length > 0 then [.proto "uint32_t".toList (recvName u) (recvParams (rxType u) "m" "d" "msgid" "dlc")] else []) ++
        ((if (D.lookup (defName u)).isSome then utilVars u true rx tx else []) ++ ((if (D.lookup (defName u)).isSome then utilVars u false rx tx else []) ++
          (if rx.length > 0 then [.func (recvFunc u t)] else []))))) := by
    unfold utilItems utilHeaderItems utilDecls
    simp only [List.append_assoc]
  rw [e, typesKnown_app, Bool.and_eq_true]
  refine ⟨h0, ?_⟩
  revert hty hb
  generalize typesAfter baseTypes (confItems fl (cfg.flag .useMon) ++ headerItems g cfg.flag msgs) = ns
  intro hty hb
  have hmem : ∀ (l : List Msg) (n : Str), ∀ t ∈ (Spec.Item.struct n (mapMembers l)).needs, ∃ m ∈ l, t = typeName m := by
    intro l n t ht
    obtain ⟨p, hp, ht⟩ := List.mem_flatMap.1 ht
    obtain ⟨m, hx, rfl⟩ := List.mem_map.1 hp
    exact ⟨m, hx, List.mem_singleton.1 ht⟩
  rw [typesKnown_app, Bool.and_eq_true]
  constructor
  · refine typesKnown_all fun i hi t ht => ?_
    rcases List.mem_append.1 hi with hi | hi <;> split at hi
    · cases hi
    · rw [List.mem_singleton.1 hi] at ht
      obtain ⟨m, hx, rfl⟩ := hmem _ _ t ht
      exact hty m (List.mem_append_left _ hx)
    · cases hi
    · rw [List.mem_singleton.1 hi] at ht
      obtain ⟨m, hx, rfl⟩ := hmem _ _ t ht
      exact hty m (List.mem_append_right _ hx)
  · have hr : 0 < rx.length → rxType u ∈ typesAfter ns ((if rx.length = 0 then [] else [.struct (rxType u) (mapMembers rx)]) ++ (if tx.length = 0 then [] else [.struct (txType u) (mapMembers tx)])) := by
      intro q
      rw [if_neg (by omega : ¬ rx.length = 0)]
      exact (typesAfter_mem _ _).2 (.inr (List.mem_cons_self))
    have ht : 0 < tx.length → txType u ∈ typesAfter ns ((if rx.length = 0 then [] else [.struct (rxType u) (mapMembers rx)]) ++ (if tx.length = 0 then [] else [.struct (txType u) (mapMembers tx)])) := by
      intro q
      rw [if_neg (by omega : ¬ tx.length = 0)]
      refine (typesAfter_mem _ _).2 (.inr ?_)
      rw [List.flatMap_append]
      exact List.mem_append_right _ List.mem_cons_self
    have hb2 : ∀ t ∈ baseTypes, t ∈ typesAfter ns ((if rx.length = 0 then [] else [.struct (rxType u) (mapMembers rx)]) ++ (if tx.length = 0 then [] else [.struct (txType u) (mapMembers tx)])) :=
      fun t q => (typesAfter_mem _ _).2 (.inl (hb t q))
    revert hr ht hb2
    generalize typesAfter ns ((if rx.length = 0 then [] else [Spec.Item.struct (rxType u) (mapMembers rx)]) ++ (if tx.length = 0 then [] else [.struct (txType u) (mapMembers tx)])) = ns2
    intro hr ht hb2
    have hsig : 0 < rx.length → ∀ t ∈ ["uint32_t".toList, rxType u, "uint8_t".toList, "uint32_t".toList, "uint8_t".toList], t ∈ ns2 := by
      intro q t h
      simp only [List.mem_cons, List.not_mem_nil, or_false] at h
      rcases h with rfl | rfl | rfl | rfl | rfl
      · exact hb2 _ (by decide)
      · exact hr q
      · exact hb2 _ (by decide)
      · exact hb2 _ (by decide)
      · exact hb2 _ (by decide)
    have hv : ∀ ext, ∀ i ∈ utilVars u ext rx tx, ∀ t ∈ i.needs, t ∈ ns2 := by
      intro ext i hi t ht'
      unfold utilVars at hi
      rcases List.mem_append.1 hi with hi | hi <;> split at hi
      · rw [List.mem_singleton.1 hi] at ht'
        rw [List.mem_singleton.1 ht']
        exact hr (by assumption)
      · cases hi
      · rw [List.mem_singleton.1 hi] at ht'
        rw [List.mem_singleton.1 ht']
        exact ht (by assumption)
      · cases hi
    refine typesKnown_all fun i hi t ht' => ?_
    rcases List.mem_append.1 hi with hi | hi
    · split at hi
      · rw [List.mem_singleton.1 hi] at ht'
        exact hsig (by assumption) t ht'
      · cases hi
    · rcases List.mem_append.1 hi with hi | hi
      · split at hi
        · exact hv _ i hi t ht'
        · cases hi
      · rcases List.mem_append.1 hi with hi | hi
        · split at hi
          · exact hv _ i hi t ht'
          · cases hi
        · split at hi
          · rw [List.mem_singleton.1 hi] at ht'
            exact hsig (by assumption) t ht'
          · cases hi

/-! ### Linking -/

/-- One more unit. -/
theorem links_add {us : List (List Spec.Item)} {is : List Spec.Item} (h : links us = true) (hn : ((is.filterMap Item.gives).map (·.1)).Nodup)
    (hd : ∀ i ∈ us.flatten, ∀ s, i.gives = some s → ∀ j ∈ is, ∀ r, j.gives = some r → s.1 ≠ r.1)
    (hw : ∀ i ∈ is, ∀ s, i.wants = some s → (∃ j ∈ us.flatten, j.wants = some s) ∨ ∃ j ∈ is, j.gives = some s) : links (us ++ [is]) = true := by
  unfold links at h ⊢
  rw [Bool.and_eq_true] at h ⊢
  have e : (us ++ [is]).flatten = us.flatten ++ is := by simp
  rw [e]
  obtain ⟨h1, h2⟩ := h
  have h1 := of_decide_eq_true h1
  rw [List.all_eq_true] at h2
  have up : ∀ s, (∃ j ∈ us.flatten, j.wants = some s) → s ∈ (us.flatten ++ is).filterMap Item.gives := by
    rintro s ⟨j, hj, q⟩
    have := h2 s (List.mem_filterMap.2 ⟨j, hj, q⟩)
    rw [List.contains_iff_mem] at this
    rw [List.filterMap_append]
    exact List.mem_append_left _ this
  constructor
  · apply decide_eq_true
    rw [List.filterMap_append, List.map_append, List.nodup_append]
    refine ⟨h1, hn, ?_⟩
    intro a ha b hb
    obtain ⟨s, hs, rfl⟩ := List.mem_map.1 ha
    obtain ⟨r, hr, rfl⟩ := List.mem_map.1 hb
    obtain ⟨i, hi, e1⟩ := List.mem_filterMap.1 hs
    obtain ⟨j, hj, e2⟩ := List.mem_filterMap.1 hr
    exact hd i hi s e1 j hj r e2
  · rw [List.all_eq_true]
    intro s hs
    rw [List.contains_iff_mem]
    obtain ⟨i, hi, q⟩ := List.mem_filterMap.1 hs
    rcases List.mem_append.1 hi with hi | hi
    · exact up s ⟨i, hi, q⟩
    · rcases hw i hi s q with hw | ⟨j, hj, q⟩
      · exact up s hw
      · rw [List.filterMap_append]
        exact List.mem_append_right _ (List.mem_filterMap.2 ⟨j, hj, q⟩)

theorem gives_sig {i : Spec.Item} {s : Sym} (h : i.gives = some s) {x : Str × Str × List (Str × Bool)} (hx : i.sig = some x) : s.1 = x.1 := by
  cases i with
  | func f => cases h; cases hx; rfl
  | proto a b c => cases h
  | _ => cases hx

theorem gives_own {i : Spec.Item} (hi : i ∈ utilItems u D (confItems fl (cfg.flag .useMon) ++ headerItems g cfg.flag msgs) rx tx t) {s : Sym} (h : i.gives = some s) :
    s.1 ∈ ownNames u ∧ s.1 ∈ (utilItems u D [] rx tx t).flatMap Item.defines := by
  rcases util_mem hi with hi | hm
  · exfalso
    rcases List.mem_append.1 hi with hi | hi
    · have : ∀ fl mon, ∀ i ∈ confItems fl mon, i.gives = none := by decide
      rw [this _ _ i hi] at h
      cases h
    · unfold headerItems at hi
      rcases List.mem_append.1 hi with hi | hi <;> obtain ⟨m, -, hi⟩ := List.mem_flatMap.1 hi
      · unfold structItems at hi
        split at hi
        · rw [List.mem_singleton.1 hi] at h; cases h
        · cases hi
      · unfold protoItems at hi
        split at hi
        · rcases List.mem_cons.1 hi with rfl | hi
          · cases h
          · rw [List.mem_singleton.1 hi] at h; cases h
        · cases hi
  · refine ⟨utilMem_own hm _ (gives_name h), ?_⟩
    refine List.mem_flatMap.2 ⟨i, ?_, gives_name h⟩
    cases hm with
    | rxs h' => cases h
    | txs h' => cases h
    | proto h' => cases h
    | rxv h' hd ext =>
      cases ext with
      | true => cases h
      | false => exact util_rx h' hd
    | txv h' hd ext =>
      cases ext with
      | true => cases h
      | false => exact util_tx h' hd
    | func h' => exact util_func h'

theorem util_split (u : UtilDesc) (D : Defs) (rx tx : List Msg) (t : CTree) (his : List Spec.Item) : utilItems u D his rx tx t = his ++ utilItems u D [] rx tx t := by
  unfold utilItems
  simp only [List.append_assoc, List.nil_append]

/-- The units of the driver and of the util files link. -/
theorem util_links (hu : NameLow u) (h : ∀ p ∈ msgs.zip ls, IsFuncs g cfg K p.1 p.2) (hl : ls.length = msgs.length) (hk : K.frame = cfg.flag .useCanStruct)
    (hn : ((confItems fl (cfg.flag .useMon)).flatMap Item.defines ++ definedNames g msgs).Nodup)
    (hd : ((confItems fl (cfg.flag .useMon)).flatMap Item.defines ++ utilNames u D msgs rx tx).Nodup)
    (hf : cfg.flag .useMon = true → ∀ n ∈ fmonNames g mono msgs, n ∉ (msgs.filter (·.frameNotEmpty)).map typeName)
    (hfn : cfg.flag .useMon = true → (fmonNames g mono msgs).Nodup) :
    links ([confItems fl (cfg.flag .useMon) ++ unitItems g cfg.flag mono msgs ls, fmonUnit g fl (cfg.flag .useMon) mono msgs] ++
      [utilItems u D (confItems fl (cfg.flag .useMon) ++ headerItems g cfg.flag msgs) rx tx t]) = true := by
  have hdu : ((utilItems u D (confItems fl (cfg.flag .useMon) ++ headerItems g cfg.flag msgs) rx tx t).flatMap Item.defines).Nodup := by
    rw [util_allDefines]
    exact hd
  refine links_add (unit_links h hl hk hn hf hfn) ((gives_defines _).nodup hdu) ?_ ?_
  · intro i hi s hs j hj r hr e
    obtain ⟨o1, o2⟩ := gives_own hj hr
    rw [List.flatten_cons, List.flatten_cons, List.flatten_nil, List.append_nil] at hi
    rcases List.mem_append.1 hi with hi | hi
    · rcases unit_sigs h hl hk hi with ⟨-, h2⟩ | ⟨x, h1, h2⟩
      · rw [util_split, List.flatMap_append] at hdu
        refine (List.nodup_append.1 hdu).2.2 _ ?_ _ o2 e
        rw [List.flatMap_append, headerItems_defines]
        exact List.mem_append.2 (h2 _ (gives_name hs))
      · rw [gives_sig hs h1] at e
        exact own_sig hu o1 h2 e
    · rcases fmonUnit_mem hi with hi | ⟨-, n, hnn, rfl | rfl⟩
      · have : ∀ fl mon, ∀ i ∈ confItems fl mon, i.gives = none := by decide
        rw [this _ _ i hi] at hs
        cases hs
      · cases hs
      · cases hs
        have e : n = r.1 := e
        exact own_take hu o1 (e ▸ fmonNames_head hnn) (.inr (by decide))
  · intro i hi s hs
    rcases util_mem hi with hi | hm
    · refine .inl ⟨i, ?_, hs⟩
      rw [List.flatten_cons]
      refine List.mem_append_left _ ?_
      rcases List.mem_append.1 hi with hi | hi
      · exact List.mem_append_left _ hi
      · exact List.mem_append_right _ (List.mem_append_left _ (List.mem_append_left _ hi))
    · refine .inr ?_
      cases hm with
      | rxs h' => cases hs
      | txs h' => cases hs
      | proto h' =>
        cases hs
        exact ⟨_, util_func h', rfl⟩
      | rxv h' hd' ext =>
        cases ext with
        | false => cases hs
        | true => cases hs; exact ⟨_, util_rx h' hd', rfl⟩
      | txv h' hd' ext =>
        cases ext with
        | false => cases hs
        | true => cases hs; exact ⟨_, util_tx h' hd', rfl⟩
      | func h' => cases hs

end Verif
