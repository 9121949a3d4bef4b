import Verif.Proofs.UtilRun
import Verif.Model.NodeUtil
/-
The util files of a node beside the files of the driver.
-/
namespace Verif
open Spec

variable {φ : Type} {drv : Str} {file : Source} {w : Option Str} {hi lo maxDlc : Nat} {msgs rx tx : List Msg} {D0 : Defs} {tick hash : Hook} {maxW initW : Str}

/-- The descriptor of the util files of a node, or of all messages. -/
def nodeDesc (drv : Str) (file : Source) (hi lo : Nat) (w : Option Str) : UtilDesc := utilFor (driverDesc drv file hi lo) drv w

/-- The headers: util header, header of the driver, monitor header. -/
def utilFiles (u : UtilDesc) (hops : List WOp) (msgs rx tx : List Msg) : List (Str × Str) :=
  (u.hname, opsText (utilHeaderOps u rx tx)) :: genFiles u.g hops msgs

/-- The headers with any text of the util header. -/
def textFiles (g : GenDesc) (drv : Str) (w : Option Str) (txt : Str) (hops : List WOp) (msgs : List Msg) : List (Str × Str) :=
  ((utilFor g drv w).hname, txt) :: genFiles g hops msgs

/-- Conditions on a node and the messages mapped to it: names are identifiers, and no name the util files
use in addition is a macro. -/
structure NodeRd (drv : Str) (file : Source) (hi lo maxDlc : Nat) (msgs : List Msg) (D0 : Defs) (w : Option Str) (rx tx : List Msg) : Prop where
  nodeId : IsIdent (utilBase drv w) ∧ (utilBase drv w).length ≤ 1000
  header : strLower drv ≠ "dbccodeconf".toList
  words : ∀ w ∈ utilWords, (headerTable (driverDesc drv file hi lo) maxDlc msgs D0).lookup w = none
  own : ∀ s ∈ ["_rx_t", "_tx_t", "_rx", "_tx", "_Receive"], (headerTable (driverDesc drv file hi lo) maxDlc msgs D0).lookup (utilName (nodeDesc drv file hi lo w) s) = none
  msg : ∀ m ∈ rx ++ tx, (headerTable (driverDesc drv file hi lo) maxDlc msgs D0).lookup m.name = none ∧ typeNames.lookup (typeName m) = none ∧ typeName m ≠ "FrameMonitor_t".toList

/-- Names the util source file defines. -/
def utilNames (u : UtilDesc) (D : Defs) (msgs rx tx : List Msg) : List Str :=
  (msgs.filter (·.frameNotEmpty)).map typeName ++ ((if rx.length = 0 then [] else [rxType u]) ++ (if tx.length = 0 then [] else [txType u])) ++
    (if (D.lookup (defName u)).isSome then (if rx.length > 0 then [utilName u "_rx"] else []) ++ (if tx.length > 0 then [utilName u "_tx"] else []) else []) ++
    (if rx.length > 0 then [recvName u] else [])

/-! ### Names -/

theorem name_ident {node : Str} (hd : IsIdent drv ∧ drv.length ≤ 400) (hn : IsIdent node ∧ node.length ≤ 400) :
    IsIdent (utilBase drv (some node)) ∧ (utilBase drv (some node)).length ≤ 1000 := by
  unfold utilBase
  refine ⟨isIdent_word (isIdent_word hn.1 (by decide)) (isWord_ident hd.1), ?_⟩
  have e : "_".toList.length = 1 := rfl
  rw [List.length_append, List.length_append, e]
  omega

theorem for_name (g : GenDesc) (drv : Str) (w : Option Str) : (utilFor g drv w).name = strLower (utilBase drv w) := by
  cases w <;> rfl

theorem for_hname (g g' : GenDesc) (drv : Str) (w : Option Str) : (utilFor g drv w).hname = (utilFor g' drv w).hname := by
  cases w <;> rfl

theorem desc_name (hn : IsIdent (utilBase drv w) ∧ (utilBase drv w).length ≤ 1000) :
    IsIdent (nodeDesc drv file hi lo w).name ∧ (nodeDesc drv file hi lo w).name.length ≤ 1000 := by
  unfold nodeDesc
  rw [for_name, strLower_length]
  exact ⟨lower_ident hn.1, hn.2⟩

theorem desc_NAME (hn : IsIdent (utilBase drv w) ∧ (utilBase drv w).length ≤ 1000) :
    IsIdent (nodeDesc drv file hi lo w).NAME ∧ (nodeDesc drv file hi lo w).NAME.length ≤ 1000 := by
  have hd := desc_name (file := file) (hi := hi) (lo := lo) hn
  cases w with
  | some node =>
    refine ⟨upper_ident hd.1, ?_⟩
    show (strUpper _).length ≤ 1000
    rw [strUpper_length]
    exact hd.2
  | none =>
    refine ⟨upper_ident hn.1, ?_⟩
    show (strUpper _).length ≤ 1000
    rw [strUpper_length]
    exact hn.2

theorem lower_append (a b : Str) : strLower (a ++ b) = strLower a ++ strLower b := List.map_append

/-- No character of the name of the driver is a capital letter. -/
theorem lower_noUpper (s : Str) : 'U' ∉ strLower s := by
  intro h
  obtain ⟨c, -, e⟩ := List.mem_map.1 h
  have key : ∀ n : Fin 128, lowerChar (Char.ofNat n) ≠ 'U' := by decide +kernel
  by_cases hc : c.toNat < 128
  · refine key ⟨c.toNat, hc⟩ ?_
    rw [Char.ofNat_toNat]
    exact e
  · unfold lowerChar at e
    split at e
    · rename_i h
      have : c.toNat ≤ 90 := h.2
      omega
    · subst e
      exact hc (by decide)

/-! ### The conditions of the reading theorems -/

theorem name_nodup {l : List Msg} (h : (l.map typeName).Nodup) : (l.map (·.name)).Nodup := by
  have e : l.map typeName = (l.map (·.name)).map (· ++ "_t".toList) := by
    rw [List.map_map]
    rfl
  rw [e] at h
  exact List.Pairwise.of_map _ (fun a b e q => e (by rw [q])) h

theorem mapped_nodup (hn : (definedNames (driverDesc drv file hi lo) msgs).Nodup) {p : Msg → Bool} (hp : ∀ m, p m = true → m.frameNotEmpty = true) {l : List Msg}
    (hl : l.Perm (msgs.filter p)) : (l.map (·.name)).Nodup := by
  have h1 : ((msgs.filter (·.frameNotEmpty)).map (·.name)).Nodup := name_nodup (List.nodup_append.1 hn).1
  refine ((hl.map _).nodup_iff).2 (List.Nodup.sublist ?_ h1)
  refine List.Sublist.map _ ?_
  have : msgs.filter p = (msgs.filter (·.frameNotEmpty)).filter p := by
    rw [List.filter_filter]
    congr 1
    funext m
    cases h : p m with
    | false => simp
    | true => simp [hp m h]
  rw [this]
  exact List.filter_sublist

theorem utilOk (h : DriverRd drv file hi lo maxDlc msgs D0 tick hash maxW initW) (hn : NodeRd drv file hi lo maxDlc msgs D0 w rx tx)
    (hm : ∀ m ∈ rx ++ tx, m ∈ msgs ∧ m.frameNotEmpty = true) (hrx : (rx.map (·.name)).Nodup) (htx : (tx.map (·.name)).Nodup) :
    UtilOk (nodeDesc drv file hi lo w) (headerTable (driverDesc drv file hi lo) maxDlc msgs D0) rx tx := by
  have hU := h.unit [] false 0 0
  have hs : Sub (headerTable (driverDesc drv file hi lo) maxDlc msgs D0) (macroTable (driverDesc drv file hi lo) maxDlc msgs D0) := headerTable_sub _
  exact
    { base := ⟨hs.base hU.head.base, hn.words⟩, cpp := Sub.none hs hU.head.cpp, drv := ⟨h.drvId.1, Nat.le_trans h.drvId.2 (by omega)⟩,
      name := desc_name hn.nodeId, NAME := desc_NAME hn.nodeId, own := hn.own,
      msg := fun m hx => ⟨(h.text m (hm m hx).1).name, (hn.msg m hx).1, Sub.none hs (h.frame m (hm m hx).1 (hm m hx).2).type, (hn.msg m hx).2.1⟩,
      call := fun m hx => Sub.none hs (h.frame m (hm m (List.mem_append_left _ hx)).1 (hm m (List.mem_append_left _ hx)).2).unpack,
      rxNames := hrx, txNames := htx }

/-! ### The files -/

theorem lower_lower (s : Str) : strLower (strLower s) = strLower s := by
  unfold strLower
  rw [List.map_map]
  congr 1
  funext c
  show lowerChar (lowerChar c) = lowerChar c
  unfold lowerChar
  split
  · rename_i hc
    have h1 : 65 ≤ c.toNat := hc.1
    have h2 : c.toNat ≤ 90 := hc.2
    have key : ∀ n : Fin 128, lowerChar (lowerChar (Char.ofNat n)) = lowerChar (Char.ofNat n) := by decide +kernel
    have := key ⟨c.toNat, by omega⟩
    rw [Char.ofNat_toNat] at this
    unfold lowerChar at this
    rw [if_pos hc] at this
    exact this
  · rfl

theorem hname_eq (g : GenDesc) (drv : Str) (w : Option Str) : (utilFor g drv w).hname = strLower (utilBase drv w) ++ "-binutil.h".toList := by
  cases w with
  | none => rfl
  | some node =>
    show strLower (strLower (node ++ "_".toList ++ drv) ++ "-binutil.h".toList) = _
    rw [lower_append, lower_lower]
    rfl

theorem suffix_ne {a b : Str} {s t : Str} (hl : s.length = t.length) (h : s ≠ t) : a ++ s ≠ b ++ t := by
  intro e
  exact h (List.append_inj_right' e hl)

theorem util_lookup {g : GenDesc} {txt : Str} {hops : List WOp} {n : Str} (hne : n ≠ (utilFor g drv w).hname) :
    (textFiles g drv w txt hops msgs).lookup n = (genFiles g hops msgs).lookup n := by
  unfold textFiles
  rw [List.lookup_cons]
  have e1 : (n == (utilFor g drv w).hname) = false := by simpa using hne
  rw [e1]

theorem hname_ne {g : GenDesc} {a : Str} (b : String) (hl : b.toList.length ≤ 10) (h : "-binutil.h".toList.drop (10 - b.toList.length) ≠ b.toList) : a ++ b.toList ≠ (utilFor g drv w).hname := by
  rw [hname_eq]
  intro e
  have h1 : "-binutil.h".toList = "-binutil.h".toList.take (10 - b.toList.length) ++ "-binutil.h".toList.drop (10 - b.toList.length) := (List.take_append_drop _ _).symm
  rw [h1, ← List.append_assoc] at e
  refine suffix_ne ?_ (Ne.symm h) e
  rw [List.length_drop]
  have : "-binutil.h".toList.length = 10 := rfl
  omega

theorem head_files {g : GenDesc} {E : Defs} {txt : Str} {hops : List WOp} (h : HeadOk g (genFiles g hops msgs) D0 E) : HeadOk g (textFiles g drv w txt hops msgs) D0 E :=
  { h with
    stdint := by
      exact (util_lookup (hname_ne (a := "std".toList) "int.h" (by decide) (by decide))).trans h.stdint
    config := by
      exact (util_lookup (hname_ne "-config.h" (by decide) (by decide))).trans h.config
    monutil := fun q => by
      exact (util_lookup (hname_ne (a := "canmon".toList) "itorutil.h" (by decide) (by decide))).trans (h.monutil q) }

theorem nodeFiles (h : DriverRd drv file hi lo maxDlc msgs D0 tick hash maxW initW) (hn : NodeRd drv file hi lo maxDlc msgs D0 w rx tx) (hops : List WOp) {file' : Source}
    (hf' : SourceOk file') (hi' lo' : Nat) :
    UtilFiles (nodeDesc drv file' hi' lo' w) (textFiles (driverDesc drv file hi lo) drv w (opsText (utilHeaderOps (nodeDesc drv file' hi' lo' w) rx tx)) hops msgs) rx tx := by
  have e : (nodeDesc drv file' hi' lo' w).hname = (nodeDesc drv file' hi' lo' w).name ++ "-binutil.h".toList := by
    unfold nodeDesc
    rw [hname_eq, for_name]
  have hw := desc_name (file := file') (hi := hi') (lo := lo') hn.nodeId
  refine ⟨?_, ?_, ?_, ?_, common_comment hf', driver_comment hf'.1.1 hf'.1.2⟩
  · rw [e]
    exact (plainT_word (isWord_ident hw.1)).append (plain_lit (by decide))
  · rw [e, List.length_append]
    have : "-binutil.h".toList.length = 10 := rfl
    omega
  · have e2 : (nodeDesc drv file' hi' lo' w).hname = (utilFor (driverDesc drv file hi lo) drv w).hname := for_hname _ _ _ _
    unfold textFiles
    rw [e2, List.lookup_cons]
    simp
  · have q := hname_ne (g := driverDesc drv file hi lo) (drv := drv) (w := w) (a := "dbcc".toList) "odeconf.h" (by decide) (by decide)
    refine (util_lookup q).trans (files_lookup _ ?_ ?_)
    · intro e
      refine hn.header ?_
      have e : "dbccodeconf".toList ++ ".h".toList = strLower drv ++ ".h".toList := e
      exact (List.append_cancel_right e).symm
    · intro e
      have e : "dbccodecon".toList ++ "f.h".toList = (strLower drv ++ "-fmo".toList) ++ "n.h".toList := by
        rw [List.append_assoc]; exact e
      exact suffix_ne (s := "f.h".toList) (t := "n.h".toList) rfl (by decide) e

/-- The header of the driver, included from the util files. -/
theorem node_include (h : DriverRd drv file hi lo maxDlc msgs D0 tick hash maxW initW) {txt : Str} {hops : List WOp}
    (ho : mainHeaderOps (driverDesc drv file hi lo) maxDlc msgs = some hops) :
    GItems (textFiles (driverDesc drv file hi lo) drv w txt hops msgs) [.appendF ("#include \"".toList ++ strLower drv ++ ".h\"".toList)] D0
      (headerTable (driverDesc drv file hi lo) maxDlc msgs D0)
      (headerItems (driverDesc drv file hi lo) (fun f => ((macroTable (driverDesc drv file hi lo) maxDlc msgs D0).lookup (flagName (driverDesc drv file hi lo) f)).isSome) msgs) := by
  have hU := h.unit hops false 0 0
  refine include_main (head_files hU.head) hU.max hU.hdr ho ?_ (headerTable_sub _) ((fresh_append _ _ _).1 h.fresh).1
  have q : strLower drv ++ ".h".toList ≠ (utilFor (driverDesc drv file hi lo) drv w).hname := by
    rw [hname_eq]
    intro e
    have e : strLower drv ++ ".h".toList = (strLower (utilBase drv w) ++ "-binutil".toList) ++ ".h".toList := by
      rw [List.append_assoc]; exact e
    have e := List.append_cancel_right e
    have hd : '-' ∈ strLower drv := by
      rw [e]
      exact List.mem_append_right _ (by decide)
    have := isWord_ident (lower_ident h.drvId.1) _ hd
    revert this
    decide
  exact (util_lookup q).trans (files_ok (driverDesc drv file hi lo) hops msgs).header

/-! ### The translation unit -/

theorem struct_defines {flag : Flag → Bool} : (msgs.flatMap (structItems flag)).flatMap Item.defines = (msgs.filter (·.frameNotEmpty)).map typeName := by
  induction msgs with
  | nil => rfl
  | cons m r ih =>
    rw [List.flatMap_cons, List.flatMap_append, ih, List.filter_cons]
    unfold structItems
    cases m.frameNotEmpty <;> rfl

theorem proto_defines {g : GenDesc} {b : Bool} : (msgs.flatMap (protoItems g b)).flatMap Item.defines = [] := by
  induction msgs with
  | nil => rfl
  | cons m r ih =>
    rw [List.flatMap_cons, List.flatMap_append, ih]
    unfold protoItems
    cases m.frameNotEmpty <;> rfl

theorem headerItems_defines {g : GenDesc} {flag : Flag → Bool} : (headerItems g flag msgs).flatMap Item.defines = (msgs.filter (·.frameNotEmpty)).map typeName := by
  unfold headerItems
  rw [List.flatMap_append, struct_defines, proto_defines, List.append_nil]

theorem vars_defines (u : UtilDesc) (ext : Bool) : (utilVars u ext rx tx).flatMap Item.defines =
    if ext then [] else (if rx.length > 0 then [utilName u "_rx"] else []) ++ (if tx.length > 0 then [utilName u "_tx"] else []) := by
  unfold utilVars
  cases ext <;> by_cases h1 : rx.length > 0 <;> by_cases h2 : tx.length > 0 <;> simp only [h1, h2, if_true, if_false] <;> rfl

theorem util_defines (u : UtilDesc) (D : Defs) {g : GenDesc} {flag : Flag → Bool} (t : CTree) :
    (utilItems u D (headerItems g flag msgs) rx tx t).flatMap Item.defines = utilNames u D msgs rx tx := by
  unfold utilItems utilNames utilHeaderItems
  rw [List.flatMap_append, List.flatMap_append, List.flatMap_append, headerItems_defines]
  have e1 : (utilDecls u rx tx ++ if (D.lookup (defName u)).isSome = true then utilVars u true rx tx else []).flatMap Item.defines =
      (if rx.length = 0 then [] else [rxType u]) ++ (if tx.length = 0 then [] else [txType u]) := by
    rw [List.flatMap_append]
    have a : (if (D.lookup (defName u)).isSome = true then utilVars u true rx tx else []).flatMap Item.defines = [] := by
      split
      · rw [vars_defines]; rfl
      · rfl
    rw [a, List.append_nil]
    unfold utilDecls
    by_cases h1 : rx.length = 0 <;> by_cases h2 : tx.length = 0 <;> by_cases h3 : rx.length > 0 <;> simp only [h1, h2, h3, if_true, if_false] <;> rfl
  have e2 : (if (D.lookup (defName u)).isSome = true then utilVars u false rx tx else []).flatMap Item.defines =
      if (D.lookup (defName u)).isSome then (if rx.length > 0 then [utilName u "_rx"] else []) ++ (if tx.length > 0 then [utilName u "_tx"] else []) else [] := by
    split
    · rw [vars_defines]; rfl
    · rfl
  rw [e1, e2]
  congr 1
  split <;> rfl

theorem util_funcs {g : GenDesc} {flag : Flag → Bool} {u : UtilDesc} {D : Defs} {t : CTree} {fn : Func}
    (h : .func fn ∈ utilItems u D (headerItems g flag msgs) rx tx t) : fn = recvFunc u t := by
  have hv : ∀ ext, .func fn ∉ utilVars u ext rx tx := by
    intro ext hx
    unfold utilVars at hx
    rcases List.mem_append.1 hx with hx | hx <;> split at hx <;> simp at hx
  rcases List.mem_append.1 h with h | h
  · exfalso
    rcases List.mem_append.1 h with h | h
    · rcases List.mem_append.1 h with h | h
      · rcases List.mem_append.1 h with h | h <;> obtain ⟨m, -, hx⟩ := List.mem_flatMap.1 h
        · unfold structItems at hx
          split at hx <;> simp at hx
        · unfold protoItems at hx
          split at hx <;> simp at hx
      · rcases List.mem_append.1 h with h | h
        · unfold utilDecls at h
          rcases List.mem_append.1 h with h | h
          · rcases List.mem_append.1 h with h | h <;> split at h <;> simp at h
          · split at h <;> simp at h
        · split at h
          · exact hv _ h
          · cases h
    · split at h
      · exact hv _ h
      · cases h
  · split at h
    · simpa using h
    · cases h

theorem funcOf_unit {g : GenDesc} {flag : Flag → Bool} {u : UtilDesc} {D : Defs} {t : CTree} {n : Str} (hn : n ≠ recvName u) :
    funcOf (utilItems u D (headerItems g flag msgs) rx tx t) n = none := by
  unfold funcOf
  rw [List.findSome?_eq_none_iff]
  intro i hi
  cases i with
  | func x =>
    have := util_funcs hi
    subst this
    exact if_neg (Ne.symm hn)
  | struct n ms => rfl
  | proto a b c => rfl
  | «alias» a b => rfl
  | enum a b => rfl
  | var a b c => rfl

theorem callName_ne (g : GenDesc) (m : Msg) : callName drv m ≠ recvName (utilFor g drv w) := by
  intro e
  have h : 'U' ∈ recvName (utilFor g drv w) := by
    rw [← e]
    unfold callName
    simp only [List.append_assoc]
    exact List.mem_append_left _ (by decide)
  have h : 'U' ∈ strLower (utilBase drv w) ++ "_Receive".toList := for_name g drv w ▸ h
  rcases List.mem_append.1 h with h | h
  · exact lower_noUpper _ h
  · revert h; decide

/-! ### A call of the receive function -/

/-- Arguments of the receive function. -/
def recvArgs (vid vd : CVal) : List (V φ) := [.p .msg, .p .data, .i vid, .i vd]

theorem bind_int {env : Env φ} {t n : Str} {c : CTy} {v : CVal} {ps : List Param} {vs : List (V φ)} {l} (ht : tyOf env.ext64 t = some (.int c))
    (hl : bindParams env ps vs = some l) : bindParams env (⟨t, false, n⟩ :: ps) (.i v :: vs) = some ((n, .int c, some (.i (v.cast c))) :: l) := by
  rw [bindParams, if_neg Bool.false_ne_true, ht, hl]
  rfl

theorem bind_ptr {env : Env φ} {t n : Str} {x : Ptr} {ps : List Param} {vs : List (V φ)} {l}
    (hl : bindParams env ps vs = some l) : bindParams env (⟨t, true, n⟩ :: ps) (.p x :: vs) = some ((n, .ptr, some (.p x)) :: l) := by
  rw [bindParams, if_pos rfl, hl]
  rfl

theorem bind_recv {env : Env φ} {t : Str} {vid vd : CVal} {id d : Nat} (h1 : CTy.u32.conv vid.val = (id : Nat)) (h2 : CTy.u8.conv vd.val = (d : Nat)) (r : CVal) :
    ∃ l, bindParams env (recvParams t "_m" "_d" "_id" "dlc_") (recvArgs vid vd) = some l ∧ ("recid".toList, Ty.int .u32, some (V.i r)) :: l = recvLoc r id d := by
  have t1 : tyOf env.ext64 "uint32_t".toList = some (.int .u32) := by cases env.ext64 <;> rfl
  have t2 : tyOf env.ext64 "uint8_t".toList = some (.int .u8) := by cases env.ext64 <;> rfl
  refine ⟨_, bind_ptr (bind_ptr (bind_int t1 (bind_int t2 rfl))), ?_⟩
  rw [CVal.cast, CVal.cast, h1, h2]
  rfl

theorem map_lookup {ms : List Msg} (hn : (ms.map (·.name)).Nodup) {m : Msg} (hm : m ∈ ms) : (mapMembers ms).lookup m.name = some (.named (typeName m)) := by
  refine lookup_of_nodup ?_ (List.mem_map.2 ⟨m, hm, rfl⟩)
  unfold mapMembers
  rw [List.map_map]
  exact hn

theorem recv_call {g : GenDesc} {flag : Flag → Bool} {D : Defs} {t : CTree} {T : Target φ} {f : Nat} {vid vd : CVal} {id d : Nat} {rv : Msg → CVal} {st : CSt φ}
    (hg : g.drvOrig = drv) (hne : 0 < rx.length) (hti : ∀ i ∈ treeIds t, i < 2 ^ 32)
    (hnd : (utilNames (utilFor g drv w) D msgs rx tx).Nodup) (hrx : (rx.map (·.name)).Nodup) (hm : ∀ m ∈ rx, m ∈ msgs ∧ m.frameNotEmpty = true)
    (hmon : ∀ m ∈ rx, typeName m ≠ "FrameMonitor_t".toList) (h1 : CTy.u32.conv vid.val = (id : Nat)) (hid : id < 2 ^ 32) (h2 : CTy.u8.conv vd.val = (d : Nat))
    (hT : ∀ m ∈ treeCalls id t, m ∈ rx ∧ T.user (callName drv m) = none ∧ T.ret (callName drv m) (callArgs m d) = .i (rv m)) :
    callUnit f T (utilItems (utilFor g drv w) D (headerItems g flag msgs) rx tx t) (recvName (utilFor g drv w)) (recvArgs vid vd) st =
      some ({ (afterCalls rv drv d (treeCalls id t) st ⟨.u32, 0⟩).1 with loc := recvLoc (afterCalls rv drv d (treeCalls id t) st ⟨.u32, 0⟩).2 id d },
        .i ((afterCalls rv drv d (treeCalls id t) st ⟨.u32, 0⟩).2.cast .u32)) := by
  generalize hu : utilFor g drv w = u at *
  have hud : u.drv = drv := by rw [← hu]; rfl
  generalize his : utilItems u D (headerItems g flag msgs) rx tx t = is
  have hnd' : (is.flatMap Item.defines).Nodup := by rw [← his, util_defines]; exact hnd
  have hfn : funcOf is (recvName u) = some (recvFunc u t) := by
    refine funcOf_mem (fn := recvFunc u t) hnd' ?_
    rw [← his]
    unfold utilItems
    rw [if_pos hne]
    exact List.mem_append_right _ (List.mem_singleton.2 rfl)
  have hst : structOf is (rxType u) = some (mapMembers rx) := by
    refine structOf_mem hnd' ?_
    rw [← his]
    unfold utilItems utilHeaderItems utilDecls
    rw [if_neg (by omega : ¬ rx.length = 0)]
    exact List.mem_append_left _ (List.mem_append_left _ (List.mem_append_right _ (List.mem_append_left _ (List.mem_append_left _ (List.mem_append_left _ (List.mem_singleton.2 rfl))))))
  have hpr : ∀ m ∈ rx, isProto is (callName drv m) = true := by
    intro m hx
    refine isProto_mem (t := "uint32_t".toList) (ps := unpackParams m) ?_
    rw [← his]
    have : Spec.Item.proto "uint32_t".toList (callName drv m) (unpackParams m) ∈ headerItems g flag msgs := by
      refine List.mem_append_right _ (List.mem_flatMap.2 ⟨m, (hm m hx).1, ?_⟩)
      unfold protoItems
      rw [if_pos (hm m hx).2]
      have : unpackName g m = callName drv m := by
        unfold unpackName callName
        rw [hg]
      rw [this]
      exact List.mem_cons_self
    unfold utilItems
    rw [List.append_assoc, List.append_assoc]
    exact List.mem_append_left _ this
  unfold callUnit
  rw [hfn]
  dsimp only
  have hmt : msgType (recvFunc u t).params (recvArgs (φ := φ) vid vd) = some (rxType u) := rfl
  rw [hmt, Option.bind_some, hst]
  dsimp only
  generalize henv : ({ F := T.F, ext64 := T.ext64, mem := mapMembers rx, const := T.const, user := T.user, defd := helper f T is, proto := isProto is, ret := T.ret } : Env φ) = env
  have hce : ∀ m ∈ treeCalls id t, CallEnv env drv m ∧ env.ret (callName drv m) (callArgs m d) = .i (rv m) := by
    intro m hc
    obtain ⟨hx, hT1, hT2⟩ := hT m hc
    rw [← henv]
    refine ⟨⟨map_lookup hrx hx, hmon m hx, ?_, hT1, hpr m hx⟩, hT2⟩
    show helper f T is (callName drv m) = none
    unfold helper
    rw [← his, funcOf_unit (by rw [← hu]; exact callName_ne g m)]
    rfl
  obtain ⟨l, hl, el⟩ := bind_recv (env := env) (t := rxType u) h1 h2 ⟨.u32, 0⟩
  unfold callFunc
  have hl' : bindParams env (recvFunc u t).params (recvArgs vid vd) = some l := hl
  rw [hl']
  dsimp only
  have hdecl : Spec.exec f env (recvFunc u t).body { st with loc := l } =
      Spec.exec f env (seqs (treeStms drv t) (seqs [.ret (.id "recid".toList)] .skip)) { st with loc := recvLoc ⟨.u32, 0⟩ id d } := by
    have e0 : (recvFunc u t).body = .seq (.decl "uint32_t".toList "recid".toList (some (.num "0".toList))) (seqs (treeStms drv t) (seqs [.ret (.id "recid".toList)] .skip)) := by
      show seqs (recvBody u.drv t) .skip = _
      unfold recvBody
      rw [hud, ← seqs_append]
      rfl
    rw [e0]
    refine exec_seq_none ?_
    have t1 : tyOf env.ext64 "uint32_t".toList = some (.int .u32) := by cases env.ext64 <;> rfl
    have ev : evalE env (.num "0".toList) { st with loc := l } = some (.i ⟨.i32, 0⟩, { st with loc := l }) := rfl
    rw [Spec.exec, ev]
    dsimp only
    rw [t1, Option.bind_some]
    show some (({ st with loc := ("recid".toList, Ty.int .u32, some (V.i ⟨.u32, 0⟩)) :: l } : CSt φ), (none : Option (V φ))) = _
    rw [el]
  rw [hdecl, tree_exec hid t hti hce]
  have hret : ∀ (s : CSt φ) (r : CVal), Spec.exec f env (seqs [.ret (.id "recid".toList)] .skip) { s with loc := recvLoc r id d } = some ({ s with loc := recvLoc r id d }, some (.i r)) := fun s r => rfl
  rw [hret]
  dsimp only
  have t1 : tyOf env.ext64 (recvFunc u t).ret = some (.int .u32) := by cases env.ext64 <;> rfl
  rw [t1]
  rfl

end Verif
