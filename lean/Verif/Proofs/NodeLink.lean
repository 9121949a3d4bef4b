import Verif.Proofs.UtilLink
import Verif.Props.Link
import Verif.Props.ReceiveText
/-
The util files of a node in the directory of the files of a driver.
-/
namespace Verif
open Spec

variable {φ : Type} {drv : Str} {file : Source} {w : Option Str} {hi lo maxDlc : Nat} {msgs rx tx : List Msg} {D0 : Defs} {tick hash : Hook} {maxW initW : Str}

/-! ### Names of the files -/

theorem usrc_eq (drv : Str) (file : Source) (hi lo : Nat) (w : Option Str) : usrcFile (nodeDesc drv file hi lo w) = strLower (utilBase drv w) ++ "-binutil.c".toList := by
  unfold usrcFile nodeDesc
  rw [for_name, lower_append, lower_lower]
  rfl

theorem dash_ident {s : Str} (h : IsIdent s) : '-' ∉ strLower s := by
  intro hd
  have := isWord_ident (lower_ident h) _ hd
  revert this
  decide

/-- The header of the util files has a name of its own. -/
theorem hname_dir (hd : IsIdent drv) : (nodeDesc drv file hi lo w).hname ∉ dirFiles (driverDesc drv file hi lo) := by
  intro h
  unfold dirFiles at h
  simp only [List.mem_cons, List.not_mem_nil, or_false] at h
  have e0 : (nodeDesc drv file hi lo w).hname = strLower (utilBase drv w) ++ "-binutil.h".toList := hname_eq _ _ _
  rcases h with h | h | h | h | h
  · rw [e0] at h
    have e : (strLower (utilBase drv w) ++ "-binutil".toList) ++ ".h".toList = strLower drv ++ ".h".toList := by
      rw [List.append_assoc]; exact h
    have e := List.append_cancel_right e
    exact dash_ident hd (e ▸ List.mem_append_right _ (by decide))
  · exact hname_ne (g := driverDesc drv file hi lo) (drv := drv) (w := w) (a := strLower drv) "-config.h" (by decide) (by decide) h.symm
  · exact hname_ne (g := driverDesc drv file hi lo) (drv := drv) (w := w) (a := "dbcc".toList) "odeconf.h" (by decide) (by decide) h.symm
  · exact hname_ne (g := driverDesc drv file hi lo) (drv := drv) (w := w) (a := "canmon".toList) "itorutil.h" (by decide) (by decide) h.symm
  · exact hname_ne (g := driverDesc drv file hi lo) (drv := drv) (w := w) (a := strLower drv) "-fmon.h" (by decide) (by decide) h.symm

theorem last_ne {a b : Str} (ha : a.getLast? = some 'c') (hb : b.getLast? = some 'h') : a ≠ b := by
  rintro rfl
  rw [ha] at hb
  cases hb

/-- The source file of the util files is none of the headers. -/
theorem usrc_dir : usrcFile (nodeDesc drv file hi lo w) ∉ (nodeDesc drv file hi lo w).hname :: dirFiles (driverDesc drv file hi lo) := by
  have e0 : (nodeDesc drv file hi lo w).hname = strLower (utilBase drv w) ++ "-binutil.h".toList := hname_eq _ _ _
  intro h
  unfold dirFiles at h
  rw [usrc_eq, e0] at h
  have hc : ∀ a : Str, (a ++ "-binutil.c".toList).getLast? = some 'c' := fun a => by rw [List.getLast?_append]; rfl
  have hh : ∀ (a : Str) (s : Str), s.getLast? = some 'h' → (a ++ s).getLast? = some 'h' := fun a s q => by
    rw [List.getLast?_append, q]
    rfl
  simp only [List.mem_cons, List.not_mem_nil, or_false] at h
  rcases h with h | h | h | h | h | h
  · exact last_ne (hc _) (hh _ _ (by decide)) h
  · exact last_ne (hc _) (hh _ ".h".toList (by decide)) h
  · exact last_ne (hc _) (hh _ "-config.h".toList (by decide)) h
  · exact last_ne (hc _) (b := ccFile) (by decide) h
  · exact last_ne (hc _) (b := muFile) (by decide) h
  · exact last_ne (hc _) (hh _ "-fmon.h".toList (by decide)) h

theorem nameLow (hn : IsIdent (utilBase drv w)) : NameLow (nodeDesc drv file hi lo w) := by
  refine ⟨utilBase drv w, for_name _ _ _, ?_⟩
  have : utilBase drv w ≠ [] := by
    intro e
    rw [e] at hn
    revert hn
    decide
  exact List.length_pos_iff.2 this

theorem utilOf (hd : IsIdent drv ∧ drv.length ≤ 400) (hn : IsIdent (utilBase drv w) ∧ (utilBase drv w).length ≤ 1000) : UtilOf (nodeDesc drv file hi lo w) (driverDesc drv file hi lo) := by
  have e : (nodeDesc drv file hi lo w).hname = (nodeDesc drv file hi lo w).name ++ "-binutil.h".toList := by
    unfold nodeDesc
    rw [hname_eq, for_name]
  have hw := desc_name (file := file) (hi := hi) (lo := lo) hn
  refine ⟨rfl, rfl, hname_dir hd.1, ?_, ?_⟩
  · rw [e]
    exact (plainT_word (isWord_ident hw.1)).append (plain_lit (by decide))
  · rw [e, List.length_append]
    have : "-binutil.h".toList.length = 10 := rfl
    omega

/-! ### The receive function -/

/-- The receive function after any declarations. -/
theorem recv_unit {g : GenDesc} {flag : Flag → Bool} {D : Defs} {t : CTree} {p : List Spec.Item} {G : Groups} (hg : g.drvOrig = drv) (hr : SortedBy rx (selectRx G msgs)) (hne : 0 < rx.length)
    (ht : fillTree rx (rx.length + 1) 0 rx.length false = some t) (hnd : (p.flatMap Item.defines ++ utilNames (utilFor g drv w) D msgs rx tx).Nodup) (hp : noFuncs p = true)
    (hrx : (rx.map (·.name)).Nodup) (hmon : ∀ m ∈ rx, typeName m ≠ "FrameMonitor_t".toList) (hidm : ∀ m ∈ rx, m.msgId < 2 ^ 32)
    {T : Target φ} {f : Nat} {vid vd : CVal} {id d : Nat} {rv : Msg → Nat} (st : CSt φ) (h1 : CTy.u32.conv vid.val = (id : Nat)) (hid : id < 2 ^ 32) (h2 : CTy.u8.conv vd.val = (d : Nat))
    (hT : ∀ m, MappedRx G msgs m → m.msgId = id → T.user (callName drv m) = none ∧ T.ret (callName drv m) [.p (.sub m.name), .p .data, .i ⟨.u8, (d : Nat)⟩] = .i ⟨.u32, (rv m : Nat)⟩ ∧ rv m < 2 ^ 32) :
    ∃ loc, (∃ m, MappedRx G msgs m ∧ m.msgId = id ∧
        callUnit f T (utilItems (utilFor g drv w) D (p ++ headerItems g flag msgs) rx tx t) (utilName (utilFor g drv w) "_Receive") [.p .msg, .p .data, .i vid, .i vd] st =
          some ({ st with loc := loc, calls := st.calls ++ [(callName drv m, [.p (.sub m.name), .p .data, .i ⟨.u8, (d : Nat)⟩])] }, .i ⟨.u32, (rv m : Nat)⟩)) ∨
      ((∀ m, MappedRx G msgs m → m.msgId ≠ id) ∧
        callUnit f T (utilItems (utilFor g drv w) D (p ++ headerItems g flag msgs) rx tx t) (utilName (utilFor g drv w) "_Receive") [.p .msg, .p .data, .i vid, .i vd] st =
          some ({ st with loc := loc }, .i ⟨.u32, 0⟩)) := by
  have hm : ∀ m ∈ rx, MappedRx G msgs m := fun m hx => (mem_selectRx G msgs m).1 (hr.1.mem_iff.1 hx)
  obtain ⟨t', e', -, hdis⟩ := fillTree_some hr.2 hne
  rw [ht] at e'
  cases e'
  have hids : ∀ i ∈ treeIds t, i < 2 ^ 32 := by
    intro i hx
    obtain ⟨m, hm', rfl⟩ := fillTree_ids ht i hx
    exact hidm m hm'
  have hnu := (List.nodup_append.1 hnd).2.1
  have key := recv_call (φ := φ) (tx := tx) (flag := flag) (rv := fun m => ⟨.u32, (rv m : Nat)⟩) (T := T) (f := f) (st := st) (g := g) (w := w) (drv := drv) hg hne hids hnu hrx
    (fun m hx => ⟨(hm m hx).1, (hm m hx).2.1⟩) hmon h1 hid h2 (fun m hc => by
      obtain ⟨hx, e⟩ := dispatch_mem (hdis id) hc
      exact ⟨hx, (hT m (hm m hx) e).1, (hT m (hm m hx) e).2.1⟩)
  have hfn : funcOf (utilItems (utilFor g drv w) D (headerItems g flag msgs) rx tx t) (recvName (utilFor g drv w)) = some (recvFunc (utilFor g drv w) t) :=
    funcOf_mem (fn := recvFunc (utilFor g drv w) t) (by rw [util_defines]; exact hnu) (util_func hne)
  have htn : rxType (utilFor g drv w) ∉ p.flatMap Item.defines := by
    intro q
    refine (List.nodup_append.1 hnd).2.2 _ q _ ?_ rfl
    unfold utilNames
    rw [if_neg (c := rx.length = 0) (by omega)]
    exact List.mem_append_left _ (List.mem_append_left _ (List.mem_append_right _ (List.mem_append_left _ (List.mem_singleton.2 rfl))))
  have es : utilItems (utilFor g drv w) D (p ++ headerItems g flag msgs) rx tx t = p ++ utilItems (utilFor g drv w) D (headerItems g flag msgs) rx tx t := by
    rw [util_split, util_split _ _ _ _ _ (headerItems g flag msgs), List.append_assoc]
  have key := (callUnit_pre hp f T (recvName (utilFor g drv w)) (recvArgs vid vd) st hfn rfl htn).trans key
  rw [← es] at key
  have kc : ∀ n : Nat, n < 2 ^ 32 → (CVal.mk .u32 (n : Nat)).cast .u32 = ⟨.u32, (n : Nat)⟩ := by
    intro n q
    unfold CVal.cast
    rw [u32_nat q]
  rcases hdis id with ⟨k, m, -, -, g3, g4, g5⟩ | ⟨g1, g2⟩
  · have hx := List.mem_of_getElem? g3
    rw [g5] at key
    unfold afterCalls afterCalls at key
    dsimp only at key
    rw [kc _ (hT m (hm m hx) g4).2.2, kc _ (hT m (hm m hx) g4).2.2] at key
    exact ⟨_, Or.inl ⟨m, hm m hx, g4, key⟩⟩
  · rw [g2] at key
    refine ⟨_, Or.inr ⟨fun m hmm => ?_, key⟩⟩
    have hx : m ∈ rx := hr.1.mem_iff.2 ((mem_selectRx G msgs m).2 hmm)
    obtain ⟨k, hk⟩ := List.getElem?_of_mem hx
    exact g1 k m (Nat.zero_le _) (List.getElem?_eq_some_iff.1 hk).1 hk

end Verif
