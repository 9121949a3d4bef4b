import Verif.Proofs.MacroValue
import Verif.Props.Unit
/-
C40, C58: the macros of the generated header.
-/
namespace Verif
open Spec

variable {drv : Str} {file : Source} {hi lo maxDlc : Nat} {msgs : List Msg} {D0 : Defs} {tick hash : Hook} {maxW initW : Str}

theorem header_table (h : DriverRd drv file hi lo maxDlc msgs D0 tick hash maxW initW) {hops : List WOp} (ho : mainHeaderOps (driverDesc drv file hi lo) maxDlc msgs = some hops) :
    Base (headerTable (driverDesc drv file hi lo) maxDlc msgs D0) ∧ Fresh D0 (headerDefs (driverDesc drv file hi lo) maxDlc msgs) ∧
    ∃ is, GItems (genFiles (driverDesc drv file hi lo) hops msgs) hops D0 (headerTable (driverDesc drv file hi lo) maxDlc msgs D0) is := by
  have hU := h.unit hops false 0 0
  have hf := ((fresh_append _ _ _).1 h.fresh).1
  exact ⟨(headerTable_sub _).base hU.head.base, hf, _, header_read hU.head hU.max hU.hdr ho D0 (Sub.refl _) (headerTable_sub _) hf⟩

theorem suffix_ne' {a b : Str} {s t : Str} (hl : s.length = t.length) (h : s ≠ t) : a ++ s ≠ b ++ t := fun e => h (List.append_inj_right' e hl)

theorem mem_hdrDefs (g : GenDesc) {m : Msg} {e : DefE} (he : e ∈ msgDefs m) : ∀ (msgs : List Msg) (seen : List Str), m ∈ msgs → e ∈ hdrDefs g msgs seen
  | [], _, h => by cases h
  | x :: r, seen, h => by
    unfold hdrDefs
    rcases List.mem_cons.1 h with rfl | h
    · split
      · exact List.mem_append_left _ (List.mem_append_left _ he)
      · exact List.mem_append_left _ he
    · split
      · exact List.mem_append_right _ (mem_hdrDefs g he r _ h)
      · exact List.mem_append_right _ (mem_hdrDefs g he r _ h)

/-- **C58**.  Behind the literal text of the generated header, preprocessed with any set of user macros, the macros of
a message are the constants of the DBC: `M_CANID` its id, `M_DLC` its length, `M_IDE` its kind, `M_CYC` its cycle time; the
version macros are the version, and the limit of the DLC is that of the list unless the user defines it. -/
theorem C58_constants_partial (h : DriverRd drv file hi lo maxDlc msgs D0 tick hash maxW initW) :
    let g := driverDesc drv file hi lo
    ∃ hops, mainHeaderOps g maxDlc msgs = some hops ∧
      (∀ m ∈ msgs, MacroIs (genFiles g hops msgs) D0 (opsText hops) (m.name ++ "_CANID".toList) ⟨.u32, (m.msgId : Nat)⟩ ∧
        (m.dlc < 2 ^ 32 → MacroIs (genFiles g hops msgs) D0 (opsText hops) (m.name ++ "_DLC".toList) ⟨.u32, (m.dlc : Nat)⟩) ∧
        MacroIs (genFiles g hops msgs) D0 (opsText hops) (m.name ++ "_IDE".toList) ⟨.u32, if m.isExt then 1 else 0⟩ ∧
        (0 < m.cycle → m.cycle < 2 ^ 32 → MacroIs (genFiles g hops msgs) D0 (opsText hops) (m.name ++ "_CYC".toList) ⟨.u32, (m.cycle : Nat)⟩)) ∧
      MacroIs (genFiles g hops msgs) D0 (opsText hops) ("VER_".toList ++ strUpper drv ++ "_MAJ".toList) ⟨.u32, (hi : Nat)⟩ ∧
      MacroIs (genFiles g hops msgs) D0 (opsText hops) ("VER_".toList ++ strUpper drv ++ "_MIN".toList) ⟨.u32, (lo : Nat)⟩ ∧
      (D0.lookup (strUpper drv ++ "_MAX_DLC_VALUE".toList) = none → maxDlc < 2 ^ 32 →
        MacroIs (genFiles g hops msgs) D0 (opsText hops) (strUpper drv ++ "_MAX_DLC_VALUE".toList) ⟨.u32, (maxDlc : Nat)⟩) := by
  intro g
  obtain ⟨hops, ho⟩ := h.header
  obtain ⟨hB, hf, is, hG⟩ := header_table h ho
  have hl := version_lookup hf
  have hu := strUpper_length drv
  have hd := h.drvId.2
  have e1 : g.verhigh = "VER_".toList ++ strUpper drv ++ "_MAJ".toList := tmpb_short (by
    rw [List.length_append, List.length_append, hu]
    have a : "VER_".toList.length = 4 := rfl
    have b : "_MAJ".toList.length = 4 := rfl
    omega)
  have e2 : g.verlow = "VER_".toList ++ strUpper drv ++ "_MIN".toList := tmpb_short (by
    rw [List.length_append, List.length_append, hu]
    have a : "VER_".toList.length = 4 := rfl
    have b : "_MIN".toList.length = 4 := rfl
    omega)
  have hU : ∀ j, NumW (decStr j ++ "U".toList) := fun j => numW_append (numW_decStr j) (by decide)
  refine ⟨hops, ho, fun m hm => ?_, ?_, ?_, fun h0 hx => ?_⟩
  · have key : ∀ e ∈ msgDefs m, e.guard = false → (headerTable g maxDlc msgs D0).lookup e.name = some e.d := fun e he hg =>
      strict_lookup hf (List.mem_append_right _ (mem_hdrDefs g he msgs [] hm)) hg
    refine ⟨?_, fun q => ?_, ?_, fun q1 q2 => ?_⟩
    · exact macro_par hB hG (key ⟨false, m.name ++ "_CANID".toList, .obj (par [.word (fmtAltX m.msgId ++ "U".toList)])⟩ (by simp [msgDefs]) rfl) (numW_altX _)
        (litOf_altX (h.text m hm).id)
    · exact macro_par hB hG (key ⟨false, m.name ++ "_DLC".toList, .obj (par [.word (decStr m.dlc ++ "U".toList)])⟩ (by simp [msgDefs]) rfl) (hU _) (litOf_decStrU q)
    · have : MacroIs (genFiles g hops msgs) D0 (opsText hops) (m.name ++ "_IDE".toList) ⟨.u32, (m.ide : Nat)⟩ :=
        macro_par hB hG (key ⟨false, m.name ++ "_IDE".toList, .obj (par [.word (decStr m.ide ++ "U".toList)])⟩ (by simp [msgDefs]) rfl) (hU _) (litOf_decStrU (by
          unfold Msg.ide
          split <;> decide))
      unfold Msg.ide at this
      cases hx : m.isExt <;> rw [hx] at this <;> exact this
    · refine macro_dU hB hG q2 (key ⟨false, m.name ++ "_CYC".toList, .obj (lex (" (".toList ++ fmtD m.cycle ++ "U)".toList))⟩ ?_ rfl)
      unfold msgDefs
      rw [if_pos q1]
      exact List.mem_append_right _ (List.mem_singleton.2 rfl)
  · rw [← e1]
    exact macro_par hB hG hl.1 (hU _) (litOf_decStrU h.ver.1)
  · rw [← e2]
    exact macro_par hB hG hl.2 (hU _) (litOf_decStrU h.ver.2)
  · refine macro_bare hB hG (w := decStr maxDlc ++ "U".toList) ?_ (hU _) (litOf_decStrU hx)
    show (addAll D0 (headerDefs g maxDlc msgs)).lookup (maxDlcName g) = _
    have e3 : maxDlcName g = strUpper drv ++ "_MAX_DLC_V".toList ++ "ALUE".toList := by
      rw [List.append_assoc]
      rfl
    have n1 : (maxDlcName g == g.verhigh) = false := by
      rw [beq_eq_false_iff_ne, e1, e3]
      exact suffix_ne' (a := strUpper drv ++ "_MAX_DLC_V".toList) (b := "VER_".toList ++ strUpper drv) (s := "ALUE".toList) (t := "_MAJ".toList) rfl (by decide)
    have n2 : (maxDlcName g == g.verlow) = false := by
      rw [beq_eq_false_iff_ne, e2, e3]
      exact suffix_ne' (a := strUpper drv ++ "_MAX_DLC_V".toList) (b := "VER_".toList ++ strUpper drv) (s := "ALUE".toList) (t := "_MIN".toList) rfl (by decide)
    rw [addAll_lookup, show D0.lookup (maxDlcName g) = none from h0, Option.none_or]
    unfold headerDefs
    rw [defsOf_append]
    show ((List.lookup (maxDlcName g) [(g.verhigh, _), (g.verlow, _), (maxDlcName g, MDef.obj [.word (decStr maxDlc ++ "U".toList)]), (validateName g, _), (initByteName g, _)])).or _ = _
    rw [List.lookup_cons, n1, List.lookup_cons, n2, List.lookup_cons, beq_self_eq_true]
    rfl

/-- **C40**.  Behind the literal text of the generated header, preprocessed with any set of user macros, every value
macro that is not named like another macro is the value of the first entry, in the order of the header, that gives this name.
A value is read as a 32-bit `int`. -/
theorem C40_first_partial (h : DriverRd drv file hi lo maxDlc msgs D0 tick hash maxW initW) :
    let g := driverDesc drv file hi lo
    ∃ hops, mainHeaderOps g maxDlc msgs = some hops ∧
      ∀ n k, D0.lookup n = none → n ∉ constNames g msgs → (valEntries msgs).lookup n = some k → k < 2 ^ 32 →
        ∃ t, MacroIs (genFiles g hops msgs) D0 (opsText hops) n ⟨t, if k < 2 ^ 31 then (k : Int) else k - 2 ^ 32⟩ := by
  intro g
  obtain ⟨hops, ho⟩ := h.header
  obtain ⟨hB, hf, is, hG⟩ := header_table h ho
  refine ⟨hops, ho, fun n k h0 hn he hk => macro_d hB hG hk ?_⟩
  rw [headerTable_lookup h0 hn, he]
  rfl

/-- **C40**, for one table: if the name that a value `v` of signal `s` of message `m` gives is given by no other table, the
macro is the first value with this name in the table. -/
theorem C40_table_partial (h : DriverRd drv file hi lo maxDlc msgs D0 tick hash maxW initW) :
    let g := driverDesc drv file hi lo
    ∃ hops, mainHeaderOps g maxDlc msgs = some hops ∧
      ∀ m ∈ msgs, m.frameNotEmpty = true → ∀ s ∈ m.signals, ∀ v k, s.valDefs.vpairs.lookup v = some k → k < 2 ^ 31 →
        D0.lookup (s.name ++ "_".toList ++ m.name ++ "_".toList ++ v) = none → s.name ++ "_".toList ++ m.name ++ "_".toList ++ v ∉ constNames g msgs →
        (∀ m' ∈ msgs, ∀ s' ∈ m'.signals, ∀ x ∈ s'.valDefs.vpairs,
          s'.name ++ "_".toList ++ m'.name ++ "_".toList ++ x.1 = s.name ++ "_".toList ++ m.name ++ "_".toList ++ v → s' = s ∧ m' = m) →
        ∃ t, MacroIs (genFiles g hops msgs) D0 (opsText hops) (s.name ++ "_".toList ++ m.name ++ "_".toList ++ v) ⟨t, k⟩ := by
  intro g
  obtain ⟨hops, ho, key⟩ := C40_first_partial h
  refine ⟨hops, ho, fun m hm hne s hs v k hv hk h0 hn hu => ?_⟩
  have hc : ∀ m' ∈ msgs, ∀ s' ∈ m'.signals, (s'.valDefs.vpairs.map fun x => (s'.name ++ "_".toList ++ m'.name ++ "_".toList ++ x.1, x.2)).lookup
      (s.name ++ "_".toList ++ m.name ++ "_".toList ++ v) = none ∨ (s'.valDefs.vpairs.map fun x => (s'.name ++ "_".toList ++ m'.name ++ "_".toList ++ x.1, x.2)).lookup
      (s.name ++ "_".toList ++ m.name ++ "_".toList ++ v) = some k := by
    intro m' hm' s' hs'
    by_cases q : ∃ x ∈ s'.valDefs.vpairs, s'.name ++ "_".toList ++ m'.name ++ "_".toList ++ x.1 = s.name ++ "_".toList ++ m.name ++ "_".toList ++ v
    · obtain ⟨x, hx, e⟩ := q
      obtain ⟨rfl, rfl⟩ := hu m' hm' s' hs' x hx e
      exact .inr ((table_lookup _ _ _).trans hv)
    · refine .inl (List.lookup_eq_none_iff.2 fun p hp => ?_)
      obtain ⟨x, hx, rfl⟩ := List.mem_map.1 hp
      rw [bne_iff_ne]
      exact fun e => q ⟨x, hx, e.symm⟩
  have he : (valEntries msgs).lookup (s.name ++ "_".toList ++ m.name ++ "_".toList ++ v) = some k := by
    unfold valEntries
    refine lookup_flatMap (fun m' hm' => ?_) ⟨m, hm, ?_⟩
    · split
      · by_cases q : ∃ s' ∈ m'.signals, (s'.valDefs.vpairs.map fun x => (s'.name ++ "_".toList ++ m'.name ++ "_".toList ++ x.1, x.2)).lookup
          (s.name ++ "_".toList ++ m.name ++ "_".toList ++ v) = some k
        · exact .inr (lookup_flatMap (hc m' hm') q)
        · refine .inl (List.lookup_eq_none_iff.2 fun p hp => ?_)
          obtain ⟨s', hs', hp⟩ := List.mem_flatMap.1 hp
          rcases hc m' hm' s' hs' with r | r
          · exact List.lookup_eq_none_iff.1 r p hp
          · exact absurd ⟨s', hs', r⟩ q
      · exact .inl rfl
    · rw [hne, if_pos rfl]
      exact lookup_flatMap (hc m hm) ⟨s, hs, (table_lookup _ _ _).trans hv⟩
  obtain ⟨t, ht⟩ := key _ k h0 hn he (by omega)
  rw [if_pos hk] at ht
  exact ⟨t, ht⟩

theorem mem_sigDefs (g : GenDesc) (m : Msg) {s : Sig} {e : DefE} (he : e ∈ valMacros m s) : ∀ (l : List Sig) (seen : List Str), s ∈ l → e ∈ sigDefs g m l seen
  | [], _, h => by cases h
  | x :: r, seen, h => by
    unfold sigDefs
    rcases List.mem_cons.1 h with rfl | h
    · exact List.mem_append_left _ (List.mem_append_right _ he)
    · exact List.mem_append_right _ (mem_sigDefs g m he r _ h)

theorem mem_hdrDefs_sig (g : GenDesc) {m : Msg} {s : Sig} {e : DefE} (he : e ∈ valMacros m s) (hs : s ∈ m.signals) (hne : m.frameNotEmpty = true) :
    ∀ (msgs : List Msg) (seen : List Str), m ∈ msgs → e ∈ hdrDefs g msgs seen
  | [], _, h => by cases h
  | x :: r, seen, h => by
    unfold hdrDefs
    rcases List.mem_cons.1 h with rfl | h
    · rw [hne, if_pos rfl]
      exact List.mem_append_left _ (List.mem_append_right _ (mem_sigDefs g m he _ _ hs))
    · split
      · exact List.mem_append_right _ (mem_hdrDefs_sig g he hs hne r _ h)
      · exact List.mem_append_right _ (mem_hdrDefs_sig g he hs hne r _ h)

/-- **C40**, second half: behind the header every value of every signal has a macro of its name. -/
theorem C40_defined_partial (h : DriverRd drv file hi lo maxDlc msgs D0 tick hash maxW initW) :
    let g := driverDesc drv file hi lo
    ∃ hops, mainHeaderOps g maxDlc msgs = some hops ∧
      ∀ m ∈ msgs, m.frameNotEmpty = true → ∀ s ∈ m.signals, ∀ v ∈ s.valDefs.vpairs,
        MacroDefined (genFiles g hops msgs) D0 (opsText hops) (s.name ++ "_".toList ++ m.name ++ "_".toList ++ v.1) := by
  intro g
  obtain ⟨hops, ho⟩ := h.header
  obtain ⟨hB, hf, is, hG⟩ := header_table h ho
  refine ⟨hops, ho, fun m hm hne s hs v hv => hG.defined ?_⟩
  have hmem : (⟨true, s.name ++ "_".toList ++ m.name ++ "_".toList ++ v.1, valText v.2⟩ : DefE) ∈ valMacros m s := List.mem_map.2 ⟨v, hv, rfl⟩
  exact defs_isSome D0 (List.mem_append_right _ (mem_hdrDefs_sig g hmem hs hne msgs [] hm))

namespace Fix

def valSig (n : String) (k : Nat) : Sig := { sigT with name := n.toList, nameFloat := n.toList ++ "_phys".toList, valDefs := { vpairs := [("D".toList, k), ("E".toList, 3000000000), ("D".toList, 7)] } }

/-- Signal `A_B` of message `C` and signal `A` of message `B_C`. -/
def valMsgs : List Msg := [{ msgT with name := "C".toList, signals := [valSig "A_B" 1] }, { msgT with name := "B_C".toList, msgId := 5, signals := [valSig "A" 2] }]

theorem valRd : DriverRd "drv".toList "my.dbc".toList 1 2 8 valMsgs [] .zero .zero "8U".toList "0U".toList :=
  readB_sound (by decide +kernel)

end Fix

/-- **C40** is false in general: the value `D` of signal `A` of message `B_C` is 2, but its macro `A_B_C_D` is 1, the value
`D` of signal `A_B` of message `C`; and the value `E` = 3000000000 has a negative macro. -/
theorem C40_refuted : ∃ hops, mainHeaderOps (driverDesc "drv".toList "my.dbc".toList 1 2) 8 Fix.valMsgs = some hops ∧
    (∃ t, MacroIs (genFiles (driverDesc "drv".toList "my.dbc".toList 1 2) hops Fix.valMsgs) [] (opsText hops) "A_B_C_D".toList ⟨t, 1⟩) ∧
    ∃ t, MacroIs (genFiles (driverDesc "drv".toList "my.dbc".toList 1 2) hops Fix.valMsgs) [] (opsText hops) "A_B_C_E".toList ⟨t, -1294967296⟩ := by
  obtain ⟨hops, ho, key⟩ := C40_first_partial Fix.valRd
  exact ⟨hops, ho, key "A_B_C_D".toList 1 rfl (by decide +kernel) (by decide +kernel) (by decide), key "A_B_C_E".toList 3000000000 rfl (by decide +kernel) (by decide +kernel) (by decide)⟩

/-- Example: the value `ERR` of signal `Temp` of message `TMP`, every macro of the user defined. -/
example : ∃ hops, mainHeaderOps (driverDesc "drv".toList "my.dbc".toList 1 2) 8 Fix.drvMsgs = some hops ∧
    ∃ t, MacroIs (genFiles (driverDesc "drv".toList "my.dbc".toList 1 2) hops Fix.drvMsgs) Fix.userMax (opsText hops) "Temp_TMP_ERR".toList ⟨t, 1023⟩ := by
  obtain ⟨hops, ho, key⟩ := C40_table_partial Fix.drvMax.toDriverRd
  exact ⟨hops, ho, key Fix.msgT (by decide +kernel) rfl Fix.sigT (by decide +kernel) "ERR".toList 1023 rfl (by decide) (by decide +kernel) (by decide +kernel) (by decide +kernel)⟩

/-- Example: the constants of message `TMP`. -/
example : ∃ hops, mainHeaderOps (driverDesc "drv".toList "my.dbc".toList 1 2) 8 Fix.drvMsgs = some hops ∧
    MacroIs (genFiles (driverDesc "drv".toList "my.dbc".toList 1 2) hops Fix.drvMsgs) Fix.userMax (opsText hops) "TMP_CANID".toList ⟨.u32, 0x1ABCD⟩ ∧
    MacroIs (genFiles (driverDesc "drv".toList "my.dbc".toList 1 2) hops Fix.drvMsgs) Fix.userMax (opsText hops) "TMP_CYC".toList ⟨.u32, 100⟩ := by
  obtain ⟨hops, ho, key, -⟩ := C58_constants_partial Fix.drvMax.toDriverRd
  have := key Fix.msgT (by decide +kernel)
  exact ⟨hops, ho, this.1, this.2.2.2 (by decide) (by decide)⟩

end Verif
