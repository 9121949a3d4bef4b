import Verif.Spec.CMacro
import Verif.Proofs.UtilRead
import Verif.Proofs.StmtRun
/-
Values of the macros of the header.
-/
namespace Verif
open Spec

variable {files : List (Str × Str)} {D0 D : Defs} {ops : List WOp} {is : List Spec.Item}

theorem GItems.defined (h : GItems files ops D0 D is) {n : Str} (hn : (D.lookup n).isSome = true) : MacroDefined files D0 (opsText ops) n := by
  obtain ⟨us, ⟨lines, o, r⟩, -⟩ := h
  obtain ⟨F1, h1⟩ := Run.file o.ppl (r [])
  refine ⟨F1, fun f hf => ?_⟩
  have q := h1 f hf f hf [] rfl
  rw [List.nil_append] at q
  have q : ppText f files f { defs := D0 } (opsText ops) = mkPP [] ⟨D, us, false⟩ := q
  rw [q]
  exact ⟨rfl, hn⟩

theorem GItems.macro (h : GItems files ops D0 D is) {n : Str} {ts : List Tok} {e : PExpr} {v : CVal} (he : Exp D [] [.word n] ts)
    (hp : Parses (.at topLevel) ts (e, [])) (hv : IsConst e v) : MacroIs files D0 (opsText ops) n v := by
  obtain ⟨us, ⟨lines, o, r⟩, -⟩ := h
  obtain ⟨F1, h1⟩ := Run.file o.ppl (r [])
  obtain ⟨F2, h2⟩ := he
  obtain ⟨F3, h3⟩ := hp
  refine ⟨F1 + F2 + F3, e, hv, fun f hf => ?_⟩
  unfold macroExpr
  have q := h1 f (by omega) f (by omega) [] rfl
  rw [List.nil_append] at q
  have q : ppText f files f { defs := D0 } (opsText ops) = mkPP [] ⟨D, us, false⟩ := q
  dsimp only
  rw [q, if_neg (by simp [mkPP])]
  show (expand f D [] [.word n]).bind _ = _
  rw [h2 f (by omega), Option.bind_some, parseGo_mono h3 f (by omega)]

/-! ### Numbers -/

theorem const_num {w : Str} {v : CVal} (hd : w.contains '.' = false) (h : litOf w = some v) : IsConst (.num w) v := by
  intro φ env st
  unfold evalE
  rw [go, hd, if_neg Bool.false_ne_true, h]
  rfl

theorem const_neg {w : Str} {v u : CVal} (hd : w.contains '.' = false) (h : litOf w = some v) (hs : CVal.sub ⟨.i32, 0⟩ v = some u) : IsConst (.neg (.num w)) u := by
  intro φ env st
  have e : go env (.neg (.num w)) st = some (.val (.i u), st) := by
    rw [go, go, hd, if_neg Bool.false_ne_true, h]
    show ((CVal.sub ⟨.i32, 0⟩ v).map fun w => (R.val (V.i w), st)) = _
    rw [hs]
    rfl
  unfold evalE
  rw [e]
  rfl

theorem neg_u32 {n : Nat} (h1 : 0 < n) (h : n < 4294967296) : CVal.sub ⟨.i32, 0⟩ ⟨.u32, (n : Nat)⟩ = some ⟨.u32, ((4294967296 - n : Nat) : Int)⟩ := by
  unfold CVal.sub
  dsimp only
  rw [show CTy.common .i32 .u32 = .u32 from rfl, show CTy.u32.conv 0 = 0 from rfl, show CTy.u32.conv (n : Int) = n from by show (n : Int) % 4294967296 = n; omega, CVal.arith, if_neg (by decide)]
  have e : CTy.u32.conv (0 - (n : Int)) = ((4294967296 - n : Nat) : Int) := by
    show (0 - (n : Int)) % 4294967296 = _
    omega
  rw [e]

/-- A 32-bit number read as `int`. -/
def asInt (n : Nat) : Int := if n < 2 ^ 31 then n else n - 2 ^ 32

theorem num_noDot {w : Str} (h : ∀ c ∈ w, isWordCh c = true) : w.contains '.' = false := by
  rw [List.contains_eq_any_beq, List.any_eq_false]
  intro c hc e
  have e : '.' = c := by simpa using e
  subst e
  have := h _ hc
  revert this
  decide

/-- A name defined as a number in parentheses. -/
theorem macro_par (hB : Base D) (h : GItems files ops D0 D is) {n w : Str} {v : CVal} (hd : D.lookup n = some (.obj (par [.word w]))) (hw : NumW w) (hv : litOf w = some v) :
    MacroIs files D0 (opsText ops) n v := by
  refine h.macro (ExpP.numObj hB hd hw.1).exp ?_ (const_num (num_noDot hw.2) hv)
  have := (pNumPar hw.1).pa topLevel [] (by simp [NoPost]) (by simp [NoOp])
  rwa [List.append_nil] at this

/-- A name defined as a negative number in parentheses. -/
theorem macro_neg (hB : Base D) (h : GItems files ops D0 D is) {n w : Str} {v u : CVal} (hd : D.lookup n = some (.obj (par [.p ['-'], .word w]))) (hw : NumW w) (hv : litOf w = some v)
    (hs : CVal.sub ⟨.i32, 0⟩ v = some u) : MacroIs files D0 (opsText ops) n u := by
  refine h.macro (ts := par [.p ['-'], .word w]) (ExpP.obj rfl hd (Exp.plain fun x hx => .inr ?_)).exp ?_ (const_neg (num_noDot hw.2) hv hs)
  · have : x = w := by simpa [par, tokWords] using hx
    subst this
    exact hB.num _ hw.1
  · have hp : PA topLevel [.p ['-'], .word w] (.neg (.num w)) := (PA.neg (pNum hw.1).at0).mono (Nat.zero_le _)
    have := (PPst.paren rfl hp).pa topLevel [] (by simp [NoPost]) (by simp [NoOp])
    rwa [List.append_nil] at this

theorem lex_parNeg {w : Str} (hw : NumW w) : lex (" (".toList ++ '-' :: w ++ ")".toList) = par [.p ['-'], .word w] := by
  have := lex_segs [.l " (-", .w w, .l ")"] rfl ⟨hw.word, trivial⟩
  simp only [segText, Seg.text, List.append_nil] at this
  have e : " (".toList ++ '-' :: w ++ ")".toList = " (-".toList ++ (w ++ ")".toList) := by
    simp only [String.reduceToList, List.append_assoc, List.cons_append, List.nil_append]
  rw [e, this]
  rfl

/-- A name defined as `(%d)`. -/
theorem macro_d (hB : Base D) (h : GItems files ops D0 D is) {n : Str} {k : Nat} (hk : k < 2 ^ 32) (hd : D.lookup n = some (.obj (lex (" (".toList ++ fmtD k ++ ")".toList)))) :
    ∃ t, MacroIs files D0 (opsText ops) n ⟨t, asInt k⟩ := by
  unfold fmtD at hd
  unfold asInt
  by_cases q : k ≤ 2147483647
  · rw [if_pos q, lex_parWord (numW_decStr k).word] at hd
    rw [if_pos (show k < 2 ^ 31 by omega)]
    exact ⟨_, macro_par hB h hd (numW_decStr k) (litOf_decStr (by omega))⟩
  · rw [if_neg q, lex_parNeg (numW_decStr _)] at hd
    rw [if_neg (show ¬ k < 2 ^ 31 by omega)]
    have e : ((k : Int) - 2 ^ 32) = -((4294967296 - k : Nat) : Int) := by omega
    rw [e]
    by_cases q2 : 4294967296 - k < 2147483648
    · exact ⟨_, macro_neg hB h hd (numW_decStr _) (litOf_decStr q2) (neg_i32 q2)⟩
    · exact ⟨_, macro_neg hB h hd (numW_decStr _) (litOf_big (by omega) (by omega)) (neg_i64 (by omega) (by omega))⟩

/-- A name defined as `(%dU)`. -/
theorem macro_dU (hB : Base D) (h : GItems files ops D0 D is) {n : Str} {k : Nat} (hk : k < 2 ^ 32) (hd : D.lookup n = some (.obj (lex (" (".toList ++ fmtD k ++ "U)".toList)))) :
    MacroIs files D0 (opsText ops) n ⟨.u32, (k : Nat)⟩ := by
  have e : ∀ a : Str, " (".toList ++ a ++ "U)".toList = " (".toList ++ (a ++ "U".toList) ++ ")".toList := by
    intro a
    simp only [String.reduceToList, List.append_assoc, List.cons_append, List.nil_append]
  have hu : ∀ j, NumW (decStr j ++ "U".toList) := fun j => numW_append (numW_decStr j) (by decide)
  rw [e] at hd
  unfold fmtD at hd
  by_cases q : k ≤ 2147483647
  · rw [if_pos q, lex_parWord (hu k).word] at hd
    exact macro_par hB h hd (hu k) (litOf_decStrU hk)
  · rw [if_neg q, List.cons_append, lex_parNeg (hu _)] at hd
    have e2 : k = 4294967296 - (4294967296 - k) := by omega
    rw [e2]
    exact macro_neg hB h hd (hu _) (litOf_decStrU (by omega)) (neg_u32 (by omega) (by omega))

/-- A name defined as a number. -/
theorem macro_bare (hB : Base D) (h : GItems files ops D0 D is) {n w : Str} {v : CVal} (hd : D.lookup n = some (.obj [.word w])) (hw : NumW w) (hv : litOf w = some v) :
    MacroIs files D0 (opsText ops) n v := by
  refine h.macro (ts := [.word w]) (ExpP.obj rfl hd (Exp.plain fun x hx => .inr ?_)).exp ?_ (const_num (num_noDot hw.2) hv)
  · have : x = w := by simpa [tokWords] using hx
    subst this
    exact hB.num _ hw.1
  · have := (pNum hw.1).pa topLevel [] (by simp [NoPost]) (by simp [NoOp])
    rwa [List.append_nil] at this

/-! ### The table of the header -/

/-- Names of the macros of the header that are no value macros. -/
def constNames (g : GenDesc) (msgs : List Msg) : List Str :=
  [g.verhigh, g.verlow, maxDlcName g, validateName g, initByteName g] ++ (msgs.flatMap fun m => ["_IDE", "_DLC", "_CANID", "_CYC"].map fun s => m.name ++ s.toList) ++
    msgs.flatMap fun m => m.signals.flatMap fun s => ["_CovFactor", "_toS", "_fromS"].map fun x => convBase g s ++ x.toList

/-- Value tables in the order of the header: name of the macro and value. -/
def valEntries (msgs : List Msg) : List (Str × Nat) :=
  msgs.flatMap fun m => if m.frameNotEmpty then m.signals.flatMap fun s => s.valDefs.vpairs.map fun v => (s.name ++ "_".toList ++ m.name ++ "_".toList ++ v.1, v.2) else []

theorem lookup_none {ds : List DefE} {n : Str} (h : ∀ e ∈ ds, e.name ≠ n) : (defsOf ds).lookup n = none := by
  rw [List.lookup_eq_none_iff]
  intro p hp
  obtain ⟨e, he, rfl⟩ := List.mem_map.1 hp
  rw [bne_iff_ne]
  exact fun q => h e he q.symm

theorem defsOf_append (a b : List DefE) (n : Str) : (defsOf (a ++ b)).lookup n = ((defsOf a).lookup n).or ((defsOf b).lookup n) := by
  unfold defsOf
  rw [List.map_append, lookup_append]

theorem map_lookupD {α β : Type} (f : α → β) (l : List (Str × α)) (n : Str) : (l.map fun p => (p.1, f p.2)).lookup n = (l.lookup n).map f := by
  induction l with
  | nil => rfl
  | cons p r ih =>
    obtain ⟨a, b⟩ := p
    rw [List.map_cons, List.lookup_cons, List.lookup_cons]
    cases n == a with
    | true => rfl
    | false => exact ih

/-- Text of a value macro. -/
def valText (k : Nat) : MDef := .obj (lex (" (".toList ++ fmtD k ++ ")".toList))

theorem valMacros_lookup (m : Msg) (s : Sig) (n : Str) :
    (defsOf (valMacros m s)).lookup n = ((s.valDefs.vpairs.map fun v => (s.name ++ "_".toList ++ m.name ++ "_".toList ++ v.1, v.2)).lookup n).map valText := by
  rw [← map_lookupD]
  unfold defsOf valMacros
  rw [List.map_map, List.map_map]
  rfl

theorem or_map {α β : Type} (f : α → β) (a b : Option α) : (a.or b).map f = (a.map f).or (b.map f) := by cases a <;> rfl

theorem sigDefs_lookup (g : GenDesc) (m : Msg) {n : Str} : ∀ (l : List Sig) (seen : List Str), (∀ s ∈ l, ∀ x ∈ ["_CovFactor", "_toS", "_fromS"], convBase g s ++ x.toList ≠ n) →
    (defsOf (sigDefs g m l seen)).lookup n =
      ((l.flatMap fun s => s.valDefs.vpairs.map fun v => (s.name ++ "_".toList ++ m.name ++ "_".toList ++ v.1, v.2)).lookup n).map valText
  | [], _, _ => rfl
  | s :: r, seen, h => by
    have hc : (defsOf (if convNew s seen then convDefs g s else [])).lookup n = none := by
      refine lookup_none fun e he => ?_
      split at he
      · have h := h s (by simp)
        unfold convDefs at he
        rcases List.mem_cons.1 he with rfl | he
        · exact h "_CovFactor" (by simp)
        · rcases List.mem_cons.1 he with rfl | he
          · exact h "_toS" (by simp)
          · rw [List.mem_singleton.1 he]
            exact h "_fromS" (by simp)
      · cases he
    rw [sigDefs, defsOf_append, defsOf_append, hc, Option.none_or, valMacros_lookup, sigDefs_lookup g m r _ fun s hs => h s (by simp [hs]), List.flatMap_cons, lookup_append, or_map]

theorem msgDefs_lookup {m : Msg} {n : Str} (h : ∀ s ∈ ["_IDE", "_DLC", "_CANID", "_CYC"], m.name ++ s.toList ≠ n) : (defsOf (msgDefs m)).lookup n = none := by
  refine lookup_none fun e he => ?_
  unfold msgDefs at he
  rcases List.mem_append.1 he with he | he
  · rcases List.mem_cons.1 he with rfl | he
    · exact h "_IDE" (by simp)
    · rcases List.mem_cons.1 he with rfl | he
      · exact h "_DLC" (by simp)
      · rw [List.mem_singleton.1 he]
        exact h "_CANID" (by simp)
  · split at he
    · rw [List.mem_singleton.1 he]
      exact h "_CYC" (by simp)
    · cases he

theorem hdrDefs_lookup (g : GenDesc) {n : Str} : ∀ (msgs : List Msg) (seen : List Str), (∀ m ∈ msgs, ∀ s ∈ ["_IDE", "_DLC", "_CANID", "_CYC"], m.name ++ s.toList ≠ n) →
    (∀ m ∈ msgs, ∀ s ∈ m.signals, ∀ x ∈ ["_CovFactor", "_toS", "_fromS"], convBase g s ++ x.toList ≠ n) → (defsOf (hdrDefs g msgs seen)).lookup n = ((valEntries msgs).lookup n).map valText
  | [], _, _, _ => rfl
  | m :: r, seen, h1, h2 => by
    have hm := msgDefs_lookup (h1 m (by simp))
    have ih := fun seen => hdrDefs_lookup g r seen (fun m hm => h1 m (by simp [hm])) (fun m hm => h2 m (by simp [hm]))
    unfold hdrDefs
    rw [show valEntries (m :: r) = (if m.frameNotEmpty then m.signals.flatMap fun s => s.valDefs.vpairs.map fun v => (s.name ++ "_".toList ++ m.name ++ "_".toList ++ v.1, v.2) else []) ++ valEntries r from rfl,
      lookup_append, or_map]
    cases m.frameNotEmpty with
    | true =>
      rw [if_pos rfl, defsOf_append, defsOf_append, hm, Option.none_or, sigDefs_lookup g m _ _ (h2 m (by simp)), ih]
      rfl
    | false =>
      rw [if_neg Bool.false_ne_true, defsOf_append, hm, Option.none_or, ih]
      rfl

theorem headerTable_lookup {g : GenDesc} {maxDlc : Nat} {msgs : List Msg} {n : Str} (h0 : D0.lookup n = none) (hn : n ∉ constNames g msgs) :
    (headerTable g maxDlc msgs D0).lookup n = ((valEntries msgs).lookup n).map valText := by
  unfold constNames at hn
  rw [List.mem_append, List.mem_append, not_or, not_or] at hn
  obtain ⟨⟨h1, h2⟩, h3⟩ := hn
  unfold headerTable headerDefs
  rw [addAll_lookup, h0, Option.none_or, defsOf_append, hdrDefs_lookup g msgs [] (fun m hm s hs q => h2 (List.mem_flatMap.2 ⟨m, hm, List.mem_map.2 ⟨s, hs, q⟩⟩))
    (fun m hm s hs x hx q => h3 (List.mem_flatMap.2 ⟨m, hm, List.mem_flatMap.2 ⟨s, hs, List.mem_map.2 ⟨x, hx, q⟩⟩⟩))]
  have : (defsOf (startDefs g maxDlc)).lookup n = none := by
    refine lookup_none fun e he q => h1 ?_
    rw [← q]
    have : e.name ∈ (startDefs g maxDlc).map (·.name) := List.mem_map.2 ⟨e, he, rfl⟩
    exact this
  rw [this, Option.none_or]

/-- Lookup in a list of tables of which those with the name give the same. -/
theorem lookup_flatMap {α β : Type} {f : α → List (Str × β)} {n : Str} {k : β} : ∀ {l : List α}, (∀ x ∈ l, (f x).lookup n = none ∨ (f x).lookup n = some k) →
    (∃ x ∈ l, (f x).lookup n = some k) → (l.flatMap f).lookup n = some k
  | [], _, h => by obtain ⟨x, hx, -⟩ := h; cases hx
  | a :: r, h1, h2 => by
    rw [List.flatMap_cons, lookup_append]
    rcases h1 a (by simp) with q | q
    · rw [q, Option.none_or]
      refine lookup_flatMap (fun x hx => h1 x (by simp [hx])) ?_
      obtain ⟨x, hx, e⟩ := h2
      rcases List.mem_cons.1 hx with rfl | hx
      · rw [q] at e; cases e
      · exact ⟨x, hx, e⟩
    · rw [q]; rfl

theorem table_lookup (p : Str) (l : List (Str × Nat)) (v : Str) : (l.map fun x => (p ++ x.1, x.2)).lookup (p ++ v) = l.lookup v := by
  induction l with
  | nil => rfl
  | cons a r ih =>
    obtain ⟨a, b⟩ := a
    rw [List.map_cons, List.lookup_cons, List.lookup_cons]
    by_cases q : v = a
    · subst q; simp
    · have e1 : (v == a) = false := by simpa using q
      have e2 : (p ++ v == p ++ a) = false := by simpa using q
      rw [e1, e2]
      exact ih

end Verif
