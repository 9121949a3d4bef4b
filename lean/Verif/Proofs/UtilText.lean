import Verif.Proofs.TreeText
import Verif.Proofs.VersionRead
/-
The generated util files, read by the preprocessor and the C parser.
-/
namespace Verif
open Spec

variable {files : List (Str × Str)} {D D' D'' D0 : Defs} {us vs : List Tok}

/-! ### Texts of several lines -/

/-- The text gives the tokens `us`. -/
def GenT (files : List (Str × Str)) (t : Str) (D : Defs) (us : List Tok) : Prop :=
  ∃ ls, PPL t ls ∧ ∀ out, Run files ls ⟨D, out, false⟩ ⟨D, out ++ us, false⟩

theorem GenT.nil : GenT files [] D [] := ⟨[], PPL.nil, fun out => by
  rw [List.append_nil]
  exact Run.nil _⟩

theorem GenT.append {s t : Str} (h1 : GenT files s D us) (h2 : GenT files t D vs) : GenT files (s ++ t) D (us ++ vs) := by
  obtain ⟨k, o1, r1⟩ := h1
  obtain ⟨l, o2, r2⟩ := h2
  refine ⟨k ++ l, o1.append o2, fun out => ?_⟩
  rw [← List.append_assoc]
  exact (r1 out).append (r2 _)

theorem GenT.gen {t : Str} (h : GenT files t D us) (hl : t.getLast? = some '\n') : Gen files [.append t] D D us := by
  obtain ⟨ls, p, r⟩ := h
  refine ⟨ls, ⟨t, ?_, p⟩, r⟩
  have := emits_append t
  unfold lineText at this
  rwa [hl] at this

theorem Gen.toAppend {t : Str} (h : Gen files [.appendF t] D D' us) (hl : t.length ≤ 9999) : Gen files [.append t] D D' us := by
  obtain ⟨ls, ⟨u, e, p⟩, r⟩ := h
  have : u = lineText t := by
    have := emits_unique e (emits_appendF t)
    rwa [printLoc_short hl] at this
  subst this
  exact ⟨ls, ⟨_, emits_append t, p⟩, r⟩

theorem notDir_spaces {x : Str} (n : Nat) (h : NotDir x) : NotDir (List.replicate n ' ' ++ x) := by
  intro r e
  refine h r ?_
  rw [← e]
  induction n with
  | zero => rfl
  | succ n ih =>
    rw [List.replicate_succ, List.cons_append]
    unfold dropBlank at ih ⊢
    rw [List.dropWhile_cons_of_pos (by decide)]
    exact ih (by
      rw [List.replicate_succ, List.cons_append] at e
      unfold dropBlank at e
      rwa [List.dropWhile_cons_of_pos (by decide)] at e)

/-- An indented line. -/
theorem GenT.line {t : Str} {ts : List Tok} (n : Nat) (l : List Seg) (hL : t = segText l) (hw : SegsW l) (ht : TextsPlain l) (hx : ExpP D [] ts us) (et : segToks l = ts)
    (hp : litsPlain l = true := by rfl) (hb : segsB l = true := by rfl) (hh : noHash l = true := by rfl) :
    GenT files (List.replicate n ' ' ++ t ++ ['\n']) D us := by
  subst hL
  refine ⟨_, PPL.plain ((plain_spaces n).append (plain_segs hp hw ht)), fun out => ?_⟩
  refine Run.text (notDir_spaces n (notDir_segs hh hw)) ?_
  rw [lex_spaces, lex_segs l hb hw, et]
  exact hx.exp

/-! ### Names -/

/-- Words of the util files that the other files do not have. -/
def utilWords : List Str := ["if", "else", "recid", "_id", "d", "dlc", "extern"].map String.toList

/-- Numbers and the fixed words of the util files are no macros. -/
structure UBase (D : Defs) : Prop extends Base D where
  util : ∀ w ∈ utilWords, D.lookup w = none

def utilText (ts : List Tok) : Bool := (tokWords ts).all fun w => inNumber w || codeWords.contains w || utilWords.contains w

theorem UBase.lit (hB : UBase D) (s : String) (h : utilText (lex s.toList) = true := by decide +kernel) :
    ExpP D [] (lex s.toList) (lex s.toList) := by
  refine ExpP.plain fun w hw => .inr ?_
  have := List.all_eq_true.mp h w hw
  rcases Bool.or_eq_true_iff.mp this with h | h
  · rcases Bool.or_eq_true_iff.mp h with h | h
    · exact hB.num w h
    · exact hB.code w (by simpa using h)
  · exact hB.util w (by simpa using h)

theorem UBase.hex (hB : UBase D) (n : Nat) : ExpP D [] [.word (hexU n)] [.word (hexU n)] := ExpP.name (hB.num _ (numW_hexU n).1)

/-! ### The search tree -/

/-- What is needed of a message that is called. -/
structure CallOk (drv : Str) (D : Defs) (m : Msg) : Prop where
  name : IsIdent m.name
  mac : D.lookup m.name = none
  call : D.lookup (callName drv m) = none

theorem callW {drv : Str} {m : Msg} (hd : IsIdent drv) (h : IsIdent m.name) : IsWord (callName drv m) := by
  refine ⟨fun e => ?_, fun c hc => ?_⟩
  · have e := congrArg List.length e
    unfold callName at e
    rw [List.length_append, List.length_append, List.length_append] at e
    have : "Unpack_".toList.length = 7 := rfl
    rw [List.length_nil] at e
    omega
  unfold callName at hc
  have lit : ∀ {s : Str}, s.all isWordCh = true → ∀ c ∈ s, isWordCh c = true := fun h => List.all_eq_true.1 h
  rcases List.mem_append.1 hc with hc | hc
  · rcases List.mem_append.1 hc with hc | hc
    · rcases List.mem_append.1 hc with hc | hc
      · exact lit (s := "Unpack_".toList) (by decide) c hc
      · exact (words_of_ident h).2 c hc
    · exact lit (s := "_".toList) (by decide) c hc
  · exact (words_of_ident hd).2 c hc

/-- The messages of a line. -/
def lineMsgs : RLine → List Msg
  | .call m => [m]
  | _ => []

theorem line_text (hB : UBase D) {drv : Str} (hd : IsIdent drv) (n : Nat) (x : RLine) (hm : ∀ m ∈ lineMsgs x, CallOk drv D m) :
    GenT files (List.replicate n ' ' ++ x.text drv ++ ['\n']) D (lineToks drv x) := by
  cases x with
  | ifOpen c =>
    cases c with
    | eq i =>
      exact GenT.line n [.l "if (_id == ", .w (hexU i), .l ") {"] (by unfold RLine.text RCond.text hexU; seg_eqc) ⟨(numW_hexU i).word, trivial⟩ trivial
        ((hB.lit "if (_id == ").append ((hB.hex i).append (hB.lit ") {"))) rfl
    | range a b =>
      exact GenT.line n [.l "if ((_id >= ", .w (hexU a), .l ") && (_id < ", .w (hexU b), .l ")) {"] (by unfold RLine.text RCond.text hexU; seg_eqc)
        ⟨(numW_hexU a).word, (numW_hexU b).word, trivial⟩ trivial
        ((hB.lit "if ((_id >= ").append ((hB.hex a).append ((hB.lit ") && (_id < ").append ((hB.hex b).append (hB.lit ")) {"))))) rfl
  | elseIf c =>
    cases c with
    | eq i =>
      exact GenT.line n [.l "} else if (_id == ", .w (hexU i), .l ") {"] (by unfold RLine.text RCond.text hexU; seg_eqc) ⟨(numW_hexU i).word, trivial⟩ trivial
        ((hB.lit "} else if (_id == ").append ((hB.hex i).append (hB.lit ") {"))) rfl
    | range a b =>
      exact GenT.line n [.l "} else if ((_id >= ", .w (hexU a), .l ") && (_id < ", .w (hexU b), .l ")) {"] (by unfold RLine.text RCond.text hexU; seg_eqc)
        ⟨(numW_hexU a).word, (numW_hexU b).word, trivial⟩ trivial
        ((hB.lit "} else if ((_id >= ").append ((hB.hex a).append ((hB.lit ") && (_id < ").append ((hB.hex b).append (hB.lit ")) {"))))) rfl
  | els => exact GenT.line n [.l "} else {"] (by unfold RLine.text; seg_eqc) trivial trivial ((hB.lit "} else {").append ExpP.nil) rfl
  | close => exact GenT.line n [.l "}"] (by unfold RLine.text; seg_eqc) trivial trivial ((hB.lit "}").append ExpP.nil) rfl
  | call m =>
    have h := hm m (by simp [lineMsgs])
    exact GenT.line n [.l "recid = ", .w (callName drv m), .l "(&(_m->", .w m.name, .l "), _d, dlc_);"] (by unfold RLine.text callName; seg_eqc)
      ⟨callW hd h.name, words_of_ident h.name, trivial⟩ trivial
      ((hB.lit "recid = ").append ((ExpP.name h.call).append ((hB.lit "(&(_m->").append ((ExpP.name h.mac).append (hB.lit "), _d, dlc_);"))))) rfl

theorem lines_text (hB : UBase D) {drv : Str} (hd : IsIdent drv) (ls : List (Nat × RLine)) (hm : ∀ p ∈ ls, ∀ m ∈ lineMsgs p.2, CallOk drv D m) :
    GenT files (printCode drv ls) D (ls.flatMap fun p => lineToks drv p.2) := by
  induction ls with
  | nil => exact GenT.nil
  | cons p r ih =>
    have h1 := line_text (files := files) hB hd p.1 p.2 (hm p (by simp))
    exact h1.append (ih fun q hq => hm q (by simp [hq]))

theorem printCode_last (drv : Str) {ls : List (Nat × RLine)} (h : ls ≠ []) : (printCode drv ls).getLast? = some '\n' := by
  obtain ⟨a, x, rfl⟩ : ∃ a x, ls = a ++ [x] := ⟨ls.dropLast, ls.getLast h, (List.dropLast_concat_getLast h).symm⟩
  unfold printCode
  rw [List.flatMap_append, List.flatMap_cons, List.flatMap_nil, List.append_nil, List.getLast?_append, List.getLast?_append]
  rfl

/-- Messages of a tree. -/
def treeMsgs : CTree → List Msg
  | .null => []
  | .cond _ a b => treeMsgs a ++ treeMsgs b
  | .express _ m => [m]
  | .single m => [m]

theorem writeCode_msgs (t : CTree) : ∀ i, ∀ p ∈ writeCode t i, ∀ m ∈ lineMsgs p.2, m ∈ treeMsgs t := by
  induction t with
  | null => intro i p hp; cases hp
  | express c m =>
    intro i p hp m' hm'
    rw [writeCode] at hp
    have := List.mem_singleton.1 hp
    subst this
    exact hm'
  | single m =>
    intro i p hp m' hm'
    rw [writeCode] at hp
    have := List.mem_singleton.1 hp
    subst this
    exact hm'
  | cond c a b ih1 ih2 =>
    intro i p hp m hm
    rw [treeMsgs, List.mem_append]
    rw [writeCode.eq_def] at hp
    dsimp only at hp
    rcases List.mem_cons.1 hp with rfl | hp
    · cases hm
    · rcases List.mem_append.1 hp with hp | hp
      · exact .inl (ih1 _ p hp m hm)
      · right
        have key : ∀ {x : Nat × RLine} {q : List (Nat × RLine)} {z : Nat × RLine}, lineMsgs x.2 = [] → lineMsgs z.2 = [] →
            p ∈ x :: (q ++ [z]) → p ∈ q := by
          intro x q z hx hz hp
          rcases List.mem_cons.1 hp with rfl | hp
          · rw [hx] at hm; cases hm
          · rcases List.mem_append.1 hp with hp | hp
            · exact hp
            · have := List.mem_singleton.1 hp
              subst this
              rw [hz] at hm; cases hm
        cases b with
        | null =>
          have := List.mem_singleton.1 hp
          subst this
          cases hm
        | express c' m' => exact ih2 (i + 1) p (key rfl rfl hp) m hm
        | single m' => exact ih2 (i + 1) p (key rfl rfl hp) m hm
        | cond c' h' l' => exact ih2 (i + 1) p (key rfl rfl hp) m hm

theorem fillTree_msgs {list : List Msg} : ∀ {fuel l h : Nat} {s : Bool} {t : CTree}, fillTree list fuel l h s = some t → ∀ m ∈ treeMsgs t, m ∈ list := by
  intro fuel
  induction fuel with
  | zero => intro l h s t e; cases e
  | succ fuel ih =>
    intro l h s t e m hm
    rw [fillTree] at e
    dsimp only at e
    split at e
    · cases e; cases hm
    · split at e
      · obtain ⟨x, hx, rfl⟩ := Option.map_eq_some_iff.1 e
        have : m = x := by simpa [treeMsgs] using hm
        subst this
        exact List.mem_of_getElem? hx
      · split at e
        · simp only [Option.bind_eq_bind, Option.bind_eq_some_iff, Option.pure_def, Option.some.injEq] at e
          obtain ⟨a, _, b, _, hi, h1, lo, h2, rfl⟩ := e
          rcases List.mem_append.1 hm with hm | hm
          · exact ih h1 m hm
          · exact ih h2 m hm
        · obtain ⟨x, hx, rfl⟩ := Option.map_eq_some_iff.1 e
          have : m = x := by simpa [treeMsgs] using hm
          subst this
          exact List.mem_of_getElem? hx

end Verif
