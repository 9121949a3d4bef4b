import Verif.Proofs.StmtOrder
import Verif.Props.SigOrder
/-
C79: the order of the statements after the messages.
-/
namespace Verif
open Spec

/-- The line (trimmed) says nothing about versions, messages, signals and transmitters. -/
structure Spec.Inert (P : Platform) (l : Str) : Prop where
  ver : findVersion P l = .ok none
  header : IsHeader l = false
  tx : IsTx P l = false
  sig : isSignalLine l = true → parseSignalLine P l = .ok none

/-- The second file has the statements `S` in another order, `S'`; the lines `pre` before them are the same.  The statements may go over several lines, which say
nothing about messages and signals, and any two statements are about different things. -/
structure Spec.StmtsReordered (P : Platform) (text text' : Str) (xs : List FileStmt) : Prop where
  split : ∃ (pre body body' : List Str) (hs : List Block) (hxs : List FileStmt) (S S' : List (Block × FileStmt)),
    getLines text = pre ++ body ∧ getLines text' = pre ++ body' ∧ xs = hxs ++ S.map (·.2) ∧
    EndsIn (fileLines P text) (hs ++ S.map (·.1)) ∧ EndsIn (fileLines P text') (hs ++ S'.map (·.1)) ∧ List.Forall₂ Spells hs hxs ∧
    body.map (strTrim P.charMax) = S.flatMap (·.1.lines) ∧ body'.map (strTrim P.charMax) = S'.flatMap (·.1.lines) ∧
    (∀ p ∈ S, Spells p.1 p.2) ∧ S.Perm S' ∧ (S.map (·.2)).Pairwise StmtsApart ∧ ∀ l ∈ body, Inert P (strTrim P.charMax l)

theorem scan_inert {P : Platform} {ls : List Str} (h : ∀ l ∈ ls, Inert P (strTrim P.charMax l)) (st : Scan) : scanLines P st ls = .ok st := by
  induction ls with
  | nil => rfl
  | cons l ls ih =>
    have hl := h l List.mem_cons_self
    rw [scanLines, scan_plain hl.ver hl.header hl.tx]
    have e : stepCur P st.cur (strTrim P.charMax l) = .ok st.cur := by
      unfold stepCur
      cases st.cur with
      | none => rfl
      | some m =>
        dsimp only
        split
        · rename_i q
          rw [hl.sig q]
        · rfl
    rw [e]
    exact ih fun x hx => h x (List.mem_cons_of_mem _ hx)

theorem parse_inert {P : Platform} {pre ls : List Str} (h : ∀ l ∈ ls, Inert P (strTrim P.charMax l)) : parseMessageInfo P {} (pre ++ ls) = parseMessageInfo P {} pre := by
  unfold parseMessageInfo
  rw [scanLines_append]
  cases scanLines P { list := {} } pre with
  | ok st => dsimp only; rw [scan_inert h]
  | ub => rfl
  | throws => rfl

theorem spells_pairs {S : List (Block × FileStmt)} (h : ∀ p ∈ S, Spells p.1 p.2) : List.Forall₂ Spells (S.map (·.1)) (S.map (·.2)) := by
  induction S with
  | nil => exact .nil
  | cons p S ih => exact .cons (h p List.mem_cons_self) (ih fun q hq => h q (List.mem_cons_of_mem _ hq))

theorem flatMap_pairs (S : List (Block × FileStmt)) : (S.map (·.1)).flatMap Block.lines = S.flatMap (·.1.lines) := by
  rw [List.flatMap_map]

/-- The scanner returns the same list for both files. -/
theorem C79_scanner_partial (P : Platform) (text text' : Str) (xs : List FileStmt) (hr : StmtsReordered P text text' xs) (out : DbcList) (h : trimDbcText P text = .ok out)
    (hids : IdsDistinct out.msgs) (hk : ∀ x ∈ xs, ∀ id, x.about = some id → Known out.msgs id) : trimDbcText P text' = .ok out := by
  obtain ⟨pre, body, body', hs, hxs, S, S', e, e', rfl, hl, hl', p2, b1, b1', b2, hp, ha, hi⟩ := hr.split
  have hi' : ∀ l ∈ body', Inert P (strTrim P.charMax l) := by
    intro l hl
    have hm : strTrim P.charMax l ∈ body'.map (strTrim P.charMax) := List.mem_map_of_mem hl
    rw [b1', List.mem_flatMap] at hm
    obtain ⟨p, hp1, hp2⟩ := hm
    have hm : strTrim P.charMax l ∈ body.map (strTrim P.charMax) := by
      rw [b1, List.mem_flatMap]
      exact ⟨p, hp.mem_iff.2 hp1, hp2⟩
    obtain ⟨l2, h2, h3⟩ := List.mem_map.1 hm
    exact h3 ▸ hi l2 h2
  obtain ⟨l, q1, q2⟩ := file_effect h hids hl (Fix.forall2_append p2 (spells_pairs b2)) hk
  have q1' : parseMessageInfo P {} (getLines text') = .ok l := by
    rw [e', parse_inert hi', ← parse_inert (pre := pre) hi, ← e]
    exact q1
  have h0 := h
  unfold trimDbcText at h
  rw [q1] at h
  cases h
  obtain ⟨out', ho'⟩ : ∃ out', trimDbcText P text' = .ok out' := by
    unfold trimDbcText
    rw [q1']
    exact ⟨_, rfl⟩
  have hc : (parseOtherInfo P { msgs := l.msgs, cm := { msgId := P.junk } } (getLines text)).msgs.map Msg.core = out'.msgs.map Msg.core := by
    have h1 := ho'
    unfold trimDbcText at h1
    rw [q1'] at h1
    cases h1
    rw [core_parseOtherInfo, core_parseOtherInfo]
  obtain ⟨l', r1, r2⟩ := file_effect ho' (distinct_of_core hc hids) hl' (Fix.forall2_append p2 (spells_pairs fun p hp' => b2 p (hp.mem_iff.2 hp'))) (fun x hx id q =>
    known_of_core hc (hk x ((List.mem_append.1 hx).elim (List.mem_append_left _) fun hx => List.mem_append_right _ ((hp.map _).mem_iff.2 hx)) id q))
  have hll : l' = l := by
    rw [q1'] at r1
    cases r1
    rfl
  subst hll
  rw [ho']
  have h1 := ho'
  unfold trimDbcText at h1
  rw [q1'] at h1
  cases h1
  dsimp only at q2 r2
  rw [r2, q2]
  refine congrArg (fun x => Res.ok { l' with msgs := x }) (List.map_congr_left fun m _ => ?_)
  rw [List.foldl_append, List.foldl_append]
  exact (stmts_perm P (hp.map _) ha _).symm

/-- **C79**, for statements about different things (and with the other conditions of `StmtsReordered`): for every command line the run on the second file ends the
same way and writes the same files in the same order. -/
theorem C79_run_partial (H : RunHost) (dbc' : Str → Option (Option Str)) (args : List Str) (path text text' : Str) (ha : Asks args path)
    (h1 : H.dbc path = some (some text)) (h2 : dbc' path = some (some text')) (xs : List FileStmt) (hr : StmtsReordered H.plat text text' xs) (out : DbcList)
    (ho : trimDbcText H.plat text = .ok out) (hids : IdsDistinct out.msgs) (hk : ∀ x ∈ xs, ∀ id, x.about = some id → Known out.msgs id) :
    runApp { H with dbc := dbc' } args = runApp H args := by
  rw [runApp_read ha h1, runApp_read (H := { H with dbc := dbc' }) ha h2, ho, C79_scanner_partial H.plat text text' xs hr out ho hids hk]
  rfl

/-! ### Examples -/

/-- A check for `StmtsApart`; a checksum tag needs a letter `h`. -/
def apartB (x y : FileStmt) : Bool :=
  x.about == none || y.about == none || x.about != y.about ||
  match x, y with
  | .sigComment _ _ n t, .sigComment _ _ n' t' =>
    n != n' && n != n' ++ "_ro".toList && n' != n ++ "_ro".toList && !(hasSub rollText t && hasSub rollText t') && !(t.contains 'h' && t'.contains 'h')
  | .msgComment _ _ _, .msgComment _ _ _ => false
  | .cycle _ _ _, .cycle _ _ _ => false
  | .values _ _ n _, .values _ _ n' _ => n != n'
  | _, _ => true

theorem csm_s {t : Str} (h : HasCsm t) : t.contains 'h' = true := by
  obtain ⟨a, b, c, rfl⟩ := h
  rw [List.contains_iff_mem]
  have h0 : 'h' ∈ "Checksum:".toList := by decide
  exact List.mem_append_left _ (List.mem_append_right _ (List.mem_cons_of_mem _ (List.mem_append_left _ h0)))

theorem apart_of {x y : FileStmt} (h : apartB x y = true) : StmtsApart x y := by
  unfold apartB at h
  simp only [Bool.or_eq_true, beq_iff_eq, bne_iff_ne] at h
  rcases h with ((h | h) | h) | h
  · exact .inl h
  · exact .inr (.inl h)
  · exact .inr (.inr (.inl h))
  · refine .inr (.inr (.inr ?_))
    cases x <;> cases y <;> first | trivial | exact bne_iff_ne.1 h | exact absurd h (by decide) | skip
    rename_i t _ _ _ t'
    simp only [Bool.and_eq_true, bne_iff_ne, Bool.not_eq_true', Bool.and_eq_false_iff] at h
    obtain ⟨⟨⟨⟨h1, h2⟩, h3⟩, h4⟩, h5⟩ := h
    refine ⟨h1, h2, h3, fun q => ?_, fun q => ?_⟩
    · rw [(hasRoll_iff _).1 q.1, (hasRoll_iff _).1 q.2] at h4
      exact h4.elim (fun q => nomatch q) fun q => nomatch q
    · rw [csm_s q.1, csm_s q.2] at h5
      exact h5.elim (fun q => nomatch q) fun q => nomatch q

namespace Fix

def stHead : List Str :=
  ["VERSION \"2.7\"", "BU_: ECU Dash", "BO_ 2147484672 Motor: 8 ECU", " SG_ Cnt : 0|4@1+ (1,0) [0|15] \"\" Dash", " SG_ Torque : 19|12@0- (1,0) [-2048|2047] \"Nm\" Dash",
   " SG_ Crc : 56|8@1+ (1,0) [0|255] \"\" Dash", "BO_ 100 Gear: 2 ECU", " SG_ Ratio : 0|10@1+ (2,-40) [0|1] \"\" Dash"].map String.toList

/-- Cycle times, a comment over two lines, a checksum, a rolling counter and a value table. -/
def stPairs : List (Block × FileStmt) :=
  [(.stmt .attr "BA_ \"GenMsgCycleTime\" BO_ 2147484672 50;".toList [], .cycle 1024 true 50),
   (.stmt .attr "BA_ \"GenMsgCycleTime\" BO_ 100 20;".toList [], .cycle 100 false 20),
   (.stmt .comment "CM_ SG_ 2147484672 Torque \"negative : braking".toList ["positive : driving\";".toList], .sigComment 1024 true "Torque".toList "negative : braking\npositive : driving".toList),
   (.stmt .comment "CM_ SG_ 2147484672 Crc \"sum <Checksum:XOR8:1>\";".toList [], .sigComment 1024 true "Crc".toList ("sum ".toList ++ (Spec.csmText "XOR8".toList 1 ++ []))),
   (.stmt .comment "CM_ SG_ 2147484672 Cnt \"<RollingCounter>\";".toList [], .sigComment 1024 true "Cnt".toList "<RollingCounter>".toList),
   (.stmt .value "VAL_ 2147484672 Cnt 15 \"last\" ;".toList [], .values 1024 true "Cnt".toList [(15, "last".toList)])]

def stLines (S : List (Block × FileStmt)) : List Str := S.flatMap (·.1.lines)
def stText : Str := unlines (stHead ++ stLines stPairs)
def stText' : Str := unlines (stHead ++ stLines stPairs.reverse)

theorem stSpells : ∀ p ∈ stPairs, Spells p.1 p.2 := by
  intro p hp
  unfold stPairs at hp
  simp only [List.mem_cons, List.not_mem_nil, or_false] at hp
  rcases hp with rfl | rfl | rfl | rfl | rfl | rfl
  · exact talk4
  · exact talk5
  · exact talk6
  · exact talk8
  · exact talk9
  · exact talk10

theorem stHeadSpells : List.Forall₂ Spells (stHead.map .other) (List.replicate 8 .silent) := by
  have h : ∀ l ∈ stHead, ¬ Kw.comment.text <+: l ∧ ¬ Kw.attr.text <+: l ∧ ¬ Kw.value.text <+: l := by decide +kernel
  exact others_spell stHead fun l hl k => match k with
    | .comment => (h l hl).1
    | .attr => (h l hl).2.1
    | .value => (h l hl).2.2

def stXs : List FileStmt := List.replicate 8 .silent ++ stPairs.map (·.2)

end Fix

theorem stReordered : StmtsReordered platIns Fix.stText Fix.stText' Fix.stXs := by
  refine ⟨Fix.stHead, Fix.stLines Fix.stPairs, Fix.stLines Fix.stPairs.reverse, Fix.stHead.map .other, List.replicate 8 .silent, Fix.stPairs, Fix.stPairs.reverse,
    by decide +kernel, by decide +kernel, rfl, Fix.ends_all (by decide +kernel), Fix.ends_all (by decide +kernel), Fix.stHeadSpells, by decide +kernel, by decide +kernel, Fix.stSpells, (List.reverse_perm _).symm, ?_, ?_⟩
  · have h : decide ((Fix.stPairs.map (·.2)).Pairwise fun x y => apartB x y = true) = true := by decide +kernel
    exact (of_decide_eq_true h).imp apart_of
  · have h : ((Fix.stLines Fix.stPairs).all fun l => decide (findVersion platIns (strTrim platIns.charMax l) = .ok none) && !IsHeader (strTrim platIns.charMax l) &&
        !IsTx platIns (strTrim platIns.charMax l) && (!isSignalLine (strTrim platIns.charMax l) || decide (parseSignalLine platIns (strTrim platIns.charMax l) = .ok none))) = true := by decide +kernel
    intro l hl
    have h3 := List.all_eq_true.1 h l hl
    simp only [Bool.and_eq_true, Bool.or_eq_true, Bool.not_eq_true', decide_eq_true_eq] at h3
    obtain ⟨⟨⟨a, b⟩, c⟩, d⟩ := h3
    exact ⟨a, b, c, fun q => d.elim (fun q' => absurd (q.symm.trans q') (by decide)) id⟩

/-- The hypotheses of `C79_run_partial` hold of a file with two messages and six statements. -/
example (out : DbcList) (ho : trimDbcText platIns Fix.stText = .ok out) : runApp (Fix.openHost Fix.stText') Fix.dirArgs = runApp (Fix.openHost Fix.stText) Fix.dirArgs := by
  have hi : (match trimDbcText platIns Fix.stText with
      | .ok o => o.msgs.map (·.msgId)
      | _ => []) = [1024, 100] := by decide +kernel
  rw [ho] at hi
  have hi : out.msgs.map (·.msgId) = [1024, 100] := hi
  refine C79_run_partial (Fix.openHost Fix.stText) (Fix.otherDbc Fix.stText') Fix.dirArgs "in/my.dbc".toList Fix.stText Fix.stText' ((asks_iff _ _).2 (by decide +kernel)) rfl rfl Fix.stXs
    stReordered out ho ?_ fun x hx id e => ?_
  · have h : (out.msgs.map (·.msgId)).Pairwise (· ≠ ·) := by rw [hi]; decide
    exact List.pairwise_map.1 h
  · have h : ∀ x ∈ Fix.stXs, x.about = none ∨ x.about = some 1024 ∨ x.about = some 100 := by decide +kernel
    have hm : id ∈ out.msgs.map (·.msgId) := by
      rw [hi]
      rcases h x hx with q | q | q <;> rw [q] at e
      · cases e
      · cases e; decide
      · cases e; decide
    obtain ⟨m, h1, h2⟩ := List.mem_map.1 hm
    exact ⟨m, h1, h2⟩

/-- All statements have their effect on the messages of this file. -/
example : (match trimDbcText platIns Fix.stText with
    | .ok o => o.msgs.map fun m => (m.cycle, m.rollSig, m.csmSig, m.signals.map fun s => (s.commentText.length, s.valDefs.vpairs.length))
    | _ => []) = [(50, some 0, some 2, [(16, 1), (37, 0), (21, 0)]), (20, none, none, [(0, 0)])] := by decide +kernel

namespace Fix

def rcHead : List Str := ["BO_ 5 Y: 8 B", " SG_ T : 0|4@1+ (1,0) [0|0] \"\" B", " SG_ U : 4|4@1+ (1,0) [0|0] \"\" B"].map String.toList
def rcA : Block × FileStmt := (.stmt .comment "CM_ SG_ 5 T \"<RollingCounter>\";".toList [], .sigComment 5 false "T".toList "<RollingCounter>".toList)
def rcB : Block × FileStmt := (.stmt .comment "CM_ SG_ 5 U \"<RollingCounter>\";".toList [], .sigComment 5 false "U".toList "<RollingCounter>".toList)
def rcText : Str := unlines (rcHead ++ stLines [rcA, rcB])
def rcText' : Str := unlines (rcHead ++ stLines [rcB, rcA])

theorem rcSpellsA : Spells rcA.1 rcA.2 := spells_one (by decide) (by decide +kernel) ⟨rfl, by decide, by decide +kernel, by decide +kernel, by decide +kernel, by decide +kernel⟩
theorem rcSpellsB : Spells rcB.1 rcB.2 := spells_one (by decide) (by decide +kernel) ⟨rfl, by decide, by decide +kernel, by decide +kernel, by decide +kernel, by decide +kernel⟩

end Fix

/-- **C79** is false in full: of two comments that make two signals of a message the rolling counter, the later one counts. -/
theorem C79_refuted : ∃ (H : RunHost) (dbc' : Str → Option (Option Str)) (args : List Str) (path text text' : Str) (pre : List Str) (a b : Block × FileStmt) (files files' : List (Str × Str)) (p : Str),
    SortsByStart H.plat ∧ (∀ l, SortedBy (H.sort l) l) ∧ (∀ p, H.canOpen p = true) ∧ H.dbc path = some (some text) ∧ dbc' path = some (some text') ∧ Asks args path ∧
    getLines text = pre ++ a.1.lines ++ b.1.lines ∧ getLines text' = pre ++ b.1.lines ++ a.1.lines ∧ Spells a.1 a.2 ∧ Spells b.1 b.2 ∧
    runApp H args = .done files ∧ runApp { H with dbc := dbc' } args = .done files' ∧ onDisk files' p ≠ onDisk files p := by
  have h : Fix.differ "gen/lib/drv.h".toList (runApp (Fix.openHost Fix.rcText) Fix.dirArgs) (runApp (Fix.openHost Fix.rcText') Fix.dirArgs) = true := by decide +kernel
  cases h1 : runApp (Fix.openHost Fix.rcText) Fix.dirArgs with
  | done files =>
    cases h2 : runApp (Fix.openHost Fix.rcText') Fix.dirArgs with
    | done files' =>
      rw [h1, h2] at h
      exact ⟨Fix.openHost Fix.rcText, Fix.otherDbc Fix.rcText', Fix.dirArgs, "in/my.dbc".toList, Fix.rcText, Fix.rcText', Fix.rcHead, Fix.rcA, Fix.rcB, files, files',
        "gen/lib/drv.h".toList, platIns_sorts, Fix.insSort_ok, fun _ => rfl, rfl, rfl, (asks_iff _ _).2 (by decide +kernel), by decide +kernel, by decide +kernel, Fix.rcSpellsA, Fix.rcSpellsB,
        h1, h2, Ne.symm (bne_iff_ne.1 ((Bool.and_eq_true _ _).mp h).2)⟩
    | _ => rw [h1, h2] at h; cases h
  | _ => rw [h1] at h; cases h

end Verif
