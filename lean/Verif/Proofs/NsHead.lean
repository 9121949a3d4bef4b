import Verif.Proofs.Blocks
import Verif.Spec.DbcMeaning
/-
The second pass over the lines of a file before its statements: the list of keywords after NS_ begins a comment that is given up when the next one begins.
-/
namespace Verif
open Spec

theorem collect_open {start sep acc l : Str} (h : l.getLast? ≠ some ';') : (collect start sep acc l).2 = none := by
  unfold collect
  split
  · rfl
  · dsimp only
    rw [if_neg fun q => h q.2]

theorem comment_open (P : Platform) (s : Scan2) {l : Str} (h : l.getLast? ≠ some ';') :
    (commentStep P s l).msgs = s.msgs ∧ (commentStep P s l).cm = s.cm ∧ (commentStep P s l).attribline = s.attribline ∧ (commentStep P s l).valueline = s.valueline := by
  unfold commentStep parseCommentLine
  have := collect_open (start := "CM_".toList) (sep := ['\n']) (acc := s.commentline) h
  cases hc : collect "CM_".toList ['\n'] s.commentline l with
  | mk acc o =>
    rw [hc] at this
    dsimp only at this
    subst this
    exact ⟨rfl, rfl, rfl, rfl⟩

theorem head_scan (P : Platform) {ls : List Str} (hl : ∀ l ∈ ls, Plain (strTrim P.charMax l)) {s : Scan2} (ha : s.attribline = []) (hv : s.valueline = []) :
    (parseOtherInfo P s ls).msgs = s.msgs ∧ (parseOtherInfo P s ls).cm = s.cm ∧ (parseOtherInfo P s ls).attribline = [] ∧ (parseOtherInfo P s ls).valueline = [] ∧
    (s.commentline = [] → (∀ l ∈ ls, ¬ "CM_".toList <+: strTrim P.charMax l) → (parseOtherInfo P s ls).commentline = []) := by
  unfold parseOtherInfo
  induction ls generalizing s with
  | nil => exact ⟨rfl, rfl, ha, hv, fun q _ => q⟩
  | cons l ls ih =>
    obtain ⟨h1, h2, h3⟩ := hl l List.mem_cons_self
    obtain ⟨a1, a2, a3, a4⟩ := comment_open P s h1
    rw [List.foldl_cons]
    unfold scanLine2
    rw [valueStep_other P (a4.trans hv) h3, attribStep_other P (a3.trans ha) h2]
    obtain ⟨b1, b2, b3, b4, b5⟩ := ih (fun x hx => hl x (List.mem_cons_of_mem _ hx)) (a3.trans ha) (a4.trans hv)
    refine ⟨b1.trans a1, b2.trans a2, b3, b4, fun q hq => b5 ?_ fun x hx => hq x (List.mem_cons_of_mem _ hx)⟩
    rw [commentStep_other P q (hq l List.mem_cons_self)]
    exact q

theorem parseOtherInfo_append (P : Platform) (s : Scan2) (a b : List Str) : parseOtherInfo P s (a ++ b) = parseOtherInfo P (parseOtherInfo P s a) b :=
  List.foldl_append

theorem comment_eq (P : Platform) (s : Scan2) (c l : Str) (h : c = s.commentline ∨ "CM_".toList <+: l) : commentStep P { s with commentline := c } l = commentStep P s l := by
  have e : collect "CM_".toList ['\n'] c l = collect "CM_".toList ['\n'] s.commentline l := by
    rcases h with hc | hc
    · rw [hc]
    · unfold collect
      rw [if_pos (List.isPrefixOf_iff_prefix.2 hc), if_pos (List.isPrefixOf_iff_prefix.2 hc)]
      have : l.length ≠ 0 := by
        obtain ⟨r, rfl⟩ := hc
        exact fun q => nomatch q
      rw [if_neg this, if_neg this]
  unfold commentStep parseCommentLine
  dsimp only
  rw [e]

theorem value_eq (P : Platform) (s : Scan2) (c l : Str) : valueStep P { s with commentline := c } l = { valueStep P s l with commentline := c } := by
  unfold valueStep
  dsimp only
  cases parseValTableLine P s.valueline l with
  | mk acc o => cases o <;> rfl

theorem attrib_eq (P : Platform) (s : Scan2) (c l : Str) : attribStep P { s with commentline := c } l = { attribStep P s l with commentline := c } := by
  unfold attribStep
  dsimp only
  cases parseAttributeLine P s.attribline l with
  | mk acc o => cases o <;> rfl

theorem comment_open_eq (P : Platform) (s : Scan2) (c : Str) {l : Str} (h : l.getLast? ≠ some ';') :
    commentStep P { s with commentline := c } l = { commentStep P s l with commentline := (commentStep P { s with commentline := c } l).commentline } := by
  obtain ⟨a1, a2, a3, a4⟩ := comment_open P s h
  obtain ⟨b1, b2, b3, b4⟩ := comment_open P { s with commentline := c } h
  generalize commentStep P { s with commentline := c } l = x at *
  generalize commentStep P s l = y at *
  obtain ⟨x1, x2, x3, x4, x5⟩ := x
  obtain ⟨y1, y2, y3, y4, y5⟩ := y
  dsimp only at *
  rw [a1, a2, a3, a4, b1, b2, b3, b4]

theorem tail_eq {P : Platform} {ls : List Str} {s : Scan2} {c : Str} (hc : c = s.commentline ∨ CommentFirst (ls.map (strTrim P.charMax))) :
    (parseOtherInfo P { s with commentline := c } ls).msgs = (parseOtherInfo P s ls).msgs := by
  unfold parseOtherInfo
  induction ls generalizing s c with
  | nil => rfl
  | cons l ls ih =>
    rw [List.foldl_cons, List.foldl_cons]
    unfold scanLine2
    by_cases hk : c = s.commentline ∨ "CM_".toList <+: strTrim P.charMax l
    · rw [comment_eq P s c _ hk]
    · have hc2 : CommentFirst ((l :: ls).map (strTrim P.charMax)) := hc.resolve_left fun q => hk (.inl q)
      have hl : (strTrim P.charMax l).getLast? ≠ some ';' := by
        intro q
        obtain ⟨x, hx, hp⟩ := hc2 [] _ _ rfl q
        rw [List.nil_append, List.mem_singleton] at hx
        exact hk (.inr (hx ▸ hp))
      rw [comment_open_eq P s c hl, value_eq, attrib_eq]
      refine ih (.inr fun a x b e q => ?_)
      obtain ⟨y, hy, hp⟩ := hc2 (strTrim P.charMax l :: a) x b (by rw [List.map_cons, e]; rfl) q
      rcases List.mem_cons.1 hy with rfl | hy
      · exact absurd (.inr hp) hk
      · exact ⟨y, hy, hp⟩

theorem parseOtherInfo_eq {P : Platform} {h h' t : List Str} (hh : ∀ l ∈ h, Plain (strTrim P.charMax l)) (hh' : ∀ l ∈ h', Plain (strTrim P.charMax l))
    (hc : (∀ l ∈ h ++ h', ¬ "CM_".toList <+: strTrim P.charMax l) ∨ CommentFirst (t.map (strTrim P.charMax))) (ms : List Msg) (cm : Comment) :
    (parseOtherInfo P { msgs := ms, cm := cm } (h' ++ t)).msgs = (parseOtherInfo P { msgs := ms, cm := cm } (h ++ t)).msgs := by
  rw [parseOtherInfo_append, parseOtherInfo_append]
  obtain ⟨a1, a2, a3, a4, a5⟩ := head_scan P hh (s := { msgs := ms, cm := cm }) rfl rfl
  obtain ⟨b1, b2, b3, b4, b5⟩ := head_scan P hh' (s := { msgs := ms, cm := cm }) rfl rfl
  have e : parseOtherInfo P { msgs := ms, cm := cm } h' = { parseOtherInfo P { msgs := ms, cm := cm } h with commentline := (parseOtherInfo P { msgs := ms, cm := cm } h').commentline } := by
    generalize parseOtherInfo P { msgs := ms, cm := cm } h' = x at *
    generalize parseOtherInfo P { msgs := ms, cm := cm } h = y at *
    obtain ⟨x1, x2, x3, x4, x5⟩ := x
    obtain ⟨y1, y2, y3, y4, y5⟩ := y
    dsimp only at *
    rw [a1, a2, a3, a4, b1, b2, b3, b4]
  rw [e]
  refine tail_eq (hc.imp (fun q => ?_) id)
  rw [a5 rfl fun l hl => q l (List.mem_append_left _ hl), b5 rfl fun l hl => q l (List.mem_append_right _ hl)]

end Verif
