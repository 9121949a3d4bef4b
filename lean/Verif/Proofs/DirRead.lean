import Verif.Proofs.DirRun
import Verif.Proofs.UnitRun
/-
Pieces of the files of a directory: what they declare, files read once, conditionals around `#include`.
-/
namespace Verif
open Spec

variable {dir : List (Str × Str)} {cur : Str} {D D' D'' : Defs} {a b : List WOp} {us vs : List Tok} {I I' I'' : List Str → Prop} {k l : List Spec.Item}

/-- In the directory, the printed lines in the file `cur` declare `l`. -/
def TItems (dir : List (Str × Str)) (cur : Str) (I I' : List Str → Prop) (ops : List WOp) (D D' : Defs) (l : List Spec.Item) : Prop :=
  ∃ us, TGen dir cur I I' ops D D' us ∧ PItems us l

theorem TItems.nil : TItems dir cur I I [] D D [] := ⟨[], TGen.nil, PItems.nil⟩

theorem TItems.append (h1 : TItems dir cur I I' a D D' k) (h2 : TItems dir cur I' I'' b D' D'' l) : TItems dir cur I I'' (a ++ b) D D'' (k ++ l) := by
  obtain ⟨us, g1, p1⟩ := h1
  obtain ⟨vs, g2, p2⟩ := h2
  exact ⟨us ++ vs, g1.append g2, p1.append p2⟩

theorem TItems.eqI (h : TItems dir cur I I' a D D' k) (e : k = l) : TItems dir cur I I' a D D' l := e ▸ h
theorem TItems.eqO (h : TItems dir cur I I' a D D' k) (e : a = b) : TItems dir cur I I' b D D' k := e ▸ h

theorem TItems.weaken {J J' : List Str → Prop} {E E' : Defs} (h : TItems dir cur I I' a D D' l) (hi : ∀ x, J x → I x) (hi' : ∀ x, I' x → J' x) (hD : DEq D E) (hE : DEq D' E') :
    TItems dir cur J J' a E E' l := by
  obtain ⟨us, g, p⟩ := h
  exact ⟨us, g.weaken hi hi' hD hE, p⟩

/-- Lines that read only files with no effect. -/
theorem TItems.lift (S : List Str) (h : ∀ files : List (Str × Str), (∀ n ∈ S, files.lookup n = none) → GItems files a D D' l)
    (hS : ∀ x, I x → ∀ n ∈ S, n ∈ x ∨ dir.lookup n = some []) (hI : OGrows cur I I') : TItems dir cur I I' a D D' l := by
  obtain ⟨us, g, p⟩ := h [] (fun _ _ => rfl)
  refine ⟨us, TGen.lift (S := S) g (fun n hn => ?_) hS hI, p⟩
  obtain ⟨vs, g2, -⟩ := h [(n, "#error".toList)] (fun s hs => by
    rw [List.lookup_cons]
    have : (s == n) = false := by
      rw [beq_eq_false_iff_ne]
      rintro rfl
      exact hn hs
    rw [this]
    rfl)
  exact ⟨D', vs, g2⟩

/-- The same, with the result for no file at all. -/
theorem TItems.lift' (S : List Str) (g : GItems [] a D D' l) (h : ∀ files : List (Str × Str), (∀ n ∈ S, files.lookup n = none) → ∃ D'' l', GItems files a D D'' l')
    (hS : ∀ x, I x → ∀ n ∈ S, n ∈ x ∨ dir.lookup n = some []) (hI : OGrows cur I I') : TItems dir cur I I' a D D' l := by
  obtain ⟨us, g, p⟩ := g
  refine ⟨us, TGen.lift (S := S) g (fun n hn => ?_) hS hI, p⟩
  obtain ⟨D'', l', vs, g2, -⟩ := h [(n, "#error".toList)] (fun s hs => by
    rw [List.lookup_cons]
    have : (s == n) = false := by
      rw [beq_eq_false_iff_ne]
      rintro rfl
      exact hn hs
    rw [this]
    rfl)
  exact ⟨D'', vs, g2⟩

/-- Files of `L` are not to be read again, files of `R` have not been read. -/
def Once (L R : List Str) (x : List Str) : Prop := (∀ n ∈ L, n ∈ x) ∧ ∀ n ∈ R, n ∉ x

theorem Once.grows {L R R' : List Str} (h : ∀ n ∈ R', n ∈ R ∧ n ≠ cur) : OGrows cur (Once L R) (Once L R') := fun x x' hx h1 h2 =>
  ⟨fun n hn => h1 n (hx.1 n hn), fun n hn hm => by
    rcases h2 n hm with q | q
    · exact hx.2 n (h n hn).1 q
    · exact (h n hn).2 q⟩

/-- `#pragma once` -/
theorem TItems.pragma {L R R' : List Str} (h : ∀ n ∈ R', n ∈ R ∧ n ≠ cur) : TItems dir cur (Once L R) (Once (cur :: L) R') [opLine "#pragma once"] D D [] := by
  refine ⟨[], ⟨["#pragma once".toList], ol_plain (t := "#pragma once".toList) (plain_lit (by decide)) (by decide), 0, fun f _ d _ fr out x D1 hl hx hD => ?_⟩, PItems.nil⟩
  refine ⟨cur :: x, D1, ⟨fun n hn => ?_, fun n hn hm => ?_⟩, hD, ?_⟩
  · rcases List.mem_cons.1 hn with rfl | hn
    · exact List.mem_cons_self
    · exact List.mem_cons_of_mem _ (hx.1 n hn)
  · rcases List.mem_cons.1 hm with rfl | hm
    · exact (h n hn).2 rfl
    · exact hx.2 n (h n hn).1 hm
  · rw [List.foldl_cons, List.foldl_nil, List.append_nil]
    have e1 : includeOf "#pragma once".toList = none := by decide
    have e2 : isOnce "#pragma once".toList = true := by decide
    have e3 : ppLine f (mkPP fr ⟨D1, out, false⟩) "#pragma once".toList = mkPP fr ⟨D1, out, false⟩ := by
      have hd : IsDir "#pragma once".toList "pragma".toList " once".toList := ⟨"pragma once".toList, rfl, rfl⟩
      obtain ⟨r, h1, h2⟩ := hd
      unfold ppLine
      rw [h1]
      simp only [h2]
      rw [if_neg (by decide), if_neg (by decide), if_neg (by decide), if_neg (by decide), if_neg (by decide), if_neg (by simp [hl]),
        if_neg (by decide), if_neg (by decide), if_pos (by simp)]
    unfold treeStep
    rw [e1]
    dsimp only
    unfold lineStep
    rw [e2, e3]
    show (⟨_, if (mkPP fr ⟨D1, out, false⟩).live && true then _ else _⟩ : TS) = _
    rw [hl]
    rfl

theorem treeStep_blank {f d : Nat} {fr : List Frame} {c : Core} {x : List Str} (hf : 1 ≤ f) (hl : (mkPP fr c).live = true) :
    treeStep f dir d cur ⟨mkPP fr c, x⟩ [] = ⟨mkPP fr c, x⟩ := by
  have hn : NotDir [] := by
    intro r
    simp [dropBlank]
  rw [treeStep_line (by decide) (by decide), ppStep_notDir hn]
  dsimp only
  rw [hl, if_pos rfl]
  obtain ⟨k, rfl⟩ : ∃ k, f = k + 1 := ⟨f - 1, by omega⟩
  have e : expand (k + 1) (mkPP fr c).defs [] (lex []) = some [] := rfl
  rw [e]
  dsimp only
  rw [List.append_nil]

theorem treeStep_space {f d : Nat} {fr : List Frame} {c : Core} {x : List Str} (hf : 1 ≤ f) (hl : (mkPP fr c).live = true) :
    treeStep f dir d cur ⟨mkPP fr c, x⟩ [' '] = ⟨mkPP fr c, x⟩ := by
  have hn : NotDir [' '] := fun r e => by
    have e : ([] : Str) = '#' :: r := e
    cases e
  rw [treeStep_line (by decide) (by decide), ppStep_notDir hn]
  dsimp only
  rw [hl, if_pos rfl]
  obtain ⟨k, rfl⟩ : ∃ k, f = k + 1 := ⟨f - 1, by omega⟩
  have e : expand (k + 1) (mkPP fr c).defs [] (lex [' ']) = some [] := rfl
  rw [e]
  dsimp only
  rw [List.append_nil]

/-- `#include` of a file of the directory. -/
theorem TItems.includeAt {n : Str} {ops : List WOp} (h : TItems dir n I I' ops D D' l) {p q : List Str} (ho : OL b (p ++ (["#include \"".toList ++ n ++ "\"".toList] ++ q)))
    (hf : dir.lookup n = some (opsText ops)) (hI : ∀ x, I x → n ∉ x) (hp : ∀ t ∈ p, t = [] ∨ t = [' ']) (hq : ∀ t ∈ q, t = [] ∨ t = [' ']) : TItems dir cur I I' b D D' l := by
  obtain ⟨us, ⟨ls, o, F, r⟩, pr⟩ := h
  refine ⟨us, ⟨_, ho, F + 2, fun f hff d hd fr out x D1 hlv hx hD => ?_⟩, pr⟩
  obtain ⟨d, rfl⟩ : ∃ k, d = k + 1 := ⟨d - 1, by omega⟩
  obtain ⟨x', D1', i1, e1, s⟩ := r f (by omega) d (by omega) fr out x D1 hlv hx hD
  refine ⟨x', D1', i1, e1, ?_⟩
  have hb : ∀ (ts : List Str) (c : Core) (y : List Str), (mkPP fr c).live = true → (∀ t ∈ ts, t = [] ∨ t = [' ']) → ts.foldl (treeStep f dir (d + 1) cur) ⟨mkPP fr c, y⟩ = ⟨mkPP fr c, y⟩ := by
    intro ts c y hv ht
    induction ts with
    | nil => rfl
    | cons t r ih =>
      have : treeStep f dir (d + 1) cur ⟨mkPP fr c, y⟩ t = ⟨mkPP fr c, y⟩ := by
        rcases ht t (by simp) with rfl | rfl
        · exact treeStep_blank (by omega) hv
        · exact treeStep_space (by omega) hv
      rw [List.foldl_cons, this]
      exact ih fun t h => ht t (by simp [h])
  rw [List.foldl_append, hb p _ _ hlv hp, List.foldl_append, List.foldl_cons, List.foldl_nil]
  have e0 : treeStep f dir (d + 1) cur ⟨mkPP fr ⟨D1, out, false⟩, x⟩ ("#include \"".toList ++ n ++ "\"".toList) = ⟨mkPP fr ⟨D1', out ++ us, false⟩, x'⟩ := by
    unfold treeStep
    rw [includeOf_quote]
    dsimp only
    have hc : x.contains n = false := by
      rw [← Bool.not_eq_true, List.contains_iff_mem]
      exact hI x hx
    rw [if_pos hlv, hc, if_neg Bool.false_ne_true, hf]
    dsimp only
    have hpl : ppLines (opsText ops) = ls ++ [[]] := by
      have := o.ppl []
      rwa [List.append_nil] at this
    rw [ppTree_succ, hpl, List.foldl_append, s, List.foldl_cons, List.foldl_nil]
    have e : treeStep f dir d n ⟨mkPP fr ⟨D1', out ++ us, false⟩, x'⟩ [] = ⟨mkPP fr ⟨D1', out ++ us, false⟩, x'⟩ := by
      exact treeStep_blank (by omega) hlv
    rw [e]
    simp [mkPP]
  rw [e0]
  exact hb q _ _ hlv hq

/-- `#include` of a file of the directory. -/
theorem TItems.include {n : Str} {ops : List WOp} (h : TItems dir n I I' ops D D' l) (hp : PlainT n) (hl : n.length ≤ 4000) (hf : dir.lookup n = some (opsText ops))
    (hI : ∀ x, I x → n ∉ x) : TItems dir cur I I' [.appendF ("#include \"".toList ++ n ++ "\"".toList)] D D' l :=
  h.includeAt (p := []) (q := []) (ol_include hp hl) hf hI (fun _ h => nomatch h) (fun _ h => nomatch h)

/-- `#ifdef` of a macro that is defined. -/
theorem TItems.ifdefT {n : Str} (h : IsWord n) (hn : n.length ≤ 9000) (hd : (D.lookup n).isSome = true) (ha : TItems dir cur I I' a D D' l) :
    TItems dir cur I I' ([opIfdef n] ++ a ++ [opEndif n]) D D' l := by
  obtain ⟨us, ⟨ls, o, F, r⟩, p⟩ := ha
  refine ⟨us, ⟨_, OL.cond (ol_ifdef h hn) o (ol_endifC h hn), F + 1, fun f hff d hdd fr out x D1 hlv hx hD => ?_⟩, p⟩
  have hd1 : (D1.lookup n).isSome = true := by rw [hD n]; exact hd
  have dI := isDir_ifdef n
  have s1 : treeStep f dir d cur ⟨mkPP fr ⟨D1, out, false⟩, x⟩ ("#ifdef ".toList ++ n) = ⟨mkPP (⟨true, true, false, true⟩ :: fr) ⟨D1, out, false⟩, x⟩ := by
    have e1 : includeOf ("#ifdef ".toList ++ n) = none := rfl
    have e2 : isOnce ("#ifdef ".toList ++ n) = false := rfl
    rw [treeStep_line e1 e2, ppStep_dir dI (by decide), ppLine_ifdef dI, wordOf_ident' h]
    show (⟨(mkPP fr ⟨D1, out, false⟩).push (D1.lookup n).isSome, x⟩ : TS) = _
    rw [hd1, PP.push, hlv]
    rfl
  obtain ⟨x', D1', i1, e1, s⟩ := r f (by omega) d (by omega) (⟨true, true, false, true⟩ :: fr) out x D1 rfl hx hD
  refine ⟨x', D1', i1, e1, ?_⟩
  rw [List.foldl_cons, s1, List.foldl_append, s, List.foldl_cons, List.foldl_nil]
  have e3 : includeOf ("#endif ".toList ++ [' ']) = none := rfl
  have e4 : isOnce ("#endif ".toList ++ [' ']) = false := by decide
  rw [treeStep_line e3 e4]
  have := endLine_comment (files := []) f d (mkPP (⟨true, true, false, true⟩ :: fr) ⟨D1', out ++ us, false⟩) _ _ rfl
  dsimp only
  rw [this]
  rfl

/-- A whole source file. -/
theorem TItems.compile {main : Str} (h : TItems dir main I I' a D D' l) (hf : dir.lookup main = some (opsText a)) (h0 : I []) :
    ∃ F, ∀ f, F ≤ f → compileTree f dir D main = if (l.flatMap Item.defines).Nodup ∧ typesKnown baseTypes l = true ∧ declsAgree l = true then some l else none := by
  obtain ⟨us, ⟨ls, o, F, r⟩, p⟩ := h
  obtain ⟨F2, h2⟩ := p.unit
  refine ⟨F + F2 + 2, fun f hff => ?_⟩
  obtain ⟨x', D1', -, -, s⟩ := r f (by omega) (f - 1) (by omega) [] [] [] D rfl h0 (DEq.refl D)
  have hpl : ppLines (opsText a) = ls ++ [[]] := by
    have := o.ppl []
    rwa [List.append_nil] at this
  have e : ppTree f dir f main { pp := { defs := D } } (opsText a) = ⟨mkPP [] ⟨D1', us, false⟩, x'⟩ := by
    obtain ⟨d, rfl⟩ : ∃ k, f = k + 1 := ⟨f - 1, by omega⟩
    have s : ls.foldl (treeStep (d + 1) dir d main) ⟨mkPP [] ⟨D, [], false⟩, []⟩ = ⟨mkPP [] ⟨D1', us, false⟩, x'⟩ := s
    rw [ppTree_succ, hpl, List.foldl_append]
    have s' : ls.foldl (treeStep (d + 1) dir d main) { pp := { defs := D } } = ⟨mkPP [] ⟨D1', us, false⟩, x'⟩ := s
    rw [s', List.foldl_cons, List.foldl_nil]
    have e : treeStep (d + 1) dir d main ⟨mkPP [] ⟨D1', us, false⟩, x'⟩ [] = ⟨mkPP [] ⟨D1', us, false⟩, x'⟩ := treeStep_blank (by omega) rfl
    rw [e]
    simp [mkPP]
  unfold compileTree
  rw [hf, Option.bind_some]
  dsimp only
  rw [e, if_neg (by simp [mkPP])]
  show (parseUnit f us).bind _ = _
  rw [h2 f (by omega), Option.bind_some]

end Verif
