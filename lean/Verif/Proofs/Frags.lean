import Verif.Model.SigPrinter
import Verif.Spec.Signals
/-
Fragments: the pieces of a signal in the payload bytes, in the order the printer visits them, and
the proof that the printer prints exactly them and that they are the DBC layout.
-/
namespace Verif
open Spec

/-- Signal bits `shift .. shift+width-1` are bits `off .. off+width-1` of byte `byte`. -/
structure Frag where
  byte : Nat
  off : Nat
  width : Nat
  shift : Nat
  deriving DecidableEq, Repr

/-- Byte of the next fragment. -/
def nextByte (o : BitLayout) (bn : Nat) : Nat :=
  match o with
  | .intel => bn - 1
  | .motorolla => bn + 1

/-- Fragments after the first one. -/
def tailFrags (o : BitLayout) (slen bn : Nat) : List Frag :=
  if h : 8 ≤ slen then
    ⟨nextByte o bn, 0, 8, slen - 8⟩ :: tailFrags o (slen - 8) (nextByte o bn)
  else if 0 < slen then [⟨nextByte o bn, 8 - slen, slen, 0⟩]
  else []
termination_by slen

/-- Fragments of a signal whose most significant bit is at position `sb`. -/
def fragsAt (o : BitLayout) (len sb : Nat) : List Frag :=
  let bn := sb / 8
  let bbc := sb % 8 + 1
  if bbc > len then [⟨bn, bbc - len, len, 0⟩]
  else ⟨bn, 0, bbc, len - bbc⟩ :: tailFrags o (len - bbc) bn

/-- Position of the most significant bit. -/
def msbPos (s : Sig) : Nat :=
  match s.order with
  | .intel => s.startBit + s.lengthBit - 1
  | .motorolla => s.startBit

/-- Fragments of a signal. -/
def frags (s : Sig) : List Frag := fragsAt s.order s.lengthBit (msbPos s)

/-- Printed to-signal fragment. -/
def Frag.toSig (f : Frag) : CExpr :=
  if 0 < f.off then .band (.shr (.dat f.byte) f.off) (.mask f.width)
  else if 0 < f.shift then .shl (t64 f.shift (.band (.dat f.byte) (.mask f.width))) f.shift
  else .band (.dat f.byte) (.mask f.width)

/-- Printed to-byte fragment. -/
def Frag.toByte (name : Str) (f : Frag) : CExpr :=
  if 0 < f.off then .shl (.band (.fld name) (.mask f.width)) f.off
  else if 0 < f.shift then .band (.shr (.fld name) f.shift) (.mask f.width)
  else .band (.fld name) (.mask f.width)

/-- Apply one fragment to the byte lines. -/
def Frag.apply (name : Str) (tb : List Slot) (f : Frag) : List Slot :=
  tb.set f.byte ((tb.getD f.byte .empty).append (f.toByte name))

/-- Join printed fragments with `|`. -/
def joinFrags : List Frag → CExpr
  | [] => default
  | f :: fs => fs.foldl (fun acc f => .bor acc f.toSig) f.toSig

theorem appendAt_lt {tb : List Slot} {bn : Nat} {e : CExpr} (h : bn < tb.length) :
    appendAt tb bn e = some (tb.set bn ((tb.getD bn .empty).append e)) := by
  unfold appendAt
  rw [List.getElem?_eq_getElem h]
  simp [List.getD, List.getElem?_eq_getElem h]

theorem Frag.apply_length (name : Str) (tb : List Slot) (f : Frag) :
    (f.apply name tb).length = tb.length := by simp [Frag.apply]

/-- The remaining `slen` bits continue below/after byte `bn`, without wrap. -/
def RoomOk (o : BitLayout) (slen bn : Nat) : Prop :=
  match o with
  | .intel => slen ≤ 8 * bn ∧ bn < 2 ^ 32
  | .motorolla => bn + slen < 2 ^ 32

theorem shiftByte_eq {o : BitLayout} {slen bn : Nat} (h : RoomOk o slen bn) (hs : 0 < slen) :
    shiftByte o bn = nextByte o bn := by
  cases o <;> simp only [RoomOk, shiftByte, nextByte] at * <;> omega

theorem RoomOk.next {o : BitLayout} {slen bn : Nat} (h : RoomOk o slen bn) (hs : 8 ≤ slen) :
    RoomOk o (slen - 8) (nextByte o bn) := by
  cases o <;> simp only [RoomOk, nextByte] at * <;> omega

theorem byteLoop_ok (name : Str) (o : BitLayout) (fuel : Nat) : ∀ (acc : CExpr) (tb : List Slot)
    (slen bn : Nat), slen ≤ fuel → RoomOk o slen bn →
    (∀ f ∈ tailFrags o slen bn, f.byte < tb.length) →
    ∃ acc' tb' slen' bn', byteLoop name o fuel acc tb slen bn = .done acc' tb' slen' bn' ∧
      slen' < 8 ∧ tb'.length = tb.length ∧ RoomOk o slen' bn' ∧
      (∀ f ∈ tailFrags o slen' bn', f.byte < tb.length) ∧
      (tailFrags o slen bn).foldl (fun acc f => .bor acc f.toSig) acc =
        (tailFrags o slen' bn').foldl (fun acc f => .bor acc f.toSig) acc' ∧
      (tailFrags o slen bn).foldl (Frag.apply name) tb =
        (tailFrags o slen' bn').foldl (Frag.apply name) tb' := by
  induction fuel with
  | zero =>
    intro acc tb slen bn h0 hr hb
    exact ⟨acc, tb, slen, bn, rfl, by omega, rfl, hr, hb, rfl, rfl⟩
  | succ fuel ih =>
    intro acc tb slen bn h0 hr hb
    unfold byteLoop
    by_cases h8 : slen < 8
    · exact ⟨acc, tb, slen, bn, by simp [h8], h8, rfl, hr, hb, rfl, rfl⟩
    · have h8' : 8 ≤ slen := by omega
      have hne : tailFrags o slen bn =
          ⟨nextByte o bn, 0, 8, slen - 8⟩ :: tailFrags o (slen - 8) (nextByte o bn) := by
        rw [tailFrags]; simp [h8']
      rw [if_neg h8]
      dsimp only
      rw [shiftByte_eq hr (by omega)]
      rw [hne] at hb
      have hbyte : nextByte o bn < tb.length := hb _ (List.mem_cons_self ..)
      rw [if_neg (by omega)]
      have hrest : ∀ f ∈ tailFrags o (slen - 8) (nextByte o bn), f.byte < tb.length :=
        fun f hf => hb f (List.mem_cons_of_mem _ hf)
      by_cases hz : slen - 8 = 0
      · rw [if_pos hz, appendAt_lt hbyte]
        dsimp only
        rw [hne]
        have := ih (.bor acc (.band (.dat (nextByte o bn)) (.mask 8)))
          (tb.set (nextByte o bn) ((tb.getD (nextByte o bn) .empty).append
            (.band (.fld name) (.mask 8)))) (slen - 8) (nextByte o bn) (by omega) (hr.next h8')
            (by simpa using hrest)
        simpa [List.foldl, Frag.toSig, Frag.toByte, Frag.apply, hz] using this
      · rw [if_neg hz, appendAt_lt hbyte]
        dsimp only
        rw [hne]
        have := ih (.bor acc (.shl (t64 (slen - 8) (.band (.dat (nextByte o bn)) (.mask 8))) (slen - 8)))
          (tb.set (nextByte o bn) ((tb.getD (nextByte o bn) .empty).append
            (.band (.shr (.fld name) (slen - 8)) (.mask 8)))) (slen - 8) (nextByte o bn) (by omega)
            (hr.next h8') (by simpa using hrest)
        have hz' : 0 < slen - 8 := by omega
        simpa [List.foldl, Frag.toSig, Frag.toByte, Frag.apply, hz', hz] using this

/-- The start position used by the printer is the position of the most significant bit, when that
position is inside a frame of at most 64 bytes. -/
theorem startb_eq {s : Sig} {n : Nat} (hn : n ≤ 64) (hl : 0 < s.lengthBit)
    (h : msbPos s < 8 * n) : startb s = msbPos s := by
  unfold startb msbPos at *
  cases ho : s.order <;> simp only [ho] at h ⊢ <;> split <;> omega

theorem printSignalExpr_ok {s : Sig} {tb : List Slot} (hn : tb.length ≤ 64)
    (hl : 0 < s.lengthBit) (hl2 : s.lengthBit < 256)
    (hb : ∀ f ∈ frags s, f.byte < tb.length) :
    printSignalExpr s tb =
      .ok (.expr (joinFrags (frags s))) ((frags s).foldl (Frag.apply s.name) tb) := by
  have hfirst : msbPos s / 8 < tb.length := by
    unfold frags fragsAt at hb
    dsimp only at hb
    split at hb
    · exact hb _ (List.mem_singleton.2 rfl)
    · exact hb _ (List.mem_cons_self ..)
  have hsb : startb s = msbPos s := startb_eq hn hl (by omega)
  unfold printSignalExpr
  rw [if_neg (by omega)]
  dsimp only
  rw [hsb, if_neg (by omega)]
  unfold frags at hb ⊢
  unfold fragsAt at hb ⊢
  dsimp only at hb ⊢
  split
  next h1 =>
    rw [appendAt_lt hfirst]
    have : 0 < msbPos s % 8 + 1 - s.lengthBit := by omega
    simp [joinFrags, Frag.toSig, Frag.toByte, Frag.apply, this]
  next h1 =>
    rw [if_neg h1] at hb
    split
    next h2 =>
      rw [appendAt_lt hfirst]
      have : s.lengthBit - (msbPos s % 8 + 1) = 0 := by omega
      rw [this]
      have ht : tailFrags s.order 0 (msbPos s / 8) = [] := by rw [tailFrags]; simp
      rw [ht]
      simp [joinFrags, Frag.toSig, Frag.toByte, Frag.apply, h2]
    next h2 =>
      have hpos : 0 < s.lengthBit - (msbPos s % 8 + 1) := by omega
      rw [appendAt_lt hfirst]
      dsimp only
      have hroom : RoomOk s.order (s.lengthBit - (msbPos s % 8 + 1)) (msbPos s / 8) := by
        unfold RoomOk msbPos at *
        cases ho : s.order <;> simp only [ho] at * <;> omega
      have hrest : ∀ f ∈ tailFrags s.order (s.lengthBit - (msbPos s % 8 + 1)) (msbPos s / 8),
          f.byte < tb.length := fun f hf => hb f (List.mem_cons_of_mem _ hf)
      obtain ⟨acc', tb', slen', bn', he, hs8, hlen, hr', hb', hacc, htb⟩ :=
        byteLoop_ok s.name s.order (s.lengthBit - (msbPos s % 8 + 1))
          (.shl (t64 (s.lengthBit - (msbPos s % 8 + 1))
            (.band (.dat (msbPos s / 8)) (.mask (msbPos s % 8 + 1)))) (s.lengthBit - (msbPos s % 8 + 1)))
          (tb.set (msbPos s / 8) ((tb.getD (msbPos s / 8) .empty).append
            (.band (.shr (.fld s.name) (s.lengthBit - (msbPos s % 8 + 1))) (.mask (msbPos s % 8 + 1)))))
          (s.lengthBit - (msbPos s % 8 + 1)) (msbPos s / 8) (Nat.le_refl _) hroom
          (by simpa using hrest)
      rw [he]
      simp only [List.length_set] at hlen hb'
      dsimp only
      have key : joinFrags (⟨msbPos s / 8, 0, msbPos s % 8 + 1, s.lengthBit - (msbPos s % 8 + 1)⟩ ::
            tailFrags s.order (s.lengthBit - (msbPos s % 8 + 1)) (msbPos s / 8)) =
          (tailFrags s.order slen' bn').foldl (fun acc f => .bor acc f.toSig) acc' := by
        rw [← hacc]; simp [joinFrags, Frag.toSig, hpos]
      have key2 : (⟨msbPos s / 8, 0, msbPos s % 8 + 1, s.lengthBit - (msbPos s % 8 + 1)⟩ ::
            tailFrags s.order (s.lengthBit - (msbPos s % 8 + 1)) (msbPos s / 8)).foldl
              (Frag.apply s.name) tb =
          (tailFrags s.order slen' bn').foldl (Frag.apply s.name) tb' := by
        rw [← htb]; simp [Frag.apply, Frag.toByte, hpos]
      rw [key, key2]
      have htail : tailFrags s.order slen' bn' =
          if 0 < slen' then [⟨nextByte s.order bn', 8 - slen', slen', 0⟩] else [] := by
        rw [tailFrags]; simp [show ¬ 8 ≤ slen' by omega]
      rw [htail] at hb' ⊢
      split
      next h3 =>
        rw [if_pos h3] at hb'
        have hbb := hb' _ (List.mem_singleton.2 rfl)
        dsimp only at hbb
        rw [shiftByte_eq hr' h3, appendAt_lt (by omega)]
        have : 0 < 8 - slen' := by omega
        simp [Frag.toSig, Frag.apply, Frag.toByte, this]
      next h3 => simp

end Verif
