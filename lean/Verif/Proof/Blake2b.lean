import Mathlib.Logic.Function.Basic
import Verif.Model.Blake2b
import Verif.Spec.Blake2b
import Verif.Proof.SpongeBytes
/- The compression function of BLAKE2b. -/
namespace Verif

open Spec.Blake2b (ror)

theorem ror_eq (x : BitVec 64) (n : Nat) (h : n < 64) : x.rotateRight n = ror x n := by
  unfold ror
  rw [BitVec.rotateRight_def, Nat.mod_eq_of_lt h]

/-! ### Four distinct places of the working state -/

/-- Four words. -/
abbrev Quad := BitVec 64 × BitVec 64 × BitVec 64 × BitVec 64

/-- `g` on four words. -/
def gQuad (m0 m1 : BitVec 64) : Quad → Quad
  | (a, b, c, d) =>
    let a := a + b + m0
    let d := (d ^^^ a).rotateRight 32
    let c := c + d
    let b := (b ^^^ c).rotateRight 24
    let a := a + b + m1
    let d := (d ^^^ a).rotateRight 16
    let c := c + d
    let b := (b ^^^ c).rotateRight 63
    (a, b, c, d)

/-- `g` backwards. -/
def gQuadInv (m0 m1 : BitVec 64) : Quad → Quad
  | (a, b, c, d) =>
    let b := b.rotateLeft 63 ^^^ c
    let c := c - d
    let d := d.rotateLeft 16 ^^^ a
    let a := a - m1 - b
    let b := b.rotateLeft 24 ^^^ c
    let c := c - d
    let d := d.rotateLeft 32 ^^^ a
    let a := a - m0 - b
    (a, b, c, d)

theorem rotl_rotr (x : BitVec 64) (n : Nat) (h : n < 64) : (x.rotateRight n).rotateLeft n = x := by
  apply BitVec.eq_of_getLsbD_eq
  intro i hi
  rw [BitVec.getLsbD_rotateLeft, BitVec.getLsbD_rotateRight, BitVec.getLsbD_rotateRight,
    Nat.mod_eq_of_lt h]
  by_cases h1 : i < n <;> by_cases h2 : 64 - n + i < 64 - n <;>
    by_cases h3 : i - n < 64 - n <;> simp [h1, h2, h3] <;> first | omega | (congr 1; omega) | skip
  all_goals (rw [decide_eq_true hi, Bool.true_and]; congr 1; omega)

theorem rotr_rotl (x : BitVec 64) (n : Nat) (h : n < 64) : (x.rotateLeft n).rotateRight n = x := by
  apply BitVec.eq_of_getLsbD_eq
  intro i hi
  rw [BitVec.getLsbD_rotateRight, BitVec.getLsbD_rotateLeft, BitVec.getLsbD_rotateLeft,
    Nat.mod_eq_of_lt h]
  by_cases h1 : i < 64 - n <;> by_cases h2 : n + i < n <;>
    by_cases h3 : i - (64 - n) < n <;> simp [h1, h2, h3] <;> first | omega | (congr 1; omega) | skip
  all_goals (rw [decide_eq_true hi, Bool.true_and]; congr 1; omega)

theorem xor_xor_self (x y : BitVec 64) : x ^^^ y ^^^ y = x := by
  rw [BitVec.xor_assoc, BitVec.xor_self, BitVec.xor_zero]

theorem add_add_sub (a b m : BitVec 64) : a + b + m - m - b = a := by
  rw [BitVec.add_sub_cancel, BitVec.add_sub_cancel]

theorem sub_sub_add (a b m : BitVec 64) : a - m - b + b + m = a := by
  rw [BitVec.sub_add_cancel, BitVec.sub_add_cancel]

theorem gQuadInv_gQuad (m0 m1 : BitVec 64) (q : Quad) : gQuadInv m0 m1 (gQuad m0 m1 q) = q := by
  obtain ⟨a, b, c, d⟩ := q
  simp only [gQuad, gQuadInv, rotl_rotr _ 63 (by omega), rotl_rotr _ 16 (by omega),
    rotl_rotr _ 24 (by omega), rotl_rotr _ 32 (by omega), xor_xor_self, BitVec.add_sub_cancel]

theorem gQuad_gQuadInv (m0 m1 : BitVec 64) (q : Quad) : gQuad m0 m1 (gQuadInv m0 m1 q) = q := by
  obtain ⟨a, b, c, d⟩ := q
  simp only [gQuad, gQuadInv, rotr_rotl _ 63 (by omega), rotr_rotl _ 16 (by omega),
    rotr_rotl _ 24 (by omega), rotr_rotl _ 32 (by omega), xor_xor_self, BitVec.sub_add_cancel]

/-- Four different places. -/
structure Places (a b c d : Fin 16) : Prop where
  ab : a ≠ b
  ac : a ≠ c
  ad : a ≠ d
  bc : b ≠ c
  bd : b ≠ d
  cd : c ≠ d

def readQuad (a b c d : Fin 16) (v : BlakeWork) : Quad := (v[a], v[b], v[c], v[d])

def writeQuad (a b c d : Fin 16) (v : BlakeWork) (q : Quad) : BlakeWork :=
  (((v.set a q.1).set b q.2.1).set c q.2.2.1).set d q.2.2.2

theorem blakeG_eq (v : BlakeWork) (a b c d : Fin 16) (m0 m1 : BitVec 64) :
    blakeG v a b c d m0 m1 = writeQuad a b c d v (gQuad m0 m1 (readQuad a b c d v)) := rfl

section
variable {a b c d : Fin 16} (P : Places a b c d)
include P

theorem Places.val : a.1 ≠ b.1 ∧ a.1 ≠ c.1 ∧ a.1 ≠ d.1 ∧ b.1 ≠ c.1 ∧ b.1 ≠ d.1 ∧ c.1 ≠ d.1 :=
  ⟨fun h => P.ab (Fin.ext h), fun h => P.ac (Fin.ext h), fun h => P.ad (Fin.ext h),
    fun h => P.bc (Fin.ext h), fun h => P.bd (Fin.ext h), fun h => P.cd (Fin.ext h)⟩

theorem read_write (v : BlakeWork) (q : Quad) : readQuad a b c d (writeQuad a b c d v q) = q := by
  obtain ⟨h1, h2, h3, h4, h5, h6⟩ := P.val
  obtain ⟨x, y, z, t⟩ := q
  simp [readQuad, writeQuad, Vector.getElem_set, h1, h2, h3, h4, h5, h6, h1.symm, h2.symm, h3.symm,
    h4.symm, h5.symm, h6.symm]

theorem write_write (v : BlakeWork) (q q' : Quad) :
    writeQuad a b c d (writeQuad a b c d v q) q' = writeQuad a b c d v q' := by
  apply Vector.ext
  intro i hi
  simp only [writeQuad, Vector.getElem_set]
  grind

theorem write_read (v : BlakeWork) : writeQuad a b c d v (readQuad a b c d v) = v := by
  apply Vector.ext
  intro i hi
  simp only [writeQuad, readQuad, Vector.getElem_set]
  grind

theorem blakeG_bijective (m0 m1 : BitVec 64) :
    Function.Bijective fun v => blakeG v a b c d m0 m1 := by
  rw [Function.bijective_iff_has_inverse]
  refine ⟨fun v => writeQuad a b c d v (gQuadInv m0 m1 (readQuad a b c d v)), ?_, ?_⟩
  · intro v
    simp only [blakeG_eq, read_write P, write_write P, gQuadInv_gQuad, write_read P]
  · intro v
    simp only [blakeG_eq, read_write P, write_write P, gQuad_gQuadInv, write_read P]

/-- `g` is the specification's `G`. -/
theorem blakeG_spec (v : BlakeWork) (m0 m1 : BitVec 64) :
    (blakeG v a b c d m0 m1).toList = Spec.Blake2b.G v.toList a b c d m0 m1 := by
  obtain ⟨h1, h2, h3, h4, h5, h6⟩ := P.val
  have hl : v.toList.length = 16 := Vector.length_toList
  have la := a.2
  have lb := b.2
  have lc := c.2
  have ld := d.2
  have ra : v.toList.getD a 0 = v[a] := by
    rw [List.getD_eq_getElem?_getD, List.getElem?_eq_getElem (by omega)]; simp
  have rb : v.toList.getD b 0 = v[b] := by
    rw [List.getD_eq_getElem?_getD, List.getElem?_eq_getElem (by omega)]; simp
  have rc : v.toList.getD c 0 = v[c] := by
    rw [List.getD_eq_getElem?_getD, List.getElem?_eq_getElem (by omega)]; simp
  have rd : v.toList.getD d 0 = v[d] := by
    rw [List.getD_eq_getElem?_getD, List.getElem?_eq_getElem (by omega)]; simp
  have gp : ∀ (l : List (BitVec 64)) (i : Nat) (x : BitVec 64), i < 16 → l.length = 16 →
      (l.set i x).getD i 0 = x := by
    intro l i x hi hl
    rw [List.getD_eq_getElem?_getD, List.getElem?_set_self (by omega)]; rfl
  have gn : ∀ (l : List (BitVec 64)) (i j : Nat) (x : BitVec 64), i ≠ j →
      (l.set i x).getD j 0 = l.getD j 0 := by
    intro l i j x hij
    rw [List.getD_eq_getElem?_getD, List.getElem?_set_ne hij, List.getD_eq_getElem?_getD]
  simp only [Spec.Blake2b.G, Spec.Blake2b.get, Spec.Blake2b.put, blakeG, Vector.toList_set]
  simp only [gp, gn, ne_eq, h1, h2, h3, h4, h5, h6, h1.symm, h2.symm, h3.symm, h4.symm, h5.symm,
    h6.symm, not_false_eq_true, la, lb, lc, ld, List.length_set, hl, ra, rb, rc, rd,
    ← ror_eq _ 32 (by omega), ← ror_eq _ 24 (by omega), ← ror_eq _ 16 (by omega),
    ← ror_eq _ 63 (by omega)]
  apply List.ext_getElem?
  intro i
  simp only [List.getElem?_set, List.length_set, hl]
  grind

end

theorem column0 : Places 0 4 8 12 := by constructor <;> decide
theorem column1 : Places 1 5 9 13 := by constructor <;> decide
theorem column2 : Places 2 6 10 14 := by constructor <;> decide
theorem column3 : Places 3 7 11 15 := by constructor <;> decide
theorem diagonal0 : Places 0 5 10 15 := by constructor <;> decide
theorem diagonal1 : Places 1 6 11 12 := by constructor <;> decide
theorem diagonal2 : Places 2 7 8 13 := by constructor <;> decide
theorem diagonal3 : Places 3 4 9 14 := by constructor <;> decide

theorem blakeRound_bijective (M : Nat → BitVec 64)
    (i0 i1 i2 i3 i4 i5 i6 i7 i8 i9 iA iB iC iD iE iF : Nat) : Function.Bijective fun v =>
      blakeRound M v i0 i1 i2 i3 i4 i5 i6 i7 i8 i9 iA iB iC iD iE iF :=
  (blakeG_bijective diagonal3 (M iE) (M iF)).comp <|
  (blakeG_bijective diagonal2 (M iC) (M iD)).comp <|
  (blakeG_bijective diagonal1 (M iA) (M iB)).comp <|
  (blakeG_bijective diagonal0 (M i8) (M i9)).comp <|
  (blakeG_bijective column3 (M i6) (M i7)).comp <|
  (blakeG_bijective column2 (M i4) (M i5)).comp <|
  (blakeG_bijective column1 (M i2) (M i3)).comp <|
  blakeG_bijective column0 (M i0) (M i1)

theorem blakeRounds_bijective (M : Nat → BitVec 64) : Function.Bijective (blakeRounds M) := by
  have h := blakeRound_bijective M
  exact (h 14 10 4 8 9 15 13 6 1 12 0 2 11 7 5 3).comp <|
    (h 0 1 2 3 4 5 6 7 8 9 10 11 12 13 14 15).comp <|
    (h 10 2 8 4 7 6 1 5 15 11 9 14 3 12 13 0).comp <|
    (h 6 15 14 9 11 3 0 8 12 2 13 7 1 4 10 5).comp <|
    (h 13 11 7 14 12 1 3 9 5 0 15 4 8 6 2 10).comp <|
    (h 12 5 1 15 14 13 4 10 0 7 6 3 9 2 8 11).comp <|
    (h 2 12 6 10 0 11 8 3 4 13 7 5 15 14 1 9).comp <|
    (h 9 0 5 7 2 4 10 15 14 1 11 12 6 8 3 13).comp <|
    (h 7 9 3 1 13 12 11 14 2 6 5 10 4 0 15 8).comp <|
    (h 11 8 12 0 5 2 15 13 10 14 3 6 7 1 9 4).comp <|
    (h 14 10 4 8 9 15 13 6 1 12 0 2 11 7 5 3).comp <|
    h 0 1 2 3 4 5 6 7 8 9 10 11 12 13 14 15

theorem blakeRound_spec (m : List (BitVec 64)) (v : BlakeWork) (i : Nat)
    (i0 i1 i2 i3 i4 i5 i6 i7 i8 i9 iA iB iC iD iE iF : Nat)
    (h : Spec.Blake2b.SIGMA.getD (i % 10) [] =
      [i0, i1, i2, i3, i4, i5, i6, i7, i8, i9, iA, iB, iC, iD, iE, iF]) :
    (blakeRound (Spec.Blake2b.get m) v i0 i1 i2 i3 i4 i5 i6 i7 i8 i9 iA iB iC iD iE iF).toList =
      Spec.Blake2b.round m v.toList i := by
  unfold Spec.Blake2b.round blakeRound
  simp only [h]
  rw [blakeG_spec diagonal3, blakeG_spec diagonal2, blakeG_spec diagonal1, blakeG_spec diagonal0,
    blakeG_spec column3, blakeG_spec column2, blakeG_spec column1, blakeG_spec column0]
  rfl

theorem blakeRounds_spec (m : List (BitVec 64)) (v : BlakeWork) :
    (blakeRounds (Spec.Blake2b.get m) v).toList =
      (List.range 12).foldl (Spec.Blake2b.round m) v.toList := by
  have e : List.range 12 = [0, 1, 2, 3, 4, 5, 6, 7, 8, 9, 10, 11] := rfl
  rw [e]
  simp only [List.foldl, blakeRounds]
  rw [blakeRound_spec m _ 11 _ _ _ _ _ _ _ _ _ _ _ _ _ _ _ _ rfl,
    blakeRound_spec m _ 10 _ _ _ _ _ _ _ _ _ _ _ _ _ _ _ _ rfl,
    blakeRound_spec m _ 9 _ _ _ _ _ _ _ _ _ _ _ _ _ _ _ _ rfl,
    blakeRound_spec m _ 8 _ _ _ _ _ _ _ _ _ _ _ _ _ _ _ _ rfl,
    blakeRound_spec m _ 7 _ _ _ _ _ _ _ _ _ _ _ _ _ _ _ _ rfl,
    blakeRound_spec m _ 6 _ _ _ _ _ _ _ _ _ _ _ _ _ _ _ _ rfl,
    blakeRound_spec m _ 5 _ _ _ _ _ _ _ _ _ _ _ _ _ _ _ _ rfl,
    blakeRound_spec m _ 4 _ _ _ _ _ _ _ _ _ _ _ _ _ _ _ _ rfl,
    blakeRound_spec m _ 3 _ _ _ _ _ _ _ _ _ _ _ _ _ _ _ _ rfl,
    blakeRound_spec m _ 2 _ _ _ _ _ _ _ _ _ _ _ _ _ _ _ _ rfl,
    blakeRound_spec m _ 1 _ _ _ _ _ _ _ _ _ _ _ _ _ _ _ _ rfl,
    blakeRound_spec m _ 0 _ _ _ _ _ _ _ _ _ _ _ _ _ _ _ _ rfl]

theorem toList16 (v : BlakeWork) : v.toList = [v[0], v[1], v[2], v[3], v[4], v[5], v[6], v[7], v[8],
    v[9], v[10], v[11], v[12], v[13], v[14], v[15]] := by
  apply List.ext_getElem
  · simp
  · intro i h1 h2
    rw [Vector.getElem_toList]
    simp only [List.length_cons, List.length_nil] at h2
    rcases i with _ | _ | _ | _ | _ | _ | _ | _ | _ | _ | _ | _ | _ | _ | _ | _ | i <;>
      first | rfl | omega

theorem toList8 (v : BlakeState) : v.toList = [v[0], v[1], v[2], v[3], v[4], v[5], v[6], v[7]] := by
  apply List.ext_getElem
  · simp
  · intro i h1 h2
    rw [Vector.getElem_toList]
    simp only [List.length_cons, List.length_nil] at h2
    rcases i with _ | _ | _ | _ | _ | _ | _ | _ | i <;> first | rfl | omega

/-- The number of bytes in a 64-bit number of bits, rounded up. -/
theorem byteCount (seen : Nat) (h : seen < 2 ^ 64) :
    blakeBytes (BitVec.ofNat 64 seen) = BitVec.ofNat 64 ((seen + 7) / 8) := by
  unfold blakeBytes
  have e8 : (BitVec.ofNat 64 seen % 8 : BitVec 64) ≠ 0 ↔ seen % 8 ≠ 0 := by
    rw [ne_eq, ← BitVec.toNat_inj]
    simp [Nat.mod_eq_of_lt h]
  apply BitVec.eq_of_toNat_eq
  rw [BitVec.toNat_add, BitVec.toNat_udiv, BitVec.toNat_ofNat, BitVec.toNat_ofNat,
    Nat.mod_eq_of_lt h]
  by_cases hz : seen % 8 = 0
  · rw [if_neg (by rw [e8]; omega)]
    show (seen / 8 + 0) % 2 ^ 64 = _
    rw [Nat.mod_eq_of_lt (by omega), Nat.mod_eq_of_lt (by omega)]; omega
  · rw [if_pos (by rw [e8]; omega)]
    show (seen / 8 + 1) % 2 ^ 64 = _
    rw [Nat.mod_eq_of_lt (by omega), Nat.mod_eq_of_lt (by omega)]; omega

theorem blakeStart_spec (st : BlakeState) (s0 : BitVec 64) (f : Bool) :
    (blakeStart st s0 (if f then 0xFFFFFFFFFFFFFFFF else 0)).toList =
      let v := Spec.Blake2b.put (st.toList ++ Spec.Blake2b.IV) 12
        (Spec.Blake2b.get (st.toList ++ Spec.Blake2b.IV) 12 ^^^ s0)
      let v := Spec.Blake2b.put v 13 (Spec.Blake2b.get v 13 ^^^ 0)
      if f then Spec.Blake2b.put v 14 (Spec.Blake2b.get v 14 ^^^ 0xFFFFFFFFFFFFFFFF) else v := by
  rw [toList8 st]
  cases f <;>
    simp [blakeStart, Spec.Blake2b.put, Spec.Blake2b.get, Spec.Blake2b.IV, blakeIV]

theorem blakeFinish_spec (st : BlakeState) (v : BlakeWork) :
    (blakeFinish st v).toList = (List.range 8).map fun i => Spec.Blake2b.get st.toList i ^^^
      Spec.Blake2b.get v.toList i ^^^ Spec.Blake2b.get v.toList (i + 8) := by
  have e : List.range 8 = [0, 1, 2, 3, 4, 5, 6, 7] := rfl
  rw [e, toList8 st, toList16 v]
  simp [blakeFinish, Spec.Blake2b.get, BitVec.xor_assoc]

/-- The compression function is RFC 7693's `F`. -/
theorem blakeCompressWords_spec (st : BlakeState) (m : List (BitVec 64)) (seen : Nat)
    (hs : seen < 2 ^ 64) (f : Bool) :
    (blakeCompressWords st (Spec.Blake2b.get m) (BitVec.ofNat 64 seen)
      (if f then 0xFFFFFFFFFFFFFFFF else 0)).toList =
      Spec.Blake2b.F st.toList m ((seen + 7) / 8) f := by
  unfold blakeCompressWords Spec.Blake2b.F
  rw [byteCount seen hs, blakeFinish_spec, blakeRounds_spec, blakeStart_spec]
  have e1 : (seen + 7) / 8 % 2 ^ 64 = (seen + 7) / 8 := Nat.mod_eq_of_lt (by omega)
  have e2 : (seen + 7) / 8 / 2 ^ 64 = 0 := Nat.div_eq_of_lt (by omega)
  rw [e1, e2]
  rfl

end Verif
