import Mathlib.Data.Fintype.EquivFin
import Verif.Proof.BirthdayBound
import Verif.Props.Modes
import Verif.Props.Multicollision
import Verif.Props.Ripemd
/-
C100: the round functions of MD4, MD5, SHA-0, SHA-1, SHA-2 and RIPEMD-256 are permutations of the chaining value, so every block has
exactly one fixed point of the compression function.
-/
namespace Verif.Props
open Spec

theorem add_right_cancel' {w : Nat} {x y z : BitVec w} (h : x + z = y + z) : x = y := (BitVec.add_left_inj _).1 h
theorem add_left_cancel' {w : Nat} {x y z : BitVec w} (h : z + x = z + y) : x = y := (BitVec.add_right_inj _).1 h

theorem vec8_cases {α : Type} (v : Vector α 8) : ∃ a b c d e f g h, v = #v[a, b, c, d, e, f, g, h] := by
  rcases v with ⟨⟨l⟩, hl⟩
  match l, hl with
  | [a, b, c, d, e, f, g, h], _ => exact ⟨a, b, c, d, e, f, g, h, rfl⟩

theorem vec5_cases {α : Type} (v : Vector α 5) : ∃ a b c d e, v = #v[a, b, c, d, e] := by
  rcases v with ⟨⟨l⟩, hl⟩
  match l, hl with
  | [a, b, c, d, e], _ => exact ⟨a, b, c, d, e, rfl⟩

theorem vec4_cases {α : Type} (v : Vector α 4) : ∃ a b c d, v = #v[a, b, c, d] := by
  rcases v with ⟨⟨l⟩, hl⟩
  match l, hl with
  | [a, b, c, d], _ => exact ⟨a, b, c, d, rfl⟩

theorem vec8_inj {α : Type} {a b c d e f g h a' b' c' d' e' f' g' h' : α}
    (H : #v[a, b, c, d, e, f, g, h] = #v[a', b', c', d', e', f', g', h']) :
    a = a' ∧ b = b' ∧ c = c' ∧ d = d' ∧ e = e' ∧ f = f' ∧ g = g' ∧ h = h' := by
  have := congrArg Vector.toList H
  simpa using this

theorem vec5_inj {α : Type} {a b c d e a' b' c' d' e' : α} (H : #v[a, b, c, d, e] = #v[a', b', c', d', e']) :
    a = a' ∧ b = b' ∧ c = c' ∧ d = d' ∧ e = e' := by
  have := congrArg Vector.toList H
  simpa using this

theorem vec4_inj {α : Type} {a b c d a' b' c' d' : α} (H : #v[a, b, c, d] = #v[a', b', c', d']) :
    a = a' ∧ b = b' ∧ c = c' ∧ d = d' := by
  have := congrArg Vector.toList H
  simpa using this

theorem rotateLeft_injective {w : Nat} (s : Nat) : Function.Injective fun x : BitVec w => x.rotateLeft s := by
  intro x y h
  apply BitVec.eq_of_getLsbD_eq
  intro i hi
  have hs : s % w < w := Nat.mod_lt _ (by omega)
  by_cases hlt : i + s % w < w
  · have h1 := congrArg (fun z : BitVec w => z.getLsbD (i + s % w)) h
    simp only [BitVec.getLsbD_rotateLeft] at h1
    rw [decide_eq_false (by omega), cond_false, cond_false, Nat.add_sub_cancel, decide_eq_true hlt] at h1
    exact h1
  · have h1 := congrArg (fun z : BitVec w => z.getLsbD (i + s % w - w)) h
    simp only [BitVec.getLsbD_rotateLeft] at h1
    rw [decide_eq_true (by omega), cond_true, cond_true, show w - s % w + (i + s % w - w) = i by omega] at h1
    exact h1

theorem sha2_step_injective {w : Nat} (F : Sha.Sha2 w) (kw : BitVec w × BitVec w) : Function.Injective fun v => F.step v kw := by
  intro v v' heq
  obtain ⟨a, b, c, d, e, f, g, h, rfl⟩ := vec8_cases v
  obtain ⟨a', b', c', d', e', f', g', h', rfl⟩ := vec8_cases v'
  obtain ⟨h1, h2, h3, h4, h5, h6, h7, h8⟩ := vec8_inj heq
  simp only [Vector.getElem_mk, List.getElem_toArray, List.getElem_cons_zero, List.getElem_cons_succ] at h1 h2 h3 h4 h5 h6 h7 h8
  subst h2 h3 h4 h6 h7 h8
  have hT := add_right_cancel' h1
  rw [hT] at h5
  have hd := add_right_cancel' h5
  have hh := add_right_cancel' (add_right_cancel' (add_right_cancel' (add_right_cancel' hT)))
  rw [hd, hh]

theorem sha1_step_injective (tw : Nat × BitVec 32) : Function.Injective fun v => Sha.sha1Step v tw := by
  intro v v' heq
  obtain ⟨a, b, c, d, e, rfl⟩ := vec5_cases v
  obtain ⟨a', b', c', d', e', rfl⟩ := vec5_cases v'
  obtain ⟨h1, h2, h3, h4, h5⟩ := vec5_inj heq
  simp only [Vector.getElem_mk, List.getElem_toArray, List.getElem_cons_zero, List.getElem_cons_succ] at h1 h2 h3 h4 h5
  have hb : b = b' := rotateLeft_injective 30 h3
  subst h2 h4 h5 hb
  rw [add_left_cancel' (add_right_cancel' (add_right_cancel' h1))]

theorem md4_step_injective (X : Nat → BitVec 32) (i : Nat) : Function.Injective fun v => Sha.md4Step X v i := by
  intro v v' heq
  obtain ⟨a, b, c, d, rfl⟩ := vec4_cases v
  obtain ⟨a', b', c', d', rfl⟩ := vec4_cases v'
  obtain ⟨h1, h2, h3, h4⟩ := vec4_inj heq
  simp only [Vector.getElem_mk, List.getElem_toArray, List.getElem_cons_zero, List.getElem_cons_succ] at h1 h2 h3 h4
  subst h1 h3 h4
  rw [add_right_cancel' (add_right_cancel' (add_right_cancel' (rotateLeft_injective _ h2)))]

theorem md5_step_injective (X : Nat → BitVec 32) (i : Nat) : Function.Injective fun v => Sha.md5Step X v i := by
  intro v v' heq
  obtain ⟨a, b, c, d, rfl⟩ := vec4_cases v
  obtain ⟨a', b', c', d', rfl⟩ := vec4_cases v'
  obtain ⟨h1, h2, h3, h4⟩ := vec4_inj heq
  simp only [Vector.getElem_mk, List.getElem_toArray, List.getElem_cons_zero, List.getElem_cons_succ] at h1 h2 h3 h4
  subst h1 h3 h4
  rw [add_right_cancel' (add_right_cancel' (add_right_cancel' (rotateLeft_injective _ (add_left_cancel' h2))))]

theorem foldl_injective {α β : Type} (f : α → β → α) (hf : ∀ b, Function.Injective fun a => f a b) (l : List β) :
    Function.Injective fun a => l.foldl f a := by
  induction l with
  | nil => exact fun _ _ h => h
  | cons b l ih => exact fun x y h => hf b (ih h)

/-- **C100, the ciphers.** The rounds of SHA-2, SHA-0 and SHA-1, MD4 and MD5 permute the chaining value, whatever the block. -/
theorem C100_rounds_bijective :
    (∀ {w : Nat} (F : Sha.Sha2 w) M, Function.Bijective (F.run M)) ∧ (∀ rot M, Function.Bijective (Sha.sha1Run rot M)) ∧
    (∀ X, Function.Bijective (Sha.md4Run X)) ∧ ∀ X, Function.Bijective (Sha.md5Run X) :=
  ⟨fun F _ => Finite.injective_iff_bijective.1 (foldl_injective _ (sha2_step_injective F) _),
    fun _ _ => Finite.injective_iff_bijective.1 (foldl_injective _ sha1_step_injective _),
    fun X => Finite.injective_iff_bijective.1 (foldl_injective _ (md4_step_injective X) _),
    fun X => Finite.injective_iff_bijective.1 (foldl_injective _ (md5_step_injective X) _)⟩

theorem computes16_fixed {w n : Nat} {E : Vector (BitVec w) 16 → Vector (BitVec w) n → Vector (BitVec w) n}
    {rounds : (Nat → BitVec w) → Vector (BitVec w) n → Vector (BitVec w) n} (hE : Computes16 E rounds)
    (hr : ∀ M, Function.Bijective (rounds M)) (e : Endian) (b : Bits) : ∃! H, daviesMeyerAdd e E H b = H :=
  C100_fixed_point E (fun k => by rw [show E k = rounds _ from funext (hE k)]; exact hr _) _

/-- **C100, fixed points of the hashes.** With the block ciphers of the standards, every block has exactly one chaining value that the
compression function of SHA-0, SHA-1, SHA-224/256, SHA-384/512, MD4 and MD5 leaves as it is. -/
theorem C100_fixed_points (b : Bits) :
    (∀ rot E, Computes16 E (Sha.sha1Run rot) → ∃! H, daviesMeyerAdd bigOctetBigBit E H b = H) ∧
    (∀ E, Computes16 E Sha.sha256fns.run → ∃! H, daviesMeyerAdd bigOctetBigBit E H b = H) ∧
    (∀ E, Computes16 E Sha.sha512fns.run → ∃! H, daviesMeyerAdd bigOctetBigBit E H b = H) ∧
    (∀ E, Computes16 E Sha.md4Run → ∃! H, daviesMeyerAdd littleOctetBigBit E H b = H) ∧
    (∀ E, Computes16 E Sha.md5Run → ∃! H, daviesMeyerAdd littleOctetBigBit E H b = H) :=
  ⟨fun rot _ hE => computes16_fixed hE (C100_rounds_bijective.2.1 rot) _ b, fun _ hE => computes16_fixed hE (C100_rounds_bijective.1 _) _ b,
    fun _ hE => computes16_fixed hE (C100_rounds_bijective.1 _) _ b, fun _ hE => computes16_fixed hE C100_rounds_bijective.2.2.1 _ b,
    fun _ hE => computes16_fixed hE C100_rounds_bijective.2.2.2 _ b⟩

/-- **C100, RIPEMD.** The compression function of RIPEMD-256 and that of RIPEMD-320 have exactly one fixed point for every block. -/
theorem C100_ripemd_fixed_points (X : Nat → BitVec 32) : (∃! st, Ripemd.compress256 st X = st) ∧ ∃! st, Ripemd.compress320 st X = st := by
  have key : ∀ {n : Nat} (L c : Vector (BitVec 32) n → Vector (BitVec 32) n), (∀ st, c st = st.zipWith (· + ·) (L st)) →
      Function.Bijective L → ∃! st, c st = st := by
    intro n L c hc hL
    have hz : ∀ st, c st = st ↔ L st = Vector.replicate n 0 := by
      intro st
      rw [hc]
      constructor
      · intro h
        apply Vector.ext
        intro i hi
        have h1 := congrArg (fun v => v[i]) h
        simp only [Vector.getElem_zipWith] at h1
        rw [Vector.getElem_replicate]
        exact add_left_cancel' (z := st[i]) (by rw [h1]; exact (BitVec.add_zero _).symm)
      · intro h
        rw [h]
        apply Vector.ext
        intro i hi
        simp
    obtain ⟨st, hst⟩ := hL.2 (Vector.replicate n 0)
    exact ⟨st, (hz st).2 hst, fun st' h' => hL.1 (((hz st').1 h').trans hst.symm)⟩
  exact ⟨key _ (fun st => Ripemd.compress256 st X) (C25_lines256_bijective X).1 (C25_lines256_bijective X).2,
    key _ (fun st => Ripemd.compress320 st X) (C25_lines320_bijective X).1 (C25_lines320_bijective X).2⟩

/-- The unique fixed point for a block of SHA-256 that starts with `abc`. -/
example : ∃! H, daviesMeyerAdd bigOctetBigBit (cipherOf Sha.sha256fns.run) H (octetBits ([97, 98, 99] ++ List.replicate 61 0)) = H :=
  (C100_fixed_points _).2.1 _ (computes16_cipherOf _)

end Verif.Props
