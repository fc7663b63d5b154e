import Mathlib.Logic.Function.Iterate
import Verif.Proof.TigerTables
/- The Tiger compressor follows the published definition; the pass and the key schedule are
permutations. -/
namespace Verif.Tiger

open Spec.Tiger (sub add entry octet sboxes turn)

/-- Words as numbers. -/
def abs3 (v : W × W × W) : Nat × Nat × Nat := (v.1.toNat, v.2.1.toNat, v.2.2.toNat)
def nums {n : Nat} (X : Vector W n) : List Nat := X.toList.map BitVec.toNat

theorem toNat_sub' (a b : W) : (a - b).toNat = sub a.toNat b.toNat := by
  rw [BitVec.toNat_sub]
  unfold sub Spec.Tiger.M
  have := b.isLt
  congr 1
  omega

theorem toNat_add' (a b : W) : (a + b).toNat = add a.toNat b.toNat := BitVec.toNat_add a b
theorem toNat_mul' (a b : W) : (a * b).toNat = Spec.Tiger.mul a.toNat b.toNat := BitVec.toNat_mul a b
theorem toNat_not' (a : W) : (~~~a).toNat = Spec.Tiger.not a.toNat := BitVec.toNat_not
theorem toNat_shl' (a : W) (n : Nat) : (a <<< n).toNat = Spec.Tiger.shl a.toNat n :=
  BitVec.toNat_shiftLeft

theorem extract_eq (x : W) (i : Nat) : extract x i = octet x.toNat (7 - i) := by
  unfold extract octet
  rw [BitVec.toNat_ushiftRight]

theorem extract_lt (x : W) (i : Nat) : extract x i < 256 := Nat.mod_lt _ (by omega)

theorem entry_lt (T t i : Nat) : entry T t i < 2 ^ 64 := Nat.mod_lt _ (by decide)

theorem toNat_look {t : List Nat} {k i : Nat} (h : t.getD i 0 = entry sboxes k i) :
    (look t i).toNat = entry sboxes k i := by
  unfold look
  rw [h, BitVec.toNat_ofNat, Nat.mod_eq_of_lt (entry_lt _ _ _)]

theorem toNat_odd (x : W) : (odd x).toNat = entry sboxes 0 (octet x.toNat 0) ^^^
    entry sboxes 1 (octet x.toNat 2) ^^^ entry sboxes 2 (octet x.toNat 4) ^^^
    entry sboxes 3 (octet x.toNat 6) := by
  unfold odd
  simp only [BitVec.toNat_xor]
  rw [toNat_look (tables_eq _ (extract_lt x 7)).1, toNat_look (tables_eq _ (extract_lt x 5)).2.1,
    toNat_look (tables_eq _ (extract_lt x 3)).2.2.1, toNat_look (tables_eq _ (extract_lt x 1)).2.2.2]
  simp only [extract_eq]

theorem toNat_even (x : W) : (even x).toNat = entry sboxes 3 (octet x.toNat 1) ^^^
    entry sboxes 2 (octet x.toNat 3) ^^^ entry sboxes 1 (octet x.toNat 5) ^^^
    entry sboxes 0 (octet x.toNat 7) := by
  unfold even
  simp only [BitVec.toNat_xor]
  rw [toNat_look (tables_eq _ (extract_lt x 0)).1, toNat_look (tables_eq _ (extract_lt x 2)).2.1,
    toNat_look (tables_eq _ (extract_lt x 4)).2.2.1, toNat_look (tables_eq _ (extract_lt x 6)).2.2.2]
  simp only [extract_eq, Nat.sub_zero, Nat.reduceSub]
  generalize entry sboxes 0 _ = a
  generalize entry sboxes 1 _ = b
  generalize entry sboxes 2 _ = c
  generalize entry sboxes 3 _ = d
  rw [Nat.xor_comm (d ^^^ c ^^^ b) a, Nat.xor_assoc, Nat.xor_assoc, Nat.xor_comm c d,
    Nat.xor_comm (d ^^^ c) b]

theorem step_eq (x m : W) (v : W × W × W) :
    abs3 (step x m v) = Spec.Tiger.round sboxes x.toNat m.toNat (abs3 v) := by
  obtain ⟨A, B, C⟩ := v
  simp only [step, abs3, Spec.Tiger.round, toNat_sub', toNat_add', toNat_mul', toNat_odd, toNat_even,
    BitVec.toNat_xor]

/-- Rotations of three. -/
def rot (v : α × α × α) : α × α × α := (v.2.1, v.2.2, v.1)

theorem turn_eq (x m : W) (v : W × W × W) :
    turn sboxes x.toNat m.toNat (abs3 v) = abs3 (rot (step x m v)) := by
  unfold turn
  rw [← step_eq]
  rfl

theorem pass_rot (X : Vector W 8) (m : W) (v : W × W × W) :
    pass X m v = rot (rot (step X[7] m (rot (step X[6] m (rot (step X[5] m (rot (step X[4] m (rot
      (step X[3] m (rot (step X[2] m (rot (step X[1] m (rot (step X[0] m v)))))))))))))))) := rfl

theorem rot3 (v : α × α × α) : rot (rot (rot v)) = v := rfl

theorem nums_eight (X : Vector W 8) : nums X = [X[0].toNat, X[1].toNat, X[2].toNat, X[3].toNat,
    X[4].toNat, X[5].toNat, X[6].toNat, X[7].toNat] := by
  rcases X with ⟨⟨l⟩, hl⟩
  match l, hl with
  | [a, b, c, d, e, f, g, h], _ => rfl

/-- The specification's pass leaves the variables in the order `c, a, b`. -/
theorem pass_eq (X : Vector W 8) (m : W) (v : W × W × W) :
    Spec.Tiger.pass sboxes (nums X) m.toNat (abs3 v) = abs3 (rot (rot (pass X m v))) := by
  rw [pass_rot, nums_eight]
  unfold Spec.Tiger.pass
  simp only [List.foldl_cons, List.foldl_nil, turn_eq, rot3]

/-! The sixteen assignments of the key schedule, in the code and in the specification. -/

def mx0 (X : Vector W 8) : Vector W 8 := X.set 0 (X[0] - (X[7] ^^^ 0xA5A5A5A5A5A5A5A5))
def mx1 (X : Vector W 8) : Vector W 8 := X.set 1 (X[1] ^^^ X[0])
def mx2 (X : Vector W 8) : Vector W 8 := X.set 2 (X[2] + X[1])
def mx3 (X : Vector W 8) : Vector W 8 := X.set 3 (X[3] - (X[2] ^^^ ((~~~X[1]) <<< 19)))
def mx4 (X : Vector W 8) : Vector W 8 := X.set 4 (X[4] ^^^ X[3])
def mx5 (X : Vector W 8) : Vector W 8 := X.set 5 (X[5] + X[4])
def mx6 (X : Vector W 8) : Vector W 8 := X.set 6 (X[6] - (X[5] ^^^ ((~~~X[4]) >>> 23)))
def mx7 (X : Vector W 8) : Vector W 8 := X.set 7 (X[7] ^^^ X[6])
def mx8 (X : Vector W 8) : Vector W 8 := X.set 0 (X[0] + X[7])
def mx9 (X : Vector W 8) : Vector W 8 := X.set 1 (X[1] - (X[0] ^^^ ((~~~X[7]) <<< 19)))
def mx10 (X : Vector W 8) : Vector W 8 := X.set 2 (X[2] ^^^ X[1])
def mx11 (X : Vector W 8) : Vector W 8 := X.set 3 (X[3] + X[2])
def mx12 (X : Vector W 8) : Vector W 8 := X.set 4 (X[4] - (X[3] ^^^ ((~~~X[2]) >>> 23)))
def mx13 (X : Vector W 8) : Vector W 8 := X.set 5 (X[5] ^^^ X[4])
def mx14 (X : Vector W 8) : Vector W 8 := X.set 6 (X[6] + X[5])
def mx15 (X : Vector W 8) : Vector W 8 := X.set 7 (X[7] - (X[6] ^^^ 0x0123456789ABCDEF))

def ks0 (X : List Nat) : List Nat :=
  let word := Spec.Tiger.word; let shl := Spec.Tiger.shl; let not := Spec.Tiger.not
  X.set 0 (sub (word X 0) (word X 7 ^^^ 0xA5A5A5A5A5A5A5A5))
def ks1 (X : List Nat) : List Nat :=
  let word := Spec.Tiger.word; let shl := Spec.Tiger.shl; let not := Spec.Tiger.not
  X.set 1 (word X 1 ^^^ word X 0)
def ks2 (X : List Nat) : List Nat :=
  let word := Spec.Tiger.word; let shl := Spec.Tiger.shl; let not := Spec.Tiger.not
  X.set 2 (add (word X 2) (word X 1))
def ks3 (X : List Nat) : List Nat :=
  let word := Spec.Tiger.word; let shl := Spec.Tiger.shl; let not := Spec.Tiger.not
  X.set 3 (sub (word X 3) (word X 2 ^^^ shl (not (word X 1)) 19))
def ks4 (X : List Nat) : List Nat :=
  let word := Spec.Tiger.word; let shl := Spec.Tiger.shl; let not := Spec.Tiger.not
  X.set 4 (word X 4 ^^^ word X 3)
def ks5 (X : List Nat) : List Nat :=
  let word := Spec.Tiger.word; let shl := Spec.Tiger.shl; let not := Spec.Tiger.not
  X.set 5 (add (word X 5) (word X 4))
def ks6 (X : List Nat) : List Nat :=
  let word := Spec.Tiger.word; let shl := Spec.Tiger.shl; let not := Spec.Tiger.not
  X.set 6 (sub (word X 6) (word X 5 ^^^ (not (word X 4) >>> 23)))
def ks7 (X : List Nat) : List Nat :=
  let word := Spec.Tiger.word; let shl := Spec.Tiger.shl; let not := Spec.Tiger.not
  X.set 7 (word X 7 ^^^ word X 6)
def ks8 (X : List Nat) : List Nat :=
  let word := Spec.Tiger.word; let shl := Spec.Tiger.shl; let not := Spec.Tiger.not
  X.set 0 (add (word X 0) (word X 7))
def ks9 (X : List Nat) : List Nat :=
  let word := Spec.Tiger.word; let shl := Spec.Tiger.shl; let not := Spec.Tiger.not
  X.set 1 (sub (word X 1) (word X 0 ^^^ shl (not (word X 7)) 19))
def ks10 (X : List Nat) : List Nat :=
  let word := Spec.Tiger.word; let shl := Spec.Tiger.shl; let not := Spec.Tiger.not
  X.set 2 (word X 2 ^^^ word X 1)
def ks11 (X : List Nat) : List Nat :=
  let word := Spec.Tiger.word; let shl := Spec.Tiger.shl; let not := Spec.Tiger.not
  X.set 3 (add (word X 3) (word X 2))
def ks12 (X : List Nat) : List Nat :=
  let word := Spec.Tiger.word; let shl := Spec.Tiger.shl; let not := Spec.Tiger.not
  X.set 4 (sub (word X 4) (word X 3 ^^^ (not (word X 2) >>> 23)))
def ks13 (X : List Nat) : List Nat :=
  let word := Spec.Tiger.word; let shl := Spec.Tiger.shl; let not := Spec.Tiger.not
  X.set 5 (word X 5 ^^^ word X 4)
def ks14 (X : List Nat) : List Nat :=
  let word := Spec.Tiger.word; let shl := Spec.Tiger.shl; let not := Spec.Tiger.not
  X.set 6 (add (word X 6) (word X 5))
def ks15 (X : List Nat) : List Nat :=
  let word := Spec.Tiger.word; let shl := Spec.Tiger.shl; let not := Spec.Tiger.not
  X.set 7 (sub (word X 7) (word X 6 ^^^ 0x0123456789ABCDEF))

theorem mix_steps (X : Vector W 8) : mix X = mx15 (mx14 (mx13 (mx12 (mx11 (mx10 (mx9 (mx8 (mx7 (mx6 (mx5 (mx4 (mx3 (mx2 (mx1 (mx0 X))))))))))))))) := rfl

theorem schedule_steps (X : List Nat) : Spec.Tiger.schedule X = ks15 (ks14 (ks13 (ks12 (ks11 (ks10 (ks9 (ks8 (ks7 (ks6 (ks5 (ks4 (ks3 (ks2 (ks1 (ks0 X))))))))))))))) := rfl

theorem nums_set (X : Vector W 8) (i : Nat) (hi : i < 8) (v : W) :
    nums (X.set i v) = (nums X).set i v.toNat := by
  unfold nums
  rw [Vector.toList_set, List.map_set]

theorem word_nums (X : Vector W 8) (i : Nat) (hi : i < 8) :
    Spec.Tiger.word (nums X) i = X[i].toNat := by
  unfold Spec.Tiger.word nums
  rw [List.getD_eq_getElem?_getD, List.getElem?_map, List.getElem?_eq_getElem (by simpa using hi)]
  simp

theorem nums_mx0 (X : Vector W 8) : nums (mx0 X) = ks0 (nums X) := by
  simp only [mx0, ks0, nums_set, word_nums, Nat.reduceLT, toNat_sub', BitVec.toNat_xor]
  rfl
theorem nums_mx1 (X : Vector W 8) : nums (mx1 X) = ks1 (nums X) := by
  simp only [mx1, ks1, nums_set, word_nums, Nat.reduceLT, toNat_sub', toNat_add', toNat_not',
    toNat_shl', BitVec.toNat_ushiftRight, BitVec.toNat_xor, BitVec.toNat_ofNat, Nat.reducePow,
    Nat.reduceMod]
theorem nums_mx2 (X : Vector W 8) : nums (mx2 X) = ks2 (nums X) := by
  simp only [mx2, ks2, nums_set, word_nums, Nat.reduceLT, toNat_sub', toNat_add', toNat_not',
    toNat_shl', BitVec.toNat_ushiftRight, BitVec.toNat_xor, BitVec.toNat_ofNat, Nat.reducePow,
    Nat.reduceMod]
theorem nums_mx3 (X : Vector W 8) : nums (mx3 X) = ks3 (nums X) := by
  simp only [mx3, ks3, nums_set, word_nums, Nat.reduceLT, toNat_sub', toNat_add', toNat_not',
    toNat_shl', BitVec.toNat_ushiftRight, BitVec.toNat_xor, BitVec.toNat_ofNat, Nat.reducePow,
    Nat.reduceMod]
theorem nums_mx4 (X : Vector W 8) : nums (mx4 X) = ks4 (nums X) := by
  simp only [mx4, ks4, nums_set, word_nums, Nat.reduceLT, toNat_sub', toNat_add', toNat_not',
    toNat_shl', BitVec.toNat_ushiftRight, BitVec.toNat_xor, BitVec.toNat_ofNat, Nat.reducePow,
    Nat.reduceMod]
theorem nums_mx5 (X : Vector W 8) : nums (mx5 X) = ks5 (nums X) := by
  simp only [mx5, ks5, nums_set, word_nums, Nat.reduceLT, toNat_sub', toNat_add', toNat_not',
    toNat_shl', BitVec.toNat_ushiftRight, BitVec.toNat_xor, BitVec.toNat_ofNat, Nat.reducePow,
    Nat.reduceMod]
theorem nums_mx6 (X : Vector W 8) : nums (mx6 X) = ks6 (nums X) := by
  simp only [mx6, ks6, nums_set, word_nums, Nat.reduceLT, toNat_sub', toNat_add', toNat_not',
    toNat_shl', BitVec.toNat_ushiftRight, BitVec.toNat_xor, BitVec.toNat_ofNat, Nat.reducePow,
    Nat.reduceMod]
theorem nums_mx7 (X : Vector W 8) : nums (mx7 X) = ks7 (nums X) := by
  simp only [mx7, ks7, nums_set, word_nums, Nat.reduceLT, toNat_sub', toNat_add', toNat_not',
    toNat_shl', BitVec.toNat_ushiftRight, BitVec.toNat_xor, BitVec.toNat_ofNat, Nat.reducePow,
    Nat.reduceMod]
theorem nums_mx8 (X : Vector W 8) : nums (mx8 X) = ks8 (nums X) := by
  simp only [mx8, ks8, nums_set, word_nums, Nat.reduceLT, toNat_sub', toNat_add', toNat_not',
    toNat_shl', BitVec.toNat_ushiftRight, BitVec.toNat_xor, BitVec.toNat_ofNat, Nat.reducePow,
    Nat.reduceMod]
theorem nums_mx9 (X : Vector W 8) : nums (mx9 X) = ks9 (nums X) := by
  simp only [mx9, ks9, nums_set, word_nums, Nat.reduceLT, toNat_sub', toNat_add', toNat_not',
    toNat_shl', BitVec.toNat_ushiftRight, BitVec.toNat_xor, BitVec.toNat_ofNat, Nat.reducePow,
    Nat.reduceMod]
theorem nums_mx10 (X : Vector W 8) : nums (mx10 X) = ks10 (nums X) := by
  simp only [mx10, ks10, nums_set, word_nums, Nat.reduceLT, toNat_sub', toNat_add', toNat_not',
    toNat_shl', BitVec.toNat_ushiftRight, BitVec.toNat_xor, BitVec.toNat_ofNat, Nat.reducePow,
    Nat.reduceMod]
theorem nums_mx11 (X : Vector W 8) : nums (mx11 X) = ks11 (nums X) := by
  simp only [mx11, ks11, nums_set, word_nums, Nat.reduceLT, toNat_sub', toNat_add', toNat_not',
    toNat_shl', BitVec.toNat_ushiftRight, BitVec.toNat_xor, BitVec.toNat_ofNat, Nat.reducePow,
    Nat.reduceMod]
theorem nums_mx12 (X : Vector W 8) : nums (mx12 X) = ks12 (nums X) := by
  simp only [mx12, ks12, nums_set, word_nums, Nat.reduceLT, toNat_sub', toNat_add', toNat_not',
    toNat_shl', BitVec.toNat_ushiftRight, BitVec.toNat_xor, BitVec.toNat_ofNat, Nat.reducePow,
    Nat.reduceMod]
theorem nums_mx13 (X : Vector W 8) : nums (mx13 X) = ks13 (nums X) := by
  simp only [mx13, ks13, nums_set, word_nums, Nat.reduceLT, toNat_sub', toNat_add', toNat_not',
    toNat_shl', BitVec.toNat_ushiftRight, BitVec.toNat_xor, BitVec.toNat_ofNat, Nat.reducePow,
    Nat.reduceMod]
theorem nums_mx14 (X : Vector W 8) : nums (mx14 X) = ks14 (nums X) := by
  simp only [mx14, ks14, nums_set, word_nums, Nat.reduceLT, toNat_sub', toNat_add', toNat_not',
    toNat_shl', BitVec.toNat_ushiftRight, BitVec.toNat_xor, BitVec.toNat_ofNat, Nat.reducePow,
    Nat.reduceMod]
theorem nums_mx15 (X : Vector W 8) : nums (mx15 X) = ks15 (nums X) := by
  simp only [mx15, ks15, nums_set, word_nums, Nat.reduceLT, toNat_sub', BitVec.toNat_xor]
  rfl

theorem mix_eq (X : Vector W 8) : nums (mix X) = Spec.Tiger.schedule (nums X) := by
  rw [mix_steps, schedule_steps]
  simp only [nums_mx0, nums_mx1, nums_mx2, nums_mx3, nums_mx4, nums_mx5, nums_mx6, nums_mx7, nums_mx8, nums_mx9, nums_mx10, nums_mx11, nums_mx12, nums_mx13, nums_mx14, nums_mx15]

section
attribute [local irreducible] mix pass

theorem passes3_eq (block : Vector W 8) (v : W × W × W) :
    passes3 block v = (mix (mix block), rot (rot (pass (mix (mix block)) 9 (rot (rot
      (pass (mix block) 7 (rot (rot (pass block 5 v))))))))) := rfl

theorem extraPass_eq (X : Vector W 8) (v : W × W × W) :
    extraPass (X, v) = (mix X, rot (rot (pass (mix X) 9 v))) := rfl

end

theorem foldl_const {α : Type} (g : α → α) (n : Nat) (a : α) :
    (List.range n).foldl (fun s _ => g s) a = g^[n] a := by
  induction n generalizing a with
  | zero => rfl
  | succ n ih =>
    rw [List.range_succ, List.foldl_append, ih, Function.iterate_succ_apply']
    rfl

theorem multiplier_ge {j : Nat} (h : 2 ≤ j) : Spec.Tiger.multiplier j = (9 : W).toNat := by
  unfold Spec.Tiger.multiplier
  rw [if_neg (by omega), if_neg (by omega)]; rfl

theorem passes_eq (n j : Nat) (hj : 2 ≤ j) (X : Vector W 8) (v : W × W × W) :
    Spec.Tiger.passes sboxes n j (nums X) (abs3 v) =
      abs3 (extraPass^[n] (X, rot (rot (pass X 9 v)))).2 := by
  induction n generalizing j X v with
  | zero =>
    unfold Spec.Tiger.passes
    rw [multiplier_ge hj, pass_eq]; rfl
  | succ n ih =>
    unfold Spec.Tiger.passes
    rw [multiplier_ge hj, pass_eq, ← mix_eq, ih (j + 1) (by omega), Function.iterate_succ_apply,
      extraPass_eq]

/-- The three variables of a state. -/
def vars3 (v : Vector W 3) : W × W × W := (v[0], v[1], v[2])

theorem compress_eq (P : Nat) (hP : 3 ≤ P) (st : Vector W 3) (block : Vector W 8) :
    abs3 (vars3 (compress P st block)) =
      Spec.Tiger.compress sboxes P (nums block) (abs3 (vars3 st)) := by
  obtain ⟨n, rfl⟩ := Nat.exists_eq_add_of_le hP
  have e : Spec.Tiger.passes sboxes (3 + n - 1) 0 (nums block) (abs3 (vars3 st)) =
      abs3 ((List.range (3 + n - 3)).foldl (fun s _ => extraPass s) (passes3 block (vars3 st))).2 := by
    rw [foldl_const, passes3_eq, show 3 + n - 1 = n + 2 by omega, show 3 + n - 3 = n by omega]
    rw [Spec.Tiger.passes, Spec.Tiger.passes]
    rw [show Spec.Tiger.multiplier 0 = (5 : W).toNat from rfl,
      show Spec.Tiger.multiplier (0 + 1) = (7 : W).toNat from rfl, pass_eq, ← mix_eq, pass_eq, ← mix_eq,
      passes_eq n _ (by omega)]
  unfold Spec.Tiger.compress
  rw [e]
  unfold compress
  rw [show (st[0], st[1], st[2]) = vars3 st from rfl]
  generalize ((List.range (3 + n - 3)).foldl (fun s _ => extraPass s) (passes3 block (vars3 st))).2 = r
  obtain ⟨A, B, C⟩ := r
  change ((st[0] ^^^ A).toNat, (B - st[1]).toNat, (st[2] + C).toNat) = _
  rw [toNat_sub', toNat_add', BitVec.toNat_xor, Nat.xor_comm, show add st[2].toNat C.toNat =
    add C.toNat st[2].toNat by unfold add; rw [Nat.add_comm]]
  rfl

/-! Permutations. -/

theorem set_bijective (i : Nat) (hi : i < 8) (op inv : W → W → W) (h1 : ∀ x y, inv (op x y) y = x)
    (h2 : ∀ x y, op (inv x y) y = x) (f : Vector W 8 → W) (hf : ∀ X v, f (X.set i v) = f X) :
    Function.Bijective fun X : Vector W 8 => X.set i (op X[i] (f X)) := by
  apply Function.bijective_iff_has_inverse.2
  refine ⟨fun X => X.set i (inv X[i] (f X)), ?_, ?_⟩
  · intro X
    simp only [hf, Vector.getElem_set_self, h1, Vector.set_set, Vector.set_getElem_self]
  · intro X
    simp only [hf, Vector.getElem_set_self, h2, Vector.set_set, Vector.set_getElem_self]

theorem set_sub_bijective (i : Nat) (hi : i < 8) (f : Vector W 8 → W)
    (hf : ∀ X v, f (X.set i v) = f X) : Function.Bijective fun X : Vector W 8 => X.set i (X[i] - f X) :=
  set_bijective i hi (· - ·) (· + ·) (fun x y => BitVec.sub_add_cancel x y)
    (fun x y => BitVec.add_sub_cancel x y) f hf

theorem set_add_bijective (i : Nat) (hi : i < 8) (f : Vector W 8 → W)
    (hf : ∀ X v, f (X.set i v) = f X) : Function.Bijective fun X : Vector W 8 => X.set i (X[i] + f X) :=
  set_bijective i hi (· + ·) (· - ·) (fun x y => BitVec.add_sub_cancel x y)
    (fun x y => BitVec.sub_add_cancel x y) f hf

theorem set_xor_bijective (i : Nat) (hi : i < 8) (f : Vector W 8 → W)
    (hf : ∀ X v, f (X.set i v) = f X) : Function.Bijective fun X : Vector W 8 => X.set i (X[i] ^^^ f X) :=
  set_bijective i hi (· ^^^ ·) (· ^^^ ·)
    (fun x y => by rw [BitVec.xor_assoc, BitVec.xor_self, BitVec.xor_zero])
    (fun x y => by rw [BitVec.xor_assoc, BitVec.xor_self, BitVec.xor_zero]) f hf

theorem mx0_bijective : Function.Bijective mx0 :=
  set_sub_bijective 0 (by omega) (fun X => (X[7] ^^^ 0xA5A5A5A5A5A5A5A5)) (fun X v => by simp)
theorem mx1_bijective : Function.Bijective mx1 :=
  set_xor_bijective 1 (by omega) (fun X => X[0]) (fun X v => by simp)
theorem mx2_bijective : Function.Bijective mx2 :=
  set_add_bijective 2 (by omega) (fun X => X[1]) (fun X v => by simp)
theorem mx3_bijective : Function.Bijective mx3 :=
  set_sub_bijective 3 (by omega) (fun X => (X[2] ^^^ ((~~~X[1]) <<< 19))) (fun X v => by simp)
theorem mx4_bijective : Function.Bijective mx4 :=
  set_xor_bijective 4 (by omega) (fun X => X[3]) (fun X v => by simp)
theorem mx5_bijective : Function.Bijective mx5 :=
  set_add_bijective 5 (by omega) (fun X => X[4]) (fun X v => by simp)
theorem mx6_bijective : Function.Bijective mx6 :=
  set_sub_bijective 6 (by omega) (fun X => (X[5] ^^^ ((~~~X[4]) >>> 23))) (fun X v => by simp)
theorem mx7_bijective : Function.Bijective mx7 :=
  set_xor_bijective 7 (by omega) (fun X => X[6]) (fun X v => by simp)
theorem mx8_bijective : Function.Bijective mx8 :=
  set_add_bijective 0 (by omega) (fun X => X[7]) (fun X v => by simp)
theorem mx9_bijective : Function.Bijective mx9 :=
  set_sub_bijective 1 (by omega) (fun X => (X[0] ^^^ ((~~~X[7]) <<< 19))) (fun X v => by simp)
theorem mx10_bijective : Function.Bijective mx10 :=
  set_xor_bijective 2 (by omega) (fun X => X[1]) (fun X v => by simp)
theorem mx11_bijective : Function.Bijective mx11 :=
  set_add_bijective 3 (by omega) (fun X => X[2]) (fun X v => by simp)
theorem mx12_bijective : Function.Bijective mx12 :=
  set_sub_bijective 4 (by omega) (fun X => (X[3] ^^^ ((~~~X[2]) >>> 23))) (fun X v => by simp)
theorem mx13_bijective : Function.Bijective mx13 :=
  set_xor_bijective 5 (by omega) (fun X => X[4]) (fun X v => by simp)
theorem mx14_bijective : Function.Bijective mx14 :=
  set_add_bijective 6 (by omega) (fun X => X[5]) (fun X v => by simp)
theorem mx15_bijective : Function.Bijective mx15 :=
  set_sub_bijective 7 (by omega) (fun X => (X[6] ^^^ 0x0123456789ABCDEF)) (fun X v => by simp)

theorem mix_bijective : Function.Bijective mix := by
  rw [show mix = fun X => mx15 (mx14 (mx13 (mx12 (mx11 (mx10 (mx9 (mx8 (mx7 (mx6 (mx5 (mx4 (mx3 (mx2 (mx1 (mx0 X))))))))))))))) from funext mix_steps]
  exact mx15_bijective.comp (mx14_bijective.comp (mx13_bijective.comp (mx12_bijective.comp (mx11_bijective.comp (mx10_bijective.comp (mx9_bijective.comp (mx8_bijective.comp (mx7_bijective.comp (mx6_bijective.comp (mx5_bijective.comp (mx4_bijective.comp (mx3_bijective.comp (mx2_bijective.comp (mx1_bijective.comp (mx0_bijective)))))))))))))))

theorem step_bijective (x m m' : W) (hm : m * m' = 1#64) : Function.Bijective (step x m) := by
  have h1 : ∀ b : W, b * m * m' = b := fun b => by rw [BitVec.mul_assoc, hm, BitVec.mul_one]
  have h2 : ∀ b : W, b * m' * m = b := fun b => by
    rw [BitVec.mul_assoc, BitVec.mul_comm m' m, hm, BitVec.mul_one]
  apply Function.bijective_iff_has_inverse.2
  refine ⟨fun v => (v.1 + odd v.2.2, v.2.1 * m' - even v.2.2, v.2.2 ^^^ x), ?_, ?_⟩
  · rintro ⟨a, b, c⟩
    simp only [step, h1, BitVec.sub_add_cancel, BitVec.add_sub_cancel, BitVec.xor_assoc,
      BitVec.xor_self, BitVec.xor_zero]
  · rintro ⟨a, b, c⟩
    simp only [step, h2, BitVec.sub_add_cancel, BitVec.add_sub_cancel, BitVec.xor_assoc,
      BitVec.xor_self, BitVec.xor_zero]

theorem rot_bijective : Function.Bijective (rot : W × W × W → W × W × W) :=
  Function.bijective_iff_has_inverse.2 ⟨fun v => rot (rot v), fun _ => rfl, fun _ => rfl⟩

theorem pass_bijective (X : Vector W 8) (m m' : W) (hm : m * m' = 1#64) : Function.Bijective (pass X m) := by
  have b : ∀ x, Function.Bijective (step x m) := fun x => step_bijective x m m' hm
  have r := rot_bijective
  rw [show pass X m = fun v => _ from funext (pass_rot X m)]
  exact r.comp (r.comp ((b _).comp (r.comp ((b _).comp (r.comp ((b _).comp (r.comp ((b _).comp (r.comp
    ((b _).comp (r.comp ((b _).comp (r.comp ((b _).comp (r.comp (b _))))))))))))))))

end Verif.Tiger
