import Verif.Props.PoseidonTables
import Verif.Spec.PoseidonActive
import Verif.Proof.Observable
import Mathlib.Algebra.BigOperators.Intervals
/-
C90: every difference of two states activates S-boxes of Poseidon.
-/
namespace Verif.Props
open Spec.Poseidon Spec.Mds GrainTables

section
variable {F : Type} [CommRing F] {t : Nat} [NeZero t]

/-- The state of `permute` before round `r`: full and partial rounds in the order of the three loops. -/
def stateBefore (P : PoseidonPolicy) (D : PoseidonData F t) (A : Fin t → F) : Nat → Except Fault (Fin t → F)
  | 0 => .ok A
  | r + 1 => do
    let X ← stateBefore P D A r
    if r < P.halfFullRounds ∨ P.halfFullRounds + P.partRounds ≤ r then fullRound P D X r else partRound P D X r

/-- The words that the S-box layer of round `r` gets: the constants are added before it in the original version, after it in the
Mina version. -/
def sboxInput (P : PoseidonPolicy) (D : PoseidonData F t) (r : Nat) (X : Fin t → F) : Fin t → F :=
  if P.mina then X else fun i => X i + D.rc r i

/-- Whether round `r` is full. -/
def isFull (P : PoseidonPolicy) (r : Nat) : Bool := decide (r < P.halfFullRounds ∨ P.halfFullRounds + P.partRounds ≤ r)

theorem stateBefore_ok (P : PoseidonPolicy) (D : PoseidonData F t) (A : Fin t → F) (r : Nat)
    (hr : r ≤ P.fullRounds + P.partRounds) (hD : P.fullRounds + P.partRounds ≤ D.rounds) :
    stateBefore P D A r = .ok ((List.range r).foldl (fun x r => P.specRound D (isFull P r) r x) A) := by
  induction r with
  | zero => rfl
  | succ r ih =>
    rw [stateBefore, ih (by omega), List.range_succ, List.foldl_append]
    show (if _ then _ else _) = _
    unfold isFull
    split
    · rename_i h
      rw [fullRound_ok P D _ r (by omega) h, List.foldl_cons, List.foldl_nil, decide_eq_true h]
    · rename_i h
      rw [partRound_ok P D _ r (by omega) (by omega), List.foldl_cons, List.foldl_nil, decide_eq_false h]

/-- `permute` ends in the state before the round that would follow the last. -/
theorem C90_states (P : PoseidonPolicy) (D : PoseidonData F t) (A : Fin t → F)
    (hD : P.fullRounds + P.partRounds ≤ D.rounds) :
    poseidonPermute P D A = stateBefore P D A (P.fullRounds + P.partRounds) := by
  rw [stateBefore_ok P D A _ (le_refl _) hD, poseidonPermute_ok P D hD A]
  rfl

/-- The number of active S-boxes of the whole permutation. -/
def activeTotal [DecidableEq F] (P : PoseidonPolicy) (D : PoseidonData F t) (X Y : Nat → Fin t → F) : Nat :=
  ∑ r ∈ Finset.range (P.fullRounds + P.partRounds),
    active (isFull P r) (sboxInput P D r (X r)) (sboxInput P D r (Y r))

end

section
variable {F : Type} [Field F] [Fintype F] [DecidableEq F] {t : Nat} [NeZero t]

/-- The state of the specification before round `r`. -/
def specState (P : PoseidonPolicy) (D : PoseidonData F t) (A : Fin t → F) (r : Nat) : Fin t → F :=
  (List.range r).foldl (fun x r => P.specRound D (isFull P r) r x) A

theorem specState_succ (P : PoseidonPolicy) (D : PoseidonData F t) (A : Fin t → F) (r : Nat) :
    specState P D A (r + 1) = P.specRound D (isFull P r) r (specState P D A r) := by
  unfold specState
  rw [List.range_succ, List.foldl_append, List.foldl_cons, List.foldl_nil]

/-- The difference after a round is the matrix times the difference of the S-box outputs. -/
theorem specRound_sub (P : PoseidonPolicy) (D : PoseidonData F t) (full : Bool) (r : Nat) (x y : Fin t → F) :
    P.specRound D full r x - P.specRound D full r y =
      (Matrix.of D.mds).mulVec (sbox P.sboxPower full (sboxInput P D r x) - sbox P.sboxPower full (sboxInput P D r y)) := by
  rw [Matrix.mulVec_sub]
  unfold PoseidonPolicy.specRound sboxInput
  split
  · simp only [roundMina]; abel
  · simp only [roundOrig]; rfl

theorem sboxInput_ne (P : PoseidonPolicy) (D : PoseidonData F t) (r : Nat) (x y : Fin t → F) (i : Fin t) :
    sboxInput P D r x i ≠ sboxInput P D r y i ↔ x i ≠ y i := by
  unfold sboxInput
  split
  · rfl
  · exact not_congr (add_left_inj _)

theorem active_full (P : PoseidonPolicy) (D : PoseidonData F t) (r : Nat) (x y : Fin t → F) :
    active true (sboxInput P D r x) (sboxInput P D r y) = weight (x - y) := by
  unfold active weight
  congr 1
  ext i
  simp only [Finset.mem_filter, Finset.mem_univ, true_and, true_or, sboxInput_ne, Pi.sub_apply, sub_ne_zero]

theorem weight_sbox (e : Nat) (he : 0 < e) (hc : Nat.Coprime e (Fintype.card F - 1)) (x y : Fin t → F) :
    weight (sbox e true x - sbox e true y) = weight (x - y) := by
  unfold weight
  congr 1
  ext i
  simp only [Finset.mem_filter, Finset.mem_univ, true_and, Pi.sub_apply, sub_ne_zero, sbox, Bool.true_or, if_true]
  exact not_congr (pow_bijective e he hc).1.eq_iff

theorem sboxInput_sub (P : PoseidonPolicy) (D : PoseidonData F t) (r : Nat) (x y : Fin t → F) :
    sboxInput P D r x - sboxInput P D r y = x - y := by
  unfold sboxInput
  split
  · rfl
  · funext i; simp

/-- What C90 needs of a policy and its tables. -/
structure ActiveHyp (P : PoseidonPolicy) (D : PoseidonData F t) : Prop where
  pos : 0 < P.sboxPower
  coprime : Nat.Coprime P.sboxPower (Fintype.card F - 1)
  mds : IsMDS (Matrix.of D.mds)
  observable : Observable (Matrix.of D.mds)

variable {P : PoseidonPolicy} {D : PoseidonData F t}

theorem specState_ne (H : ActiveHyp P D) {A B : Fin t → F} (h : A ≠ B) (r : Nat) : specState P D A r ≠ specState P D B r := by
  intro e
  exact h (foldl_injective _ (fun r => specRound_injective P D H.pos H.coprime (mds_det _ H.mds) _ r) _ e)

theorem full_pair (H : ActiveHyp P D) {x y : Fin t → F} (h : x ≠ y) (r : Nat) :
    t + 1 ≤ active true (sboxInput P D r x) (sboxInput P D r y) +
      active true (sboxInput P D (r + 1) (P.specRound D true r x)) (sboxInput P D (r + 1) (P.specRound D true r y)) := by
  rw [active_full, active_full, specRound_sub, ← sboxInput_sub P D r x y, ← weight_sbox P.sboxPower H.pos H.coprime]
  refine H.mds _ ?_
  intro e
  have := sbox_injective P.sboxPower H.pos H.coprime true (sub_eq_zero.1 e)
  apply h
  have h0 := sboxInput_sub P D r x y
  rw [this, sub_self] at h0
  exact (sub_eq_zero.1 h0.symm)

theorem partial_step {x y : Fin t → F} (r : Nat)
    (h : active false (sboxInput P D r x) (sboxInput P D r y) = 0) :
    x 0 = y 0 ∧ P.specRound D false r x - P.specRound D false r y = (Matrix.of D.mds).mulVec (x - y) := by
  have h0 : x 0 = y 0 := by
    by_contra hne
    have : (0 : Fin t) ∈ Finset.univ.filter fun i : Fin t =>
        ((false = true) ∨ i.val = 0) ∧ sboxInput P D r x i ≠ sboxInput P D r y i := by
      simp only [Finset.mem_filter, Finset.mem_univ, true_and, sboxInput_ne]
      exact ⟨Or.inr rfl, hne⟩
    rw [active, Finset.card_eq_zero] at h
    rw [h] at this
    simp at this
  refine ⟨h0, ?_⟩
  rw [specRound_sub]
  congr 1
  rw [← sboxInput_sub P D r x y]
  funext i
  simp only [Pi.sub_apply, sbox, Bool.false_or, beq_iff_eq]
  split
  · rename_i hi
    have hi' : i = 0 := Fin.ext hi
    have : sboxInput P D r x i = sboxInput P D r y i := by
      by_contra hne
      rw [← ne_eq, sboxInput_ne] at hne
      exact hne (by rw [hi']; exact h0)
    rw [this]; simp
  · rfl

/-- `t` consecutive partial rounds have an active S-box. -/
theorem partial_window (H : ActiveHyp P D) {A B : Fin t → F} (h : A ≠ B) (r : Nat) (hp : ∀ i < t, isFull P (r + i) = false) :
    1 ≤ ∑ i ∈ Finset.range t, active (isFull P (r + i)) (sboxInput P D (r + i) (specState P D A (r + i)))
      (sboxInput P D (r + i) (specState P D B (r + i))) := by
  by_contra hlt
  have hz := Finset.sum_eq_zero_iff.1 (Nat.lt_one_iff.1 (Nat.not_le.1 hlt))
  have key : ∀ i ≤ t, specState P D A (r + i) - specState P D B (r + i) =
      ((Matrix.of D.mds) ^ i).mulVec (specState P D A r - specState P D B r) := by
    intro i
    induction i with
    | zero => intro _; rw [pow_zero, Matrix.one_mulVec, Nat.add_zero]
    | succ i ih =>
      intro hi
      have hzi := hz i (Finset.mem_range.2 (by omega))
      rw [hp i (by omega)] at hzi
      rw [← Nat.add_assoc, specState_succ, specState_succ, hp i (by omega), (partial_step _ hzi).2, ih (by omega),
        Matrix.mulVec_mulVec, ← pow_succ']
  refine specState_ne H h r (sub_eq_zero.1 (H.observable _ ?_))
  intro i hi
  rw [← key i (by omega)]
  have hzi := hz i (Finset.mem_range.2 hi)
  rw [hp i hi] at hzi
  rw [Pi.sub_apply, (partial_step _ hzi).1, sub_self]

theorem sum_windows (f : Nat → Nat) (c w : Nat) : ∀ (n a : Nat), (∀ k < n, c ≤ ∑ i ∈ Finset.range w, f (a + k * w + i)) →
    n * c ≤ ∑ i ∈ Finset.range (n * w), f (a + i) := by
  intro n
  induction n with
  | zero => intro a _; simp
  | succ n ih =>
    intro a h
    have h1 := ih a fun k hk => h k (by omega)
    have h2 := h n (by omega)
    rw [Nat.succ_mul, Nat.succ_mul, Finset.sum_range_add]
    simp only [Nat.add_assoc] at h2 ⊢
    omega

theorem sum_windows_le (f : Nat → Nat) (c w m a : Nat) (h : ∀ k, (k + 1) * w ≤ m → c ≤ ∑ i ∈ Finset.range w, f (a + k * w + i)) :
    m / w * c ≤ ∑ i ∈ Finset.range m, f (a + i) := by
  refine le_trans (sum_windows f c w (m / w) a fun k hk => h k ?_) ?_
  · exact le_trans (Nat.mul_le_mul_right w hk) (Nat.div_mul_le_self m w)
  · exact Finset.sum_le_sum_of_subset (Finset.range_subset_range.2 (Nat.div_mul_le_self m w))

/-- C90, for every policy and table: two different states activate at least `t + 1` S-boxes in every pair of full rounds and one
in every `t` partial rounds of `permute`. -/
theorem C90_active (H : ActiveHyp P D) (hD : P.fullRounds + P.partRounds ≤ D.rounds) (A B : Fin t → F) (h : A ≠ B) :
    ∃ X Y : Nat → Fin t → F,
      (∀ r ≤ P.fullRounds + P.partRounds, stateBefore P D A r = .ok (X r) ∧ stateBefore P D B r = .ok (Y r)) ∧
      (P.fullRounds / 2 / 2 + (P.fullRounds - P.fullRounds / 2) / 2) * (t + 1) + P.partRounds / t ≤ activeTotal P D X Y := by
  refine ⟨specState P D A, specState P D B, fun r hr => ⟨stateBefore_ok P D A r hr hD, stateBefore_ok P D B r hr hD⟩, ?_⟩
  have hh : P.halfFullRounds = P.fullRounds / 2 := by simp [PoseidonPolicy.halfFullRounds, Nat.shiftRight_eq_div_pow]
  have hle : P.fullRounds / 2 ≤ P.fullRounds := Nat.div_le_self _ _
  generalize hf : (fun r => active (isFull P r) (sboxInput P D r (specState P D A r)) (sboxInput P D r (specState P D B r))) = f
  have hfr : ∀ r, active (isFull P r) (sboxInput P D r (specState P D A r)) (sboxInput P D r (specState P D B r)) = f r :=
    fun r => congrFun hf r
  have hpair : ∀ r, isFull P r = true → isFull P (r + 1) = true → t + 1 ≤ ∑ i ∈ Finset.range 2, f (r + i) := by
    intro r h1 h2
    rw [Finset.sum_range_succ, Finset.sum_range_succ, Finset.sum_range_zero, Nat.zero_add, show r + 0 = r from rfl, ← hfr, ← hfr, h1, h2,
      specState_succ, specState_succ, h1]
    exact full_pair H (specState_ne H h r) r
  have hfull : ∀ r, (r < P.fullRounds / 2 ∨ P.fullRounds / 2 + P.partRounds ≤ r) → isFull P r = true := by
    intro r hr
    unfold isFull
    rw [hh]
    exact decide_eq_true hr
  have hpart : ∀ r, P.fullRounds / 2 ≤ r → r < P.fullRounds / 2 + P.partRounds → isFull P r = false := by
    intro r h1 h2
    unfold isFull
    rw [hh]
    exact decide_eq_false (by omega)
  have s1 : P.fullRounds / 2 / 2 * (t + 1) ≤ ∑ i ∈ Finset.range (P.fullRounds / 2), f (0 + i) := by
    refine sum_windows_le f _ 2 _ 0 fun k hk => hpair _ (hfull _ ?_) (hfull _ ?_) <;> left <;> omega
  have s2 : P.partRounds / t * 1 ≤ ∑ i ∈ Finset.range P.partRounds, f (P.fullRounds / 2 + i) := by
    refine sum_windows_le f _ t _ _ fun k hk => ?_
    rw [Nat.succ_mul] at hk
    have := partial_window H h (P.fullRounds / 2 + k * t) fun i hi => hpart _ (by omega) (by omega)
    simpa only [hfr] using this
  have s3 : (P.fullRounds - P.fullRounds / 2) / 2 * (t + 1) ≤
      ∑ i ∈ Finset.range (P.fullRounds - P.fullRounds / 2), f (P.fullRounds / 2 + P.partRounds + i) := by
    refine sum_windows_le f _ 2 _ _ fun k hk => hpair _ (hfull _ ?_) (hfull _ ?_) <;> right <;> omega
  have htot : activeTotal P D (specState P D A) (specState P D B) = ∑ i ∈ Finset.range (P.fullRounds / 2), f (0 + i) +
      ∑ i ∈ Finset.range P.partRounds, f (P.fullRounds / 2 + i) +
      ∑ i ∈ Finset.range (P.fullRounds - P.fullRounds / 2), f (P.fullRounds / 2 + P.partRounds + i) := by
    unfold activeTotal
    rw [show P.fullRounds + P.partRounds = P.fullRounds / 2 + P.partRounds + (P.fullRounds - P.fullRounds / 2) by omega,
      Finset.sum_range_add, Finset.sum_range_add]
    simp only [hfr, Nat.zero_add]
  rw [htot, Nat.add_mul]
  omega
end

/-- What C90 says of one instance: any two different states activate at least `n` S-boxes of the rounds that `permute` runs. -/
def ActiveBound (I : PoseidonInst) (t : Nat) [NeZero t] (n : Nat) : Prop :=
  ∀ A B : Fin t → ZMod I.modulus, A ≠ B → ∃ X Y : Nat → Fin t → ZMod I.modulus,
    (∀ r ≤ I.policy.fullRounds + I.policy.partRounds,
      stateBefore I.policy (tableData I.modulus t I.mds I.rc) A r = .ok (X r) ∧
      stateBefore I.policy (tableData I.modulus t I.mds I.rc) B r = .ok (Y r)) ∧
    I.permute t A = .ok (X (I.policy.fullRounds + I.policy.partRounds)) ∧
    I.permute t B = .ok (Y (I.policy.fullRounds + I.policy.partRounds)) ∧
    n ≤ ∑ r ∈ Finset.range (I.policy.fullRounds + I.policy.partRounds),
      active (isFull I.policy r) (sboxInput I.policy (tableData I.modulus t I.mds I.rc) r (X r))
        (sboxInput I.policy (tableData I.modulus t I.mds I.rc) r (Y r))

theorem activeBound (I : PoseidonInst) (t : Nat) [NeZero t] [Fact I.modulus.Prime] (n : Nat)
    (hr : I.policy.fullRounds + I.policy.partRounds ≤ I.rc.length) (he : 0 < I.policy.sboxPower)
    (hc : Nat.Coprime I.policy.sboxPower (I.modulus - 1))
    (hM : IsMDS (Matrix.of (tableData I.modulus t I.mds I.rc).mds))
    (hO : Observable (Matrix.of (tableData I.modulus t I.mds I.rc).mds))
    (hn : n = (I.policy.fullRounds / 2 / 2 + (I.policy.fullRounds - I.policy.fullRounds / 2) / 2) * (t + 1) +
      I.policy.partRounds / t) : ActiveBound I t n := by
  intro A B h
  have H : ActiveHyp I.policy (tableData I.modulus t I.mds I.rc) := ⟨he, by rw [ZMod.card]; exact hc, hM, hO⟩
  obtain ⟨X, Y, hs, hb⟩ := C90_active H hr A B h
  refine ⟨X, Y, hs, ?_, ?_, ?_⟩
  · rw [PoseidonInst.permute, C90_states _ _ _ hr]; exact (hs _ (le_refl _)).1
  · rw [PoseidonInst.permute, C90_states _ _ _ hr]; exact (hs _ (le_refl _)).2
  · rw [hn]; exact hb

/-- **C90.** In the six permutations of the library any two different states activate at least 35 (three words), 36 (five words)
and 108 (Mina) S-boxes. -/
theorem C90_instances : ActiveBound instBn2 3 35 ∧ ActiveBound instBn4 5 36 ∧ ActiveBound instBls2 3 35 ∧
    ActiveBound instBls4 5 36 ∧ ActiveBound instPallas 3 108 ∧ ActiveBound instVesta 3 108 := by
  obtain ⟨h1, h2, h3, h4, h5, h6⟩ := C63_mds
  haveI : Fact instBn2.modulus.Prime := ⟨prime_altbn128_r⟩
  haveI : Fact instBn4.modulus.Prime := ⟨prime_altbn128_r⟩
  haveI : Fact instBls2.modulus.Prime := ⟨prime_bls12381_r⟩
  haveI : Fact instBls4.modulus.Prime := ⟨prime_bls12381_r⟩
  haveI : Fact instPallas.modulus.Prime := ⟨prime_pallas_p⟩
  haveI : Fact instVesta.modulus.Prime := ⟨prime_vesta_p⟩
  exact ⟨activeBound _ _ _ (le_of_eq altBn128R2_shape.1.symm) (by decide) (by decide +kernel) h1
      (observable_of_cert _ altBn128R2_obs) rfl,
    activeBound _ _ _ (le_of_eq altBn128R4_shape.1.symm) (by decide) (by decide +kernel) h2
      (observable_of_cert _ altBn128R4_obs) rfl,
    activeBound _ _ _ (le_of_eq bls12R2_shape.1.symm) (by decide) (by decide +kernel) h3
      (observable_of_cert _ bls12R2_obs) rfl,
    activeBound _ _ _ (le_of_eq bls12R4_shape.1.symm) (by decide) (by decide +kernel) h4
      (observable_of_cert _ bls12R4_obs) rfl,
    activeBound _ _ _ (le_of_eq pallas_shape.1.symm) (by decide) (by decide +kernel) h5
      (observable_of_cert _ pallas_obs) rfl,
    activeBound _ _ _ (le_of_eq vesta_shape.1.symm) (by decide) (by decide +kernel) h6
      (observable_of_cert _ vesta_obs) rfl⟩

/-- Two states that differ in one word only. -/
example : ∃ X Y : Nat → Fin 3 → ZMod instBn2.modulus, instBn2.permute 3 ![0, 0, 0] = .ok (X 65) ∧
    instBn2.permute 3 ![0, 0, 1] = .ok (Y 65) ∧ 35 ≤ ∑ r ∈ Finset.range 65, active (isFull instBn2.policy r)
      (sboxInput instBn2.policy (tableData instBn2.modulus 3 instBn2.mds instBn2.rc) r (X r))
      (sboxInput instBn2.policy (tableData instBn2.modulus 3 instBn2.mds instBn2.rc) r (Y r)) := by
  haveI : Fact instBn2.modulus.Prime := ⟨prime_altbn128_r⟩
  obtain ⟨X, Y, _, hA, hB, h⟩ := C90_instances.1 ![0, 0, 0] ![0, 0, 1] (by
    intro e
    have := congrFun e 2
    exact zero_ne_one this)
  exact ⟨X, Y, hA, hB, h⟩

/-- A toy permutation over the field with seven elements: exponent 5, two words, four full rounds and three partial ones. -/
example : ∃ X Y : Nat → Fin 2 → ZMod 7, 7 ≤ activeTotal (F := ZMod 7) (t := 2) ⟨1, 1, 5, 4, 3, false⟩
    ⟨fun i j => if i = j then 1 else 2, 7, fun r _ => r⟩ X Y := by
  have h1 : IsMDS (Matrix.of fun i j : Fin 2 => if i = j then (1 : ZMod 7) else 2) := by unfold IsMDS; decide +kernel
  have h2 : Observable (Matrix.of fun i j : Fin 2 => if i = j then (1 : ZMod 7) else 2) := by unfold Observable; decide +kernel
  have h3 : (![0, 0] : Fin 2 → ZMod 7) ≠ ![0, 1] := by decide
  haveI : Fact (Nat.Prime 7) := ⟨by norm_num⟩
  have H : ActiveHyp (F := ZMod 7) (t := 2) ⟨1, 1, 5, 4, 3, false⟩ ⟨fun i j => if i = j then 1 else 2, 7, fun r _ => r⟩ :=
    ⟨by norm_num, by rw [ZMod.card]; norm_num, h1, h2⟩
  obtain ⟨X, Y, _, h⟩ := C90_active H (by norm_num) _ _ h3
  exact ⟨X, Y, h⟩

example (D : PoseidonData (ZMod 7) 2) (hD : D = ⟨fun i j => if i = j then 1 else 2, 7, fun r _ => r⟩) (A : Fin 2 → ZMod 7) :
    poseidonPermute ⟨1, 1, 5, 4, 3, false⟩ D A = stateBefore ⟨1, 1, 5, 4, 3, false⟩ D A 7 :=
  C90_states ⟨1, 1, 5, 4, 3, false⟩ D A (by rw [hD]; decide)

end Verif.Props
