import Verif.Props.Poseidon
import Verif.Props.Grain
import Verif.Proof.Cauchy
import Verif.Proof.GrainTables
import Verif.Proof.FieldPrimes
/-
C61 to C64: the constants tables of Poseidon and the permutations made from them.
-/
namespace Verif.Props
open Spec.Poseidon Spec.Grain Spec.Mds GrainTables

/-- The tables of an instance are those of the reference procedure for a prime field and the given S-box tag: the round
constants and, from the same stream, the Cauchy matrix. -/
def ReferenceTables (sbox : Nat) (I : PoseidonInst) : Prop :=
  I.rc.length = I.policy.fullRounds + I.policy.partRounds ∧ (∀ row ∈ I.rc, row.length = I.policy.stateWords) ∧
  ∃ xy, GeneratesAll
      (seq (initial 1 sbox I.bits I.policy.stateWords I.policy.fullRounds I.policy.partRounds))
      I.bits I.modulus I.rc.flatten xy ∧
    CauchyOf I.modulus I.policy.stateWords xy I.mds

/-- **C61.** The four tables of `original_constants.hpp` are, constant for constant, those of the reference procedure
with S-box tag 0. -/
theorem C61_tables : ∀ I ∈ [instBn2, instBn4, instBls2, instBls4], ReferenceTables 0 I := by
  intro I hI
  simp only [List.mem_cons, List.not_mem_nil, or_false] at hI
  rcases hI with rfl | rfl | rfl | rfl
  · exact ⟨altBn128R2_shape.1, altBn128R2_shape.2.1, altBn128R2XY, altBn128R2_all, altBn128R2_cauchy⟩
  · exact ⟨altBn128R4_shape.1, altBn128R4_shape.2.1, altBn128R4XY, altBn128R4_all, altBn128R4_cauchy⟩
  · exact ⟨bls12R2_shape.1, bls12R2_shape.2.1, bls12R2XY, bls12R2_all, bls12R2_cauchy⟩
  · exact ⟨bls12R4_shape.1, bls12R4_shape.2.1, bls12R4XY, bls12R4_all, bls12R4_cauchy⟩

/-- Two words lists of the same stream: one is a prefix of the other. -/
theorem stream_words (b : Nat → Bool) (n : Nat) (hn : 0 < n) {N N' : Nat} {A B : List (List Bool)}
    (hA : ∀ w ∈ A, w.length = n) (hB : ∀ w ∈ B, w.length = n) (fA : shrunk b 240 N = A.flatten)
    (fB : shrunk b 240 N' = B.flatten) : A <+: B ∨ B <+: A := by
  rcases Nat.le_total N N' with h | h
  · exact Or.inl (words_prefix n hn A B hA hB (by rw [← fA, ← fB]; exact shrunk_prefix b 240 N N' h))
  · exact Or.inr (words_prefix n hn B A hB hA (by rw [← fA, ← fB]; exact shrunk_prefix b 240 N' N h))

theorem generatesAll_aux {p : Nat} {A B X Y : List (List Bool)} (h : A ++ X <+: B ++ Y)
    (gA : ∀ w, A.getLast? = some w → fromBits w < p) (gB : ∀ w, B.getLast? = some w → fromBits w < p)
    (hl : ((A.map fromBits).filter (· < p)).length = ((B.map fromBits).filter (· < p)).length)
    (hx : X.length = Y.length) : A = B ∧ X = Y := by
  have key : ∀ (A B : List (List Bool)), A <+: B → (∀ w, B.getLast? = some w → fromBits w < p) →
      ((A.map fromBits).filter (· < p)).length = ((B.map fromBits).filter (· < p)).length → A = B := by
    rintro A B ⟨X, rfl⟩ hlast hlen
    rcases List.eq_nil_or_concat X with rfl | ⟨X, w, rfl⟩
    · simp
    · exfalso
      have hw := hlast w (by simp)
      simp [hw] at hlen
  have hA : A <+: B ++ Y := (List.prefix_append A X).trans h
  have hAB : A = B := by
    rcases List.prefix_or_prefix_of_prefix hA (List.prefix_append B Y) with h | h
    · exact key A B h gB hl
    · exact (key B A h gA hl.symm).symm
  subst hAB
  refine ⟨rfl, ?_⟩
  exact ((List.prefix_append_right_inj A).1 h).eq_of_length hx

/-- **C61, the specification is not loose.** The constants and the numbers of the matrix are determined by how many of
each there are. -/
theorem C61_unique (b : Nat → Bool) (n p : Nat) (hn : 0 < n) (c c' xy xy' : List Nat) (h : GeneratesAll b n p c xy)
    (h' : GeneratesAll b n p c' xy') (hc : c.length = c'.length) (hx : xy.length = xy'.length) : c = c' ∧ xy = xy' := by
  obtain ⟨N, A, X, lA, fA, cA, gA, xA⟩ := h
  obtain ⟨N', B, Y, lB, fB, cB, gB, xB⟩ := h'
  rw [← cA, ← cB] at hc ⊢
  rw [← xA, ← xB] at hx ⊢
  simp only [List.length_map] at hx
  rcases stream_words b n hn lA lB fA fB with h | h
  · obtain ⟨rfl, rfl⟩ := generatesAll_aux h gA gB hc hx
    exact ⟨rfl, rfl⟩
  · obtain ⟨rfl, rfl⟩ := generatesAll_aux h gB gA hc.symm hx.symm
    exact ⟨rfl, rfl⟩

/-- The first constant is determined by the stream. -/
theorem first_constant {b : Nat → Bool} {n p c d : Nat} {cs xy : List Nat} (hn : 0 < n)
    (h : GeneratesAll b n p [c] xy) (h' : Generates b n p (d :: cs)) : c = d := by
  obtain ⟨N, A, X, lA, fA, cA, gA, xA⟩ := h
  obtain ⟨N', B, lB, fB, cB, gB⟩ := h'
  have hAB : A <+: B ∨ B <+: A := by
    rcases stream_words b n hn lA lB fA fB with h | h
    · exact Or.inl ((List.prefix_append A X).trans h)
    · exact List.prefix_or_prefix_of_prefix (List.prefix_append A X) h
  rcases hAB with h | h
  · have := (h.map fromBits).filter (· < p)
    rw [cA, cB, List.cons_prefix_cons] at this
    exact this.1
  · have := (h.map fromBits).filter (· < p)
    rw [cA, cB, List.cons_prefix_cons] at this
    exact this.1.symm

/-- **C62 is false.** The generator of the library, run with the parameters of any of its own tables, never produces
that table: it seeds the LFSR with S-box tag 1, and already the first constant is another one. -/
theorem C62_false : ∀ I ∈ [instBn2, instBn4, instBls2, instBls4], ∀ bitFuel fuel rows,
    generateRoundConstants bitFuel fuel I.bits I.modulus I.policy.stateWords I.policy.fullRounds
      I.policy.partRounds = some rows → rows.flatten.head? ≠ I.rc.flatten.head? ∧ rows ≠ I.rc := by
  have main : ∀ (I : PoseidonInst) (c d : Nat) (xy : List Nat), 0 < I.bits → c ≠ d →
      GeneratesAll (seq (initial 1 1 I.bits I.policy.stateWords I.policy.fullRounds I.policy.partRounds))
        I.bits I.modulus [c] xy → I.rc.flatten.head? = some d →
      ∀ bitFuel fuel rows, generateRoundConstants bitFuel fuel I.bits I.modulus I.policy.stateWords
        I.policy.fullRounds I.policy.partRounds = some rows →
      rows.flatten.head? ≠ I.rc.flatten.head? ∧ rows ≠ I.rc := by
    intro I c d xy hn hcd hg hd bitFuel fuel rows h
    have hne : rows.flatten.head? ≠ I.rc.flatten.head? := by
      rw [hd]
      intro e
      obtain ⟨_, _, _, g⟩ := C48_poseidon _ _ _ _ _ _ _ _ h
      cases hr : rows.flatten with
      | nil => rw [hr] at e; simp at e
      | cons x xs =>
        rw [hr] at e g
        simp only [List.head?_cons, Option.some.injEq] at e
        subst e
        exact hcd (first_constant hn hg g)
    exact ⟨hne, fun e => hne (by rw [e])⟩
  intro I hI
  simp only [List.mem_cons, List.not_mem_nil, or_false] at hI
  rcases hI with rfl | rfl | rfl | rfl
  · exact main _ _ _ _ (by decide) (by decide) altBn128R2_other rfl
  · exact main _ _ _ _ (by decide) (by decide) altBn128R4_other rfl
  · exact main _ _ _ _ (by decide) (by decide) bls12R2_other rfl
  · exact main _ _ _ _ (by decide) (by decide) bls12R4_other rfl

/-- A table of Cauchy form is maximum distance separable over its field. -/
theorem cauchyOf_mds {p t : Nat} [Fact p.Prime] {xy : List Nat} {M : List (List Nat)} (rc : List (List Nat))
    (h : CauchyOf p t xy M) : IsMDS (Matrix.of (tableData p t M rc).mds) := by
  obtain ⟨_, _, hl, hd, hm⟩ := h
  have inj : ∀ i j, i < 2 * t → j < 2 * t → ((xy.getD i 0 : Nat) : ZMod p) = ((xy.getD j 0 : Nat) : ZMod p) → i = j := by
    intro i j hi hj e
    have e' := (ZMod.natCast_eq_natCast_iff' _ _ _).1 e
    refine (List.Nodup.getElem_inj_iff hd (hi := by simpa [hl] using hi) (hj := by simpa [hl] using hj)).1 ?_
    simpa [List.getElem_map, List.getD_eq_getElem?_getD, List.getElem?_eq_getElem, hl, hi, hj] using e'
  refine cauchy_mds _ (fun i => ((xy.getD i 0 : Nat) : ZMod p)) (fun j => ((xy.getD (t + j) 0 : Nat) : ZMod p)) ?_ ?_ ?_
  · intro i j e
    exact Fin.ext (inj i j (by omega) (by omega) e)
  · intro i j e
    have := inj (t + i) (t + j) (by omega) (by omega) e
    exact Fin.ext (by omega)
  · intro i j
    have := (ZMod.natCast_eq_natCast_iff' _ _ _).2 (hm i i.2 j j.2)
    push_cast at this
    exact this

/-- **C63.** Every matrix of the library, of both constants files, is maximum distance separable over its field. -/
theorem C63_mds :
    IsMDS (Matrix.of (tableData altBn128Scalar 3 instBn2.mds instBn2.rc).mds) ∧
    IsMDS (Matrix.of (tableData altBn128Scalar 5 instBn4.mds instBn4.rc).mds) ∧
    IsMDS (Matrix.of (tableData bls12Scalar 3 instBls2.mds instBls2.rc).mds) ∧
    IsMDS (Matrix.of (tableData bls12Scalar 5 instBls4.mds instBls4.rc).mds) ∧
    IsMDS (Matrix.of (tableData pallasBase 3 instPallas.mds instPallas.rc).mds) ∧
    IsMDS (Matrix.of (tableData vestaBase 3 instVesta.mds instVesta.rc).mds) :=
  ⟨cauchyOf_mds _ altBn128R2_cauchy, cauchyOf_mds _ altBn128R4_cauchy, cauchyOf_mds _ bls12R2_cauchy,
    cauchyOf_mds _ bls12R4_cauchy, cauchyOf_mds _ pallas_cauchy, cauchyOf_mds _ vesta_cauchy⟩

/-- What C64 says of one instance. -/
def GoodPermutation (I : PoseidonInst) (t : Nat) [NeZero t] : Prop :=
  t = I.policy.stateWords ∧
  ∃ f : (Fin t → ZMod I.modulus) → (Fin t → ZMod I.modulus), Function.Bijective f ∧ (∀ A, I.permute t A = .ok (f A)) ∧
    f = perm ((if I.policy.mina then roundMina else roundOrig) I.policy.sboxPower
      (Matrix.of fun i j => (((I.mds.getD i []).getD j 0 : Nat) : ZMod I.modulus))
      (fun r i => (((I.rc.getD r []).getD i 0 : Nat) : ZMod I.modulus))) I.policy.fullRounds I.policy.partRounds

theorem goodPermutation (I : PoseidonInst) (t : Nat) [NeZero t] [Fact I.modulus.Prime] (ht : t = I.policy.stateWords)
    (hr : I.policy.fullRounds + I.policy.partRounds ≤ I.rc.length) (he : 0 < I.policy.sboxPower)
    (hc : Nat.Coprime I.policy.sboxPower (I.modulus - 1))
    (hM : IsMDS (Matrix.of (tableData I.modulus t I.mds I.rc).mds)) : GoodPermutation I t := by
  have hb := C43_bijective I.policy (tableData I.modulus t I.mds I.rc) hr he (by rw [ZMod.card]; exact hc) (mds_det _ hM)
  have hp := C43_permutation I.policy (tableData I.modulus t I.mds I.rc) hr
  obtain ⟨f, hf, e⟩ := hb
  have : f = perm ((if I.policy.mina then roundMina else roundOrig) I.policy.sboxPower
      (Matrix.of (tableData I.modulus t I.mds I.rc).mds) (tableData I.modulus t I.mds I.rc).rc) I.policy.fullRounds
        I.policy.partRounds := by
    funext A
    have := e A
    rw [hp A] at this
    exact (Except.ok.inj this).symm
  exact ⟨ht, f, hf, e, this⟩

/-- **C64.** The six permutations of the library never fault, are those of the specification on the tables of the
library, and are bijections. -/
theorem C64_bijective : GoodPermutation instBn2 3 ∧ GoodPermutation instBn4 5 ∧ GoodPermutation instBls2 3 ∧
    GoodPermutation instBls4 5 ∧ GoodPermutation instPallas 3 ∧ GoodPermutation instVesta 3 := by
  obtain ⟨h1, h2, h3, h4, h5, h6⟩ := C63_mds
  haveI : Fact instBn2.modulus.Prime := ⟨prime_altbn128_r⟩
  haveI : Fact instBn4.modulus.Prime := ⟨prime_altbn128_r⟩
  haveI : Fact instBls2.modulus.Prime := ⟨prime_bls12381_r⟩
  haveI : Fact instBls4.modulus.Prime := ⟨prime_bls12381_r⟩
  haveI : Fact instPallas.modulus.Prime := ⟨prime_pallas_p⟩
  haveI : Fact instVesta.modulus.Prime := ⟨prime_vesta_p⟩
  refine ⟨goodPermutation _ _ rfl (le_of_eq altBn128R2_shape.1.symm) (by decide) (by decide +kernel) h1,
    goodPermutation _ _ rfl (le_of_eq altBn128R4_shape.1.symm) (by decide) (by decide +kernel) h2,
    goodPermutation _ _ rfl (le_of_eq bls12R2_shape.1.symm) (by decide) (by decide +kernel) h3,
    goodPermutation _ _ rfl (le_of_eq bls12R4_shape.1.symm) (by decide) (by decide +kernel) h4,
    goodPermutation _ _ rfl (le_of_eq pallas_shape.1.symm) (by decide) (by decide +kernel) h5,
    goodPermutation _ _ rfl (le_of_eq vesta_shape.1.symm) (by decide) (by decide +kernel) h6⟩

/-- The policies of the instances are those that the library has for these parameters. -/
theorem C64_policies : poseidonPolicy 128 2 = some instBn2.policy ∧ poseidonPolicy 128 4 = some instBn4.policy ∧
    poseidonPolicy 128 2 = some instBls2.policy ∧ poseidonPolicy 128 4 = some instBls4.policy ∧
    instPallas.policy = minaPoseidonPolicy ∧ instVesta.policy = minaPoseidonPolicy := by decide

/-- The bit length recorded for each instance is that of its modulus. -/
theorem C64_bits : ∀ I ∈ [instBn2, instBn4, instBls2, instBls4, instPallas, instVesta],
    2 ^ (I.bits - 1) ≤ I.modulus ∧ I.modulus < 2 ^ I.bits := by
  intro I hI
  simp only [List.mem_cons, List.not_mem_nil, or_false] at hI
  rcases hI with rfl | rfl | rfl | rfl | rfl | rfl <;> decide +kernel

/-- **C65 is false.** The policy for security 128 and rate 8 has rate 4. -/
theorem C65_false : ¬ ∀ security rate P, poseidonPolicy security rate = some P → P.rate = rate := by
  intro h
  exact absurd (h 128 8 _ rfl) (by decide)

/-- **C65, what holds.** Every other policy has the rate it is asked for; all have one word of capacity, exponent 5 and
eight full rounds. -/
theorem C65_partial (security rate : Nat) (P : PoseidonPolicy) (h : poseidonPolicy security rate = some P) :
    ((security, rate) ≠ (128, 8) → P.rate = rate) ∧ P.capacity = 1 ∧ P.stateWords = P.rate + 1 ∧ P.sboxPower = 5 ∧
      P.fullRounds = 8 ∧ P.mina = false := by
  unfold poseidonPolicy at h
  split_ifs at h with h1 h2 h3 h4 h5 h6 <;> cases h <;>
    simp_all [PoseidonPolicy.stateWords]

/-- **C66 is false.** `process_block` reads past the block on every block, because the block has `rate` words and the
loop runs over all words of the state. -/
theorem C66_false {F : Type} {n : Nat} (xorF : F → F → F)
    (perm : (Fin (n + 1) → F) → Except Fault (Fin (n + 1) → F)) (state : Fin (n + 1) → F) (block : List F)
    (hb : block.length = n) : poseidonProcessBlock xorF perm state block = .error .outOfRange := by
  have key : ∀ (l : List (Fin (n + 1))) (A : Fin (n + 1) → F), Fin.last n ∈ l →
      l.foldlM (poseidonXorWord xorF block) A = Except.error Fault.outOfRange := by
    intro l
    induction l with
    | nil => intro A h; simp at h
    | cons i l ih =>
      intro A h
      rw [List.foldlM_cons]
      by_cases hi : i.val < block.length
      · have e : poseidonXorWord xorF block A i = .ok (Function.update A i (xorF (A i) block[i.val])) := by
          rw [poseidonXorWord, List.getElem?_eq_getElem hi]
        rw [e]
        refine ih _ ?_
        rcases List.mem_cons.1 h with h | h
        · rw [← h, Fin.val_last, hb] at hi; omega
        · exact h
      · have e : poseidonXorWord xorF block A i = .error .outOfRange := by
          rw [poseidonXorWord, List.getElem?_eq_none (by omega)]
        rw [e]; rfl
  rw [poseidonProcessBlock, key _ _ (List.mem_finRange _)]
  rfl

/-- A block of two words and a state of three. -/
example : poseidonProcessBlock (F := ZMod 13) (t := 3) (· + ·) .ok (fun _ => 0) [1, 2] = .error .outOfRange :=
  C66_false _ _ _ _ rfl

example : (∃ P, poseidonPolicy 80 2 = some P) ∧ ∀ P, poseidonPolicy 80 2 = some P → P.rate = 2 ∧ P.capacity = 1 :=
  ⟨⟨_, rfl⟩, fun P h => ⟨(C65_partial 80 2 P h).1 (by decide), (C65_partial 80 2 P h).2.1⟩⟩

/-- No other tables of these lengths are generated with these parameters. -/
example (c xy : List Nat) (h : GeneratesAll (seq (initial 1 0 255 3 8 57)) 255 bls12Scalar c xy)
    (hc : c.length = PoseidonTables.bls12R2Rc.flatten.length) (hx : xy.length = bls12R2XY.length) :
    c = PoseidonTables.bls12R2Rc.flatten ∧ xy = bls12R2XY :=
  C61_unique _ _ _ (by decide) _ _ _ _ h bls12R2_all hc hx

end Verif.Props
