import Verif.Spec.Collision
import Verif.Proof.Policies
/- Merkle's and Damgård's argument. -/
namespace Verif

open Spec

/-- Runs ending with different last steps. -/
theorem collision_last {σ β : Type} (f : σ → β → σ) (iv : σ) (xs ys : List β) (x y : β)
    (hne : (xs.foldl f iv, x) ≠ (ys.foldl f iv, y))
    (h : (xs ++ [x]).foldl f iv = (ys ++ [y]).foldl f iv) :
    CollisionInRuns f iv (xs ++ [x]) (ys ++ [y]) := by
  refine ⟨xs.length, ys.length, x, y, by simp, by simp, ?_, ?_⟩
  · simpa using hne
  · simpa using h

theorem CollisionInRuns.snoc {σ β : Type} {f : σ → β → σ} {iv : σ} {xs ys : List β} {x y : β}
    (h : CollisionInRuns f iv xs ys) : CollisionInRuns f iv (xs ++ [x]) (ys ++ [y]) := by
  obtain ⟨i, j, b, b', h1, h2, h3, h4⟩ := h
  have hi : i < xs.length := (List.getElem?_eq_some_iff.1 h1).1
  have hj : j < ys.length := (List.getElem?_eq_some_iff.1 h2).1
  refine ⟨i, j, b, b', ?_, ?_, ?_, ?_⟩
  · rw [List.getElem?_append_left hi, h1]
  · rw [List.getElem?_append_left hj, h2]
  · rwa [List.take_append_of_le_length (by omega), List.take_append_of_le_length (by omega)]
  · rwa [List.take_append_of_le_length (by omega), List.take_append_of_le_length (by omega)]

/-- Different runs of the same length with the same result. -/
theorem collision_same_length {σ β : Type} (f : σ → β → σ) (iv : σ) :
    ∀ (n : Nat) (xs ys : List β), xs.length = n → ys.length = n → xs ≠ ys →
      xs.foldl f iv = ys.foldl f iv → CollisionInRuns f iv xs ys := by
  intro n
  induction n with
  | zero =>
    intro xs ys h1 h2 hne _
    exact absurd ((List.eq_nil_of_length_eq_zero h1).trans (List.eq_nil_of_length_eq_zero h2).symm) hne
  | succ n ih =>
    intro xs ys h1 h2 hne h
    rcases List.eq_nil_or_concat xs with rfl | ⟨xs', x, rfl⟩
    · simp at h1
    rcases List.eq_nil_or_concat ys with rfl | ⟨ys', y, rfl⟩
    · simp at h2
    rw [List.concat_eq_append, List.concat_eq_append] at *
    by_cases hlast : (xs'.foldl f iv, x) = (ys'.foldl f iv, y)
    · have h3 := (Prod.mk.inj hlast)
      apply CollisionInRuns.snoc
      apply ih _ _ (by simpa using h1) (by simpa using h2) _ h3.1
      rintro rfl
      exact hne (by rw [h3.2])
    · exact collision_last f iv xs' ys' x y hlast h

/-- A non-empty multiple of the block size: the last block. -/
theorem blocks_eq_snoc {B : Nat} (hB : 0 < B) {p : List Bool} (hd : B ∣ p.length)
    (hp : 0 < p.length) :
    blocks B p = blocks B (p.take (p.length - B)) ++ [p.drop (p.length - B)] := by
  have hle := Nat.le_of_dvd hp hd
  have hd' : B ∣ (p.take (p.length - B)).length := by
    rw [List.length_take, Nat.min_eq_left (by omega)]
    exact Nat.dvd_sub hd (Nat.dvd_refl B)
  have hs : (p.drop (p.length - B)).length = B := by simp; omega
  rw [← blocks_single hB hs, ← blocks_append hB hd', List.take_append_drop]

theorem length_blocks (B : Nat) (p : List Bool) : (blocks B p).length = p.length / B := by
  simp [blocks]

theorem blocks_injective {B : Nat} (hB : 0 < B) : ∀ (n : Nat) (p p' : List Bool),
    p.length = n * B → p'.length = n * B → blocks B p = blocks B p' → p = p' := by
  intro n
  induction n with
  | zero =>
    intro p p' h h' _
    rw [Nat.zero_mul] at h h'
    rw [List.eq_nil_of_length_eq_zero h, List.eq_nil_of_length_eq_zero h']
  | succ n ih =>
    intro p p' h h' e
    have h1 : p.length = n * B + B := by rw [h, Nat.add_mul]; omega
    have h2 : p'.length = n * B + B := by rw [h', Nat.add_mul]; omega
    rw [blocks_eq_snoc (p := p) hB ⟨n + 1, by rw [h, Nat.mul_comm]⟩ (by omega),
      blocks_eq_snoc (p := p') hB ⟨n + 1, by rw [h', Nat.mul_comm]⟩ (by omega)] at e
    have := List.append_inj' e rfl
    have hx := ih (p.take (p.length - B)) (p'.take (p'.length - B)) (by simp; omega)
      (by simp; omega) this.1
    have hy : p.drop (p.length - B) = p'.drop (p'.length - B) := by simpa using this.2
    rw [← List.take_append_drop (p.length - B) p, hx, hy, List.take_append_drop]

theorem bigEndian_injective {L n n' : Nat} (hn : n < 2 ^ L) (hn' : n' < 2 ^ L)
    (h : bigEndian L n = bigEndian L n') : n = n' := by
  apply Nat.eq_of_testBit_eq
  intro i
  by_cases hi : i < L
  · have := congrArg (fun l => l[L - 1 - i]?) h
    simp only [bigEndian, List.getElem?_map, List.getElem?_range (show L - 1 - i < L by omega),
      Option.map_some, Option.some.injEq] at this
    rwa [show L - 1 - (L - 1 - i) = i by omega] at this
  · rw [Nat.testBit_lt_two_pow (Nat.lt_of_lt_of_le hn (Nat.pow_le_pow_right (by omega) (by omega))),
      Nat.testBit_lt_two_pow (Nat.lt_of_lt_of_le hn' (Nat.pow_le_pow_right (by omega) (by omega)))]

theorem littleEndianOctets_injective {L n n' : Nat} (h8 : 8 ∣ L) (hn : n < 2 ^ L)
    (hn' : n' < 2 ^ L) (h : littleEndianOctets L n = littleEndianOctets L n') : n = n' := by
  obtain ⟨v, rfl⟩ := h8
  apply Nat.eq_of_testBit_eq
  intro i
  by_cases hi : i < 8 * v
  · have := congrArg (fun l => l[8 * (i / 8) + (7 - i % 8)]?) h
    simp only [littleEndianOctets, List.getElem?_map,
      List.getElem?_range (show 8 * (i / 8) + (7 - i % 8) < 8 * v by omega),
      Option.map_some, Option.some.injEq] at this
    rwa [show 8 * ((8 * (i / 8) + (7 - i % 8)) / 8) + (7 - (8 * (i / 8) + (7 - i % 8)) % 8) = i by
      omega] at this
  · rw [Nat.testBit_lt_two_pow (Nat.lt_of_lt_of_le hn (Nat.pow_le_pow_right (by omega) (by omega))),
      Nat.testBit_lt_two_pow (Nat.lt_of_lt_of_le hn' (Nat.pow_le_pow_right (by omega) (by omega)))]

theorem encode_injective (h : MDHash) {n n' : Nat} (hn : n < 2 ^ 64) (hn' : n' < 2 ^ 64)
    (e : (standard h).encode n = (standard h).encode n') : n = n' := by
  have hL : 64 ≤ (standard h).length := by cases h <;> decide
  have h8 : 8 ∣ (standard h).length := by cases h <;> decide
  have h1 := Nat.lt_of_lt_of_le hn (Nat.pow_le_pow_right (by omega : 0 < 2) hL)
  have h2 := Nat.lt_of_lt_of_le hn' (Nat.pow_le_pow_right (by omega : 0 < 2) hL)
  unfold Standard.encode at e
  split at e
  · exact bigEndian_injective h1 h2 e
  · exact littleEndianOctets_injective h8 h1 h2 e

theorem length_encode (h : MDHash) (n : Nat) :
    ((standard h).encode n).length = (standard h).length := by
  unfold Standard.encode; split <;> simp [bigEndian, littleEndianOctets]

theorem length_paddedMessage (h : MDHash) (m : Bits) : (paddedMessage h m).length =
    (m.length + (standard h).marker.length + (standard h).length) +
      fillTo (standard h).block (m.length + (standard h).marker.length + (standard h).length) := by
  unfold paddedMessage mdPad
  simp only [List.length_append, List.length_replicate, length_encode]
  omega

theorem paddedMessage_drop (h : MDHash) (m : Bits) :
    (paddedMessage h m).drop ((paddedMessage h m).length - (standard h).length) =
      (standard h).encode m.length := by
  unfold paddedMessage mdPad
  rw [List.length_append, length_encode, Nat.add_sub_cancel, List.drop_left]

/-- Padding then cutting into blocks: different messages, different runs; a common result is a
collision of the compression function. -/
theorem md_collision {σ : Type} (h : MDHash) (f : σ → Bits → σ) (iv : σ) {m m' : Bits}
    (hne : m ≠ m') (hl : m.length < 2 ^ 64) (hl' : m'.length < 2 ^ 64)
    (e : (blocks (standard h).block (paddedMessage h m)).foldl f iv =
      (blocks (standard h).block (paddedMessage h m')).foldl f iv) :
    CollisionInRuns f iv (blocks (standard h).block (paddedMessage h m))
      (blocks (standard h).block (paddedMessage h m')) := by
  have hB : 0 < (standard h).block := by cases h <;> decide
  have hLp : 0 < (standard h).length := by cases h <;> decide
  have hLB : (standard h).length ≤ (standard h).block := by cases h <;> decide
  have hd : ∀ x, (standard h).block ∣ (paddedMessage h x).length := fun x => by
    rw [length_paddedMessage]; exact fillTo_spec hB _
  have hp : ∀ x, 0 < (paddedMessage h x).length := fun x => by
    rw [length_paddedMessage]; omega
  by_cases hlen : m.length = m'.length
  · obtain ⟨n, hn⟩ := hd m
    have hn' : (paddedMessage h m').length = (standard h).block * n := by
      rw [← hn, length_paddedMessage, length_paddedMessage, hlen]
    refine collision_same_length f iv n _ _ ?_ ?_ ?_ e
    · rw [length_blocks, hn, Nat.mul_div_cancel_left _ hB]
    · rw [length_blocks, hn', Nat.mul_div_cancel_left _ hB]
    · intro heq
      apply hne
      have := blocks_injective hB n _ _ (by rw [hn, Nat.mul_comm]) (by rw [hn', Nat.mul_comm]) heq
      unfold paddedMessage mdPad at this
      simp only [List.append_assoc] at this
      exact (List.append_inj this hlen).1
  · rw [blocks_eq_snoc hB (hd m) (hp m), blocks_eq_snoc hB (hd m') (hp m')] at e ⊢
    refine collision_last f iv _ _ _ _ ?_ e
    intro heq
    apply hlen
    have hb := (Prod.mk.inj heq).2
    have hle : ∀ x, (standard h).block ≤ (paddedMessage h x).length := fun x =>
      Nat.le_of_dvd (hp x) (hd x)
    have := congrArg (List.drop ((standard h).block - (standard h).length)) hb
    rw [List.drop_drop, List.drop_drop] at this
    have h1 := hle m
    have h2 := hle m'
    rw [show (paddedMessage h m).length - (standard h).block +
        ((standard h).block - (standard h).length) =
          (paddedMessage h m).length - (standard h).length by omega,
      show (paddedMessage h m').length - (standard h).block +
        ((standard h).block - (standard h).length) =
          (paddedMessage h m').length - (standard h).length by omega,
      paddedMessage_drop, paddedMessage_drop] at this
    exact encode_injective h hl hl' this

end Verif
