import Verif.Proof.PackUnits
import Verif.Props.Pack
import Verif.Spec.UnitStream
/- C123: the documented `pack` algorithms with units of any number of octets. -/
namespace Verif.Props

open Spec

theorem viewIn_is_stream {u : Nat} (hu0 : 0 < u) (e : Endian) {w : Nat} (hu : u ∣ w) (x : Nat) :
    e.viewIn u w x = chunkStreamIn e.littleOctet e.littleBit u w x := by
  obtain ⟨v, rfl⟩ := hu
  unfold chunkStreamIn Endian.viewIn
  rw [digitsLE_eq, ordered_range, Nat.mul_div_cancel_left _ hu0, List.flatMap_map]
  have : ∀ y, unitStream e.littleBit u y = (List.range u).map fun j =>
      y.testBit (if e.littleBit then j else u - 1 - j) := by
    intro y
    unfold unitStream
    rw [digitsLE_eq, List.map_map, ordered_range]
    apply List.map_congr_left
    intro j _
    simp only [Function.comp]
    generalize (if e.littleBit = true then j else u - 1 - j) = t
    rw [Nat.testBit_eq_decide_div_mod_eq]
    rfl
  have h2 : (List.range v).flatMap (fun k => unitStream e.littleBit u
      (x / (2 ^ u) ^ (if e.littleOctet then k else v - 1 - k) % 2 ^ u)) =
      (List.range v).flatMap (fun k => (List.range u).map fun j =>
        x.testBit (u * (if e.littleOctet then k else v - 1 - k) + (if e.littleBit then j else u - 1 - j))) := by
    congr 1
    funext k
    rw [this]
    apply List.map_congr_left
    intro j hj
    have hj : j < u := List.mem_range.1 hj
    rw [← Nat.pow_mul, Nat.testBit_mod_two_pow,
      Nat.testBit_div_two_pow, Nat.add_comm, decide_eq_true (by split <;> omega), Bool.true_and]
  rw [h2, flatMap_range v u fun k j => x.testBit (u * (if e.littleOctet then k else v - 1 - k) +
    (if e.littleBit then j else u - 1 - j)), Nat.mul_comm v u]
  apply List.map_congr_left
  intro t _
  unfold Endian.posIn
  rw [Nat.mul_div_cancel_left _ hu0]

theorem viewsIn_is_stream {u : Nat} (hu0 : 0 < u) (e : Endian) {w : Nat} (hu : u ∣ w) (xs : List Nat) :
    e.viewsIn u w xs = streamIn e.littleOctet e.littleBit u w xs := by
  unfold Endian.viewsIn streamIn
  congr 1
  funext x
  exact viewIn_is_stream hu0 e hu x

theorem viewsIn_packUnits {u : Nat} (hu0 : 0 < u) (h8 : 8 ∣ u) (i o : Endian) {ib ob : Nat} (hi : 0 < ib) (ho : 0 < ob) (hui : u ∣ ib)
    (huo : u ∣ ob) (hd : ib ∣ ob ∨ ob ∣ ib) (xs : List Nat) (hx : ∀ x ∈ xs, x < 2 ^ ib)
    (hlen : ib < ob → ob / ib ∣ xs.length) : o.viewsIn u ob (packUnits u i o ib ob xs) = i.viewsIn u ib xs := by
  unfold packUnits
  split
  · rename_i hlt
    have hd : ib ∣ ob := by
      rcases hd with h | h
      · exact h
      · exact absurd (Nat.le_of_dvd hi h) (by omega)
    obtain ⟨q, hq⟩ := hlen hlt
    have hk : 0 < ob / ib := Nat.div_pos (by omega) hi
    generalize hkk : ob / ib = k at *
    rw [hq, Nat.mul_div_cancel_left _ hk]
    have e : o.viewsIn u ob ((List.range q).map fun c => implodeUnits u i o ib ob ((xs.drop (c * k)).take k)) =
        i.viewsIn u ib ((List.range q).flatMap fun c => (xs.drop (c * k)).take k) := by
      unfold Endian.viewsIn
      rw [List.flatMap_map, List.flatMap_assoc]
      have : ∀ l : List Nat, (∀ c ∈ l, c < q) →
          l.flatMap (fun c => o.viewIn u ob (implodeUnits u i o ib ob ((xs.drop (c * k)).take k))) =
          l.flatMap (fun c => ((xs.drop (c * k)).take k).flatMap (i.viewIn u ib)) := by
        intro l hl
        induction l with
        | nil => rfl
        | cons c l ih =>
          rw [List.flatMap_cons, List.flatMap_cons, ih fun a ha => hl a (List.mem_cons_of_mem _ ha)]
          congr 1
          apply implodeUnits_stream hu0 h8 i o hi hui hd
          · have := mul_add_le_of_lt (ib := k) (hl c List.mem_cons_self)
            rw [hkk, List.length_take, List.length_drop, hq, Nat.mul_comm k q]
            omega
          · intro x hx'
            exact hx x (List.mem_of_mem_drop (List.mem_of_mem_take hx'))
      exact this _ fun c hc => List.mem_range.1 hc
    rw [e, chunks_join, Nat.mul_comm q k, ← hq, List.take_length]
  · split
    · rename_i hlt
      have hd : ob ∣ ib := by
        rcases hd with h | h
        · exact absurd (Nat.le_of_dvd ho h) (by omega)
        · exact h
      show List.flatMap _ (List.flatMap _ _) = _
      rw [List.flatMap_assoc]
      unfold Endian.viewsIn
      congr 1
      funext x
      exact explodeUnits_stream hu0 h8 i o ho huo hd x
    · have : ib = ob := by omega
      subst this
      unfold Endian.viewsIn
      rw [List.flatMap_map]
      congr 1
      funext x
      unfold Endian.viewIn
      apply List.map_congr_left
      intro t ht
      exact convertUnits_testBit h8 i o hui (List.mem_range.1 ht) x

theorem packUnits_lt (i o : Endian) {ib ob : Nat} (hi : 0 < ib) (hd : ib ∣ ob ∨ ob ∣ ib) (xs : List Nat)
    (hx : ∀ x ∈ xs, x < 2 ^ ib) : ∀ y ∈ packUnits u i o ib ob xs, y < 2 ^ ob := by
  intro y hy
  unfold packUnits at hy
  split at hy
  · rename_i hlt
    obtain ⟨c, -, rfl⟩ := List.mem_map.1 hy
    refine implodeUnits_lt _ _ _ ?_ fun x hx' => hx x (List.mem_of_mem_drop (List.mem_of_mem_take hx'))
    rcases hd with h | h
    · exact h
    · exact absurd (Nat.le_of_dvd hi h) (by omega)
  · split at hy
    · obtain ⟨x, -, h⟩ := List.mem_flatMap.1 hy
      exact explodeUnits_lt _ _ _ _ _ y h
    · obtain ⟨x, hx', rfl⟩ := List.mem_map.1 hy
      have : ib = ob := by omega
      subst this
      exact convertUnits_lt _ _ _ _ _ (hx x hx')

theorem length_packUnits (i o : Endian) {ib ob : Nat} (hi : 0 < ib) (ho : 0 < ob)
    (hd : ib ∣ ob ∨ ob ∣ ib) (xs : List Nat) (hlen : ib < ob → ob / ib ∣ xs.length) :
    (packUnits u i o ib ob xs).length * ob = xs.length * ib := by
  unfold packUnits
  split
  · rename_i hlt
    have hd : ib ∣ ob := by
      rcases hd with h | h
      · exact h
      · exact absurd (Nat.le_of_dvd hi h) (by omega)
    obtain ⟨q, hq⟩ := hlen hlt
    have hk : 0 < ob / ib := Nat.div_pos (by omega) hi
    rw [List.length_map, List.length_range, hq, Nat.mul_div_cancel_left _ hk, Nat.mul_right_comm,
      Nat.div_mul_cancel hd, Nat.mul_comm]
  · split
    · rename_i hlt
      have hd : ob ∣ ib := by
        rcases hd with h | h
        · exact absurd (Nat.le_of_dvd ho h) (by omega)
        · exact h
      induction xs with
      | nil => simp
      | cons x xs ih =>
        rw [List.flatMap_cons, List.length_append, Nat.add_mul, ih (by omega), List.length_cons,
          Nat.succ_mul]
        have : (explodeUnits u i o ib ob x).length = ib / ob := by simp [explodeUnits]
        rw [this, Nat.div_mul_cancel hd, Nat.add_comm]
    · rw [List.length_map, show ib = ob by omega]

/-- **C123.** With units of any number of octets `pack` keeps the bit stream, for all unit and bit orders and all chunk sizes in
whole units one of which divides the other. -/
theorem C123_keeps_stream {u : Nat} (hu0 : 0 < u) (h8 : 8 ∣ u) (i o : Endian) {ib ob : Nat} (hi : 0 < ib) (ho : 0 < ob) (hui : u ∣ ib)
    (huo : u ∣ ob) (hd : ib ∣ ob ∨ ob ∣ ib) (xs : List Nat) (hx : ∀ x ∈ xs, x < 2 ^ ib)
    (hlen : ib < ob → ob / ib ∣ xs.length) :
    streamIn o.littleOctet o.littleBit u ob (packUnits u i o ib ob xs) =
      streamIn i.littleOctet i.littleBit u ib xs ∧
    (packUnits u i o ib ob xs).length * ob = xs.length * ib ∧ ∀ y ∈ packUnits u i o ib ob xs, y < 2 ^ ob := by
  refine ⟨?_, length_packUnits i o hi ho hd xs hlen, packUnits_lt i o hi hd xs hx⟩
  rw [← viewsIn_is_stream hu0 o huo, ← viewsIn_is_stream hu0 i hui]
  exact viewsIn_packUnits hu0 h8 i o hi ho hui huo hd xs hx hlen

/-- **C123.** packing back returns the input. -/
theorem C123_unpack {u : Nat} (hu0 : 0 < u) (h8 : 8 ∣ u) (i o : Endian) {ib ob : Nat} (hi : 0 < ib) (ho : 0 < ob) (hui : u ∣ ib)
    (huo : u ∣ ob) (hd : ib ∣ ob ∨ ob ∣ ib) (xs : List Nat) (hx : ∀ x ∈ xs, x < 2 ^ ib)
    (hlen : ib < ob → ob / ib ∣ xs.length) :
    packUnits u o i ob ib (packUnits u i o ib ob xs) = xs := by
  have hl := length_packUnits (u := u) i o hi ho hd xs hlen
  have hlen' : ob < ib → ib / ob ∣ (packUnits u i o ib ob xs).length := by
    intro hlt
    have hd : ob ∣ ib := by
      rcases hd with h | h
      · exact absurd (Nat.le_of_dvd ho h) (by omega)
      · exact h
    obtain ⟨q, rfl⟩ := hd
    rw [Nat.mul_div_cancel_left _ ho]
    refine ⟨xs.length, Nat.eq_of_mul_eq_mul_right ho ?_⟩
    rw [hl, Nat.mul_comm ob q, ← Nat.mul_assoc, Nat.mul_comm xs.length]
  apply viewsIn_injective (u := u) i hi hui
  · exact packUnits_lt o i ho hd.symm _ (packUnits_lt i o hi hd xs hx)
  · exact hx
  · rw [viewsIn_packUnits hu0 h8 o i ho hi huo hui hd.symm _ (packUnits_lt i o hi hd xs hx) hlen',
      viewsIn_packUnits hu0 h8 i o hi ho hui huo hd xs hx hlen]

/-- **C123.** the stream determines the chunks, so the conversion of a block or of a digest loses nothing:
two inputs with the same packed form are equal, and every output is the packed form of some input. -/
theorem C123_bijective {u : Nat} (hu0 : 0 < u) (h8 : 8 ∣ u) (i o : Endian) {ib ob : Nat} (hi : 0 < ib) (ho : 0 < ob) (hui : u ∣ ib)
    (huo : u ∣ ob) (hd : ib ∣ ob ∨ ob ∣ ib) (n m : Nat) (hnm : n * ib = m * ob) :
    (∀ xs ys : List Nat, xs.length = n → ys.length = n → (∀ x ∈ xs, x < 2 ^ ib) →
      (∀ x ∈ ys, x < 2 ^ ib) → packUnits u i o ib ob xs = packUnits u i o ib ob ys → xs = ys) ∧
    (∀ zs : List Nat, zs.length = m → (∀ z ∈ zs, z < 2 ^ ob) → ∃ xs : List Nat, xs.length = n ∧
      (∀ x ∈ xs, x < 2 ^ ib) ∧ packUnits u i o ib ob xs = zs) := by
  have hn : ∀ xs : List Nat, xs.length = n → ib < ob → ob / ib ∣ xs.length := by
    intro xs h hlt
    have hd : ib ∣ ob := by
      rcases hd with h | h
      · exact h
      · exact absurd (Nat.le_of_dvd hi h) (by omega)
    obtain ⟨q, rfl⟩ := hd
    rw [Nat.mul_div_cancel_left _ hi, h]
    refine ⟨m, Nat.eq_of_mul_eq_mul_right hi ?_⟩
    rw [hnm, Nat.mul_comm ib q, Nat.mul_comm q m, Nat.mul_assoc]
  have hm : ∀ zs : List Nat, zs.length = m → ob < ib → ib / ob ∣ zs.length := by
    intro xs h hlt
    have hd : ob ∣ ib := by
      rcases hd with h | h
      · exact absurd (Nat.le_of_dvd ho h) (by omega)
      · exact h
    obtain ⟨q, rfl⟩ := hd
    rw [Nat.mul_div_cancel_left _ ho, h]
    refine ⟨n, Nat.eq_of_mul_eq_mul_right ho ?_⟩
    rw [← hnm, Nat.mul_comm ob q, Nat.mul_comm q n, Nat.mul_assoc]
  constructor
  · intro xs ys hx hy bx by' h
    rw [← C123_unpack hu0 h8 i o hi ho hui huo hd xs bx (hn xs hx), h,
      C123_unpack hu0 h8 i o hi ho hui huo hd ys by' (hn ys hy)]
  · intro zs hz bz
    refine ⟨packUnits u o i ob ib zs, ?_, packUnits_lt o i ho hd.symm zs bz,
      C123_unpack hu0 h8 o i ho hi huo hui hd.symm zs bz (hm zs hz)⟩
    have := length_packUnits (u := u) o i ho hi hd.symm zs (hm zs hz)
    rw [hz, ← hnm] at this
    exact Nat.eq_of_mul_eq_mul_right hi this

/-- **C123, the reversals.** Reversing the octets of a chunk and then those of each unit exchanges whole units; reversing the
octets of each unit and then the bits of each octet reverses the bits of each unit. -/
theorem C123_reversals {u v a b : Nat} (h8 : 8 ∣ u) (ha : a < v) (hb : b < u) (x : Nat) :
    (reverseUnitOrder u (u * v) x).testBit (u * a + b) = x.testBit (u * (v - 1 - a) + b) ∧
    (reverseBitOrder u (u * v) x).testBit (u * a + b) = x.testBit (u * a + (u - 1 - b)) := by
  obtain ⟨s, rfl⟩ := h8
  exact ⟨testBit_reverseUnitOrder ha hb x, testBit_reverseBitOrder ha hb x⟩

theorem revOctetsInUnits_octet {w x : Nat} (hx : x < 2 ^ w) : revOctetsInUnits 8 w x = x := by
  apply Nat.eq_of_testBit_eq
  intro p
  unfold revOctetsInUnits
  rw [Nat.testBit_ofBits']
  split
  · congr 1
    simp only
    omega
  · rw [Nat.testBit_lt_two_pow (Nat.lt_of_lt_of_le hx (Nat.pow_le_pow_right (by omega) (by omega)))]

theorem convertUnits_octet (i o : Endian) {w x : Nat} (hx : x < 2 ^ w) : convertUnits 8 i o w x = convertUnit i o w x := by
  have h1 : reverseUnitOrder 8 w x = revOctets w x := revOctetsInUnits_octet (Nat.ofBits_lt_two_pow _)
  have h2 : reverseBitOrder 8 w x = revBits w x := by unfold reverseBitOrder; rw [revOctetsInUnits_octet hx]
  have h3 : reverseBitOrder 8 w (revOctets w x) = revBits w (revOctets w x) := by
    unfold reverseBitOrder; rw [revOctetsInUnits_octet (show revOctets w x < 2 ^ w from Nat.ofBits_lt_two_pow _)]
  unfold convertUnits convertUnit
  simp only [h1]
  split
  · split
    · exact h3
    · exact h2
  · rfl

/-- **C123, octets.** With the octet as unit it is the algorithm of C52, which the library uses: the second step of the unit
order reversal and the first one of the bit order reversal can be omitted, as the document notes. -/
theorem C123_octets (i o : Endian) (ib ob : Nat) (xs : List Nat) (hx : ∀ x ∈ xs, x < 2 ^ ib) :
    packUnits 8 i o ib ob xs = packAll i o ib ob xs := by
  unfold packUnits packAll
  split
  · apply List.map_congr_left
    intro c _
    unfold implodeUnits implodeOne
    congr 1
    funext acc k
    rw [convertUnits_octet]
    rw [List.getD_eq_getElem?_getD]
    cases e : ((xs.drop (c * (ob / ib))).take (ob / ib))[k]? with
    | none => exact Nat.two_pow_pos _
    | some b => exact hx b (List.mem_of_mem_drop (List.mem_of_mem_take (List.mem_of_getElem? e)))
  · split
    · unfold explodeUnits explodeOne
      congr 1
      funext x
      apply List.map_congr_left
      intro k _
      exact convertUnits_octet i o (Nat.mod_lt _ (Nat.two_pow_pos _))
    · apply List.map_congr_left
      intro x hx'
      exact convertUnits_octet i o (hx x hx')

/-- **C123, the description in words is not the algorithm.** The section on the order of chunks lets the bit order choose the
shift, and the other way round than the pseudocode. That would not even keep the stream of `big_octet_big_bit` chunks joined
without conversion, which the document says stay unchanged. -/
theorem C123_prose_false : ¬ ∀ (i o : Endian) (xs : List Nat), xs.length = 2 → (∀ x ∈ xs, x < 2 ^ 8) →
    streamIn o.littleOctet o.littleBit 8 16 [implodeProse 8 i o 8 16 xs] = streamIn i.littleOctet i.littleBit 8 8 xs := by
  intro h
  have := h bigOctetBigBit bigOctetBigBit [0x12, 0x34] rfl (by decide)
  revert this
  decide +kernel

/-! The examples of docs/pack.md:68-204. -/
example : packUnits 8 littleOctetBigBit bigOctetBigBit 16 32 [0x1234, 0x5678] = [0x34127856] := by decide +kernel
example : packUnits 8 bigOctetBigBit littleOctetBigBit 16 32 [0x1234, 0x5678] = [0x78563412] := by decide +kernel
example : packUnits 8 bigOctetBigBit bigOctetBigBit 16 64 [0x1234, 0x5678, 0x90ab, 0xcdef] = [0x1234567890abcdef] := by
  decide +kernel
example : packUnits 8 bigOctetLittleBit bigOctetBigBit 8 16 [0x12, 0x34, 0x56, 0x78] = [0x482c, 0x6a1e] := by decide +kernel

/-! Units of two octets. -/
example : packUnits 16 littleOctetBigBit bigOctetBigBit 32 64 [0x12345678, 0x9abcdef0] = [0x56781234def09abc] := by decide +kernel
example : packUnits 16 bigOctetLittleBit bigOctetBigBit 32 16 [0x12345678] = [0x2c48, 0x1e6a] := by decide +kernel
example := C123_keeps_stream (u := 16) (by decide) (by decide) littleOctetLittleBit bigOctetBigBit (ib := 32) (ob := 64) (by decide)
  (by decide) (by decide) (by decide) (by decide) [0x12345678, 0x9abcdef0] (by decide) (by decide)
example : packUnits 16 bigOctetBigBit littleOctetLittleBit 64 32 (packUnits 16 littleOctetLittleBit bigOctetBigBit 32 64
    [0x12345678, 0x9abcdef0]) = [0x12345678, 0x9abcdef0] :=
  C123_unpack (by decide) (by decide) _ _ (by decide) (by decide) (by decide) (by decide) (by decide) _ (by decide) (by decide)
example := C123_bijective (u := 32) (by decide) (by decide) bigOctetLittleBit littleOctetBigBit (ib := 32) (ob := 96) (by decide)
  (by decide) (by decide) (by decide) (by decide) 6 2 rfl
example := (C123_reversals (u := 24) (v := 2) (a := 1) (b := 5) (by decide) (by decide) (by decide) 0x123456789abc).1
example := C123_octets bigOctetBigBit littleOctetBigBit 16 32 [0x1234, 0x5678] (by decide)
example : streamIn false true 16 16 [0x1234] = [false, false, true, false, true, true, false, false,
    false, true, false, false, true, false, false, false] := by decide +kernel

end Verif.Props
