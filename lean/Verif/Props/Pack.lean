import Verif.Proof.PackStream
import Verif.Spec.Stream
/- C52: the documented `pack` algorithms keep the bit stream. -/
namespace Verif.Props

open Spec

theorem digitsLE_eq (b : Nat) (n x : Nat) :
    digitsLE b n x = (List.range n).map fun k => x / b ^ k % b := by
  induction n generalizing x with
  | zero => rfl
  | succ n ih =>
    rw [digitsLE, ih, List.range_succ_eq_map, List.map_cons, List.map_map]
    congr 1
    · simp
    · apply List.map_congr_left
      intro k _
      simp only [Function.comp]
      rw [Nat.pow_succ, Nat.mul_comm, Nat.div_div_eq_div_mul]

theorem ordered_range {α : Type} (little : Bool) (n : Nat) (f : Nat → α) :
    ordered little ((List.range n).map f) =
      (List.range n).map fun k => f (if little then k else n - 1 - k) := by
  cases little with
  | true => rfl
  | false =>
    simp only [ordered, Bool.false_eq_true, if_false]
    apply List.ext_getElem
    · simp
    · intro k h1 h2
      simp

theorem view_is_stream (e : Endian) {w : Nat} (h8 : 8 ∣ w) (x : Nat) :
    e.view w x = chunkStream e.littleOctet e.littleBit w x := by
  obtain ⟨v, rfl⟩ := h8
  unfold chunkStream Endian.view
  rw [digitsLE_eq, ordered_range, show 8 * v / 8 = v by omega, List.flatMap_map]
  have : ∀ y, octetStream e.littleBit y = (List.range 8).map fun j =>
      y.testBit (if e.littleBit then j else 7 - j) := by
    intro y
    unfold octetStream
    rw [digitsLE_eq, List.map_map, ordered_range]
    apply List.map_congr_left
    intro j _
    simp only [Function.comp]
    generalize (if e.littleBit = true then j else 8 - 1 - j) = t
    rw [Nat.testBit_eq_decide_div_mod_eq]
    rfl
  have h2 : (List.range v).flatMap (fun k => octetStream e.littleBit
      (x / 256 ^ (if e.littleOctet then k else v - 1 - k) % 256)) =
      (List.range v).flatMap (fun k => (List.range 8).map fun j =>
        x.testBit (8 * (if e.littleOctet then k else v - 1 - k) + (if e.littleBit then j else 7 - j))) := by
    congr 1
    funext k
    rw [this]
    apply List.map_congr_left
    intro j hj
    have hj : j < 8 := List.mem_range.1 hj
    rw [show (256 : Nat) = 2 ^ 8 by rfl, ← Nat.pow_mul, Nat.testBit_mod_two_pow,
      Nat.testBit_div_two_pow, Nat.add_comm, decide_eq_true (by split <;> omega), Bool.true_and]
  rw [h2, flatMap_range v 8 fun k j => x.testBit (8 * (if e.littleOctet then k else v - 1 - k) +
    (if e.littleBit then j else 7 - j)), Nat.mul_comm v 8]
  apply List.map_congr_left
  intro t _
  unfold Endian.pos
  rw [show 8 * v / 8 = v by omega]

theorem views_is_stream (e : Endian) {w : Nat} (h8 : 8 ∣ w) (xs : List Nat) :
    e.views w xs = stream e.littleOctet e.littleBit w xs := by
  unfold Endian.views stream
  congr 1
  funext x
  exact view_is_stream e h8 x

theorem chunks_join {α : Type} (k q : Nat) (xs : List α) :
    (List.range q).flatMap (fun c => (xs.drop (c * k)).take k) = xs.take (q * k) := by
  induction q with
  | zero => simp
  | succ q ih =>
    rw [List.range_succ, List.flatMap_append, ih, Nat.succ_mul, List.take_add]
    simp

theorem views_packAll (i o : Endian) {ib ob : Nat} (hi : 0 < ib) (ho : 0 < ob) (h8i : 8 ∣ ib)
    (h8o : 8 ∣ ob) (hd : ib ∣ ob ∨ ob ∣ ib) (xs : List Nat) (hx : ∀ x ∈ xs, x < 2 ^ ib)
    (hlen : ib < ob → ob / ib ∣ xs.length) : o.views ob (packAll i o ib ob xs) = i.views ib xs := by
  unfold packAll
  split
  · rename_i hlt
    have hd : ib ∣ ob := by
      rcases hd with h | h
      · exact h
      · exact absurd (Nat.le_of_dvd hi h) (by omega)
    obtain ⟨q, hq⟩ := hlen hlt
    have hk : 0 < ob / ib := Nat.div_pos (by omega) hi
    generalize hkk : ob / ib = k at *
    rw [hq, Nat.mul_div_cancel_left _ hk]
    have e : o.views ob ((List.range q).map fun c => implodeOne i o ib ob ((xs.drop (c * k)).take k)) =
        i.views ib ((List.range q).flatMap fun c => (xs.drop (c * k)).take k) := by
      unfold Endian.views
      rw [List.flatMap_map, List.flatMap_assoc]
      have : ∀ l : List Nat, (∀ c ∈ l, c < q) →
          l.flatMap (fun c => o.view ob (implodeOne i o ib ob ((xs.drop (c * k)).take k))) =
          l.flatMap (fun c => ((xs.drop (c * k)).take k).flatMap (i.view ib)) := by
        intro l hl
        induction l with
        | nil => rfl
        | cons c l ih =>
          rw [List.flatMap_cons, List.flatMap_cons, ih fun a ha => hl a (List.mem_cons_of_mem _ ha)]
          congr 1
          apply implode_stream i o hi h8i hd
          · have := mul_add_le_of_lt (ib := k) (hl c List.mem_cons_self)
            rw [hkk, List.length_take, List.length_drop, hq, Nat.mul_comm k q]
            omega
          · intro x hx'
            exact hx x (List.mem_of_mem_drop (List.mem_of_mem_take hx'))
      exact this _ fun c hc => List.mem_range.1 hc
    rw [e, chunks_join, Nat.mul_comm q k, ← hq, List.take_length]
  · split
    · rename_i hlt
      have hd : ob ∣ ib := by
        rcases hd with h | h
        · exact absurd (Nat.le_of_dvd ho h) (by omega)
        · exact h
      show List.flatMap _ (List.flatMap _ _) = _
      rw [List.flatMap_assoc]
      unfold Endian.views
      congr 1
      funext x
      exact explode_stream i o ho h8o hd x
    · have : ib = ob := by omega
      subst this
      unfold Endian.views
      rw [List.flatMap_map]
      congr 1
      funext x
      unfold Endian.view
      apply List.map_congr_left
      intro t ht
      exact convertUnit_testBit i o h8i (List.mem_range.1 ht) x

theorem packAll_lt (i o : Endian) {ib ob : Nat} (hi : 0 < ib) (hd : ib ∣ ob ∨ ob ∣ ib) (xs : List Nat)
    (hx : ∀ x ∈ xs, x < 2 ^ ib) : ∀ y ∈ packAll i o ib ob xs, y < 2 ^ ob := by
  intro y hy
  unfold packAll at hy
  split at hy
  · rename_i hlt
    obtain ⟨c, -, rfl⟩ := List.mem_map.1 hy
    refine implodeOne_lt _ _ _ ?_ fun x hx' => hx x (List.mem_of_mem_drop (List.mem_of_mem_take hx'))
    rcases hd with h | h
    · exact h
    · exact absurd (Nat.le_of_dvd hi h) (by omega)
  · split at hy
    · obtain ⟨x, -, h⟩ := List.mem_flatMap.1 hy
      exact explodeOne_lt _ _ _ _ _ y h
    · obtain ⟨x, hx', rfl⟩ := List.mem_map.1 hy
      have : ib = ob := by omega
      subst this
      exact convertUnit_lt _ _ _ _ (hx x hx')

theorem length_packAll (i o : Endian) {ib ob : Nat} (hi : 0 < ib) (ho : 0 < ob)
    (hd : ib ∣ ob ∨ ob ∣ ib) (xs : List Nat) (hlen : ib < ob → ob / ib ∣ xs.length) :
    (packAll i o ib ob xs).length * ob = xs.length * ib := by
  unfold packAll
  split
  · rename_i hlt
    have hd : ib ∣ ob := by
      rcases hd with h | h
      · exact h
      · exact absurd (Nat.le_of_dvd hi h) (by omega)
    obtain ⟨q, hq⟩ := hlen hlt
    have hk : 0 < ob / ib := Nat.div_pos (by omega) hi
    rw [List.length_map, List.length_range, hq, Nat.mul_div_cancel_left _ hk, Nat.mul_right_comm,
      Nat.div_mul_cancel hd, Nat.mul_comm]
  · split
    · rename_i hlt
      have hd : ob ∣ ib := by
        rcases hd with h | h
        · exact absurd (Nat.le_of_dvd ho h) (by omega)
        · exact h
      induction xs with
      | nil => simp
      | cons x xs ih =>
        rw [List.flatMap_cons, List.length_append, Nat.add_mul, ih (by omega), List.length_cons,
          Nat.succ_mul]
        have : (explodeOne i o ib ob x).length = ib / ob := by simp [explodeOne]
        rw [this, Nat.div_mul_cancel hd, Nat.add_comm]
    · rw [List.length_map, show ib = ob by omega]

/-- C52: `pack` keeps the bit stream, for all octet and bit orders and all unit sizes one of which
divides the other. -/
theorem C52_pack_keeps_stream (i o : Endian) {ib ob : Nat} (hi : 0 < ib) (ho : 0 < ob) (h8i : 8 ∣ ib)
    (h8o : 8 ∣ ob) (hd : ib ∣ ob ∨ ob ∣ ib) (xs : List Nat) (hx : ∀ x ∈ xs, x < 2 ^ ib)
    (hlen : ib < ob → ob / ib ∣ xs.length) :
    stream o.littleOctet o.littleBit ob (packAll i o ib ob xs) =
      stream i.littleOctet i.littleBit ib xs ∧
    (packAll i o ib ob xs).length * ob = xs.length * ib ∧ ∀ y ∈ packAll i o ib ob xs, y < 2 ^ ob := by
  refine ⟨?_, length_packAll i o hi ho hd xs hlen, packAll_lt i o hi hd xs hx⟩
  rw [← views_is_stream o h8o, ← views_is_stream i h8i]
  exact views_packAll i o hi ho h8i h8o hd xs hx hlen

/-- C52: packing back returns the input. -/
theorem C52_unpack (i o : Endian) {ib ob : Nat} (hi : 0 < ib) (ho : 0 < ob) (h8i : 8 ∣ ib)
    (h8o : 8 ∣ ob) (hd : ib ∣ ob ∨ ob ∣ ib) (xs : List Nat) (hx : ∀ x ∈ xs, x < 2 ^ ib)
    (hlen : ib < ob → ob / ib ∣ xs.length) :
    packAll o i ob ib (packAll i o ib ob xs) = xs := by
  have hl := length_packAll i o hi ho hd xs hlen
  have hlen' : ob < ib → ib / ob ∣ (packAll i o ib ob xs).length := by
    intro hlt
    have hd : ob ∣ ib := by
      rcases hd with h | h
      · exact absurd (Nat.le_of_dvd ho h) (by omega)
      · exact h
    obtain ⟨q, rfl⟩ := hd
    rw [Nat.mul_div_cancel_left _ ho]
    refine ⟨xs.length, Nat.eq_of_mul_eq_mul_right ho ?_⟩
    rw [hl, Nat.mul_comm ob q, ← Nat.mul_assoc, Nat.mul_comm xs.length]
  apply views_injective i hi h8i
  · exact packAll_lt o i ho hd.symm _ (packAll_lt i o hi hd xs hx)
  · exact hx
  · rw [views_packAll o i ho hi h8o h8i hd.symm _ (packAll_lt i o hi hd xs hx) hlen',
      views_packAll i o hi ho h8i h8o hd xs hx hlen]

/-- C52: the stream determines the chunks, so the conversion of a block or of a digest loses nothing:
two inputs with the same packed form are equal, and every output is the packed form of some input. -/
theorem C52_pack_bijective (i o : Endian) {ib ob : Nat} (hi : 0 < ib) (ho : 0 < ob) (h8i : 8 ∣ ib)
    (h8o : 8 ∣ ob) (hd : ib ∣ ob ∨ ob ∣ ib) (n m : Nat) (hnm : n * ib = m * ob) :
    (∀ xs ys : List Nat, xs.length = n → ys.length = n → (∀ x ∈ xs, x < 2 ^ ib) →
      (∀ x ∈ ys, x < 2 ^ ib) → packAll i o ib ob xs = packAll i o ib ob ys → xs = ys) ∧
    (∀ zs : List Nat, zs.length = m → (∀ z ∈ zs, z < 2 ^ ob) → ∃ xs : List Nat, xs.length = n ∧
      (∀ x ∈ xs, x < 2 ^ ib) ∧ packAll i o ib ob xs = zs) := by
  have hn : ∀ xs : List Nat, xs.length = n → ib < ob → ob / ib ∣ xs.length := by
    intro xs h hlt
    have hd : ib ∣ ob := by
      rcases hd with h | h
      · exact h
      · exact absurd (Nat.le_of_dvd hi h) (by omega)
    obtain ⟨q, rfl⟩ := hd
    rw [Nat.mul_div_cancel_left _ hi, h]
    refine ⟨m, Nat.eq_of_mul_eq_mul_right hi ?_⟩
    rw [hnm, Nat.mul_comm ib q, Nat.mul_comm q m, Nat.mul_assoc]
  have hm : ∀ zs : List Nat, zs.length = m → ob < ib → ib / ob ∣ zs.length := by
    intro xs h hlt
    have hd : ob ∣ ib := by
      rcases hd with h | h
      · exact absurd (Nat.le_of_dvd ho h) (by omega)
      · exact h
    obtain ⟨q, rfl⟩ := hd
    rw [Nat.mul_div_cancel_left _ ho, h]
    refine ⟨n, Nat.eq_of_mul_eq_mul_right ho ?_⟩
    rw [← hnm, Nat.mul_comm ob q, Nat.mul_comm q n, Nat.mul_assoc]
  constructor
  · intro xs ys hx hy bx by' h
    rw [← C52_unpack i o hi ho h8i h8o hd xs bx (hn xs hx), h,
      C52_unpack i o hi ho h8i h8o hd ys by' (hn ys hy)]
  · intro zs hz bz
    refine ⟨packAll o i ob ib zs, ?_, packAll_lt o i ho hd.symm zs bz,
      C52_unpack o i ho hi h8o h8i hd.symm zs bz (hm zs hz)⟩
    have := length_packAll o i ho hi hd.symm zs (hm zs hz)
    rw [hz, ← hnm] at this
    exact Nat.eq_of_mul_eq_mul_right hi this

example : packAll bigOctetBigBit littleOctetBigBit 8 32 [0x12, 0x34, 0x56, 0x78, 1, 2, 3, 4] =
    [0x78563412, 0x04030201] := by decide +kernel
example : packAll bigOctetLittleBit bigOctetBigBit 16 8 [0x1234, 0x5678] = [0x48, 0x2c, 0x6a, 0x1e] := by
  decide +kernel
example : packAll littleOctetBigBit bigOctetBigBit 32 32 [0x12345678] = [0x78563412] := by decide +kernel
example : stream false true 16 [0x1234] = [false, true, false, false, true, false, false, false,
    false, false, true, false, true, true, false, false] := by decide +kernel

example := C52_pack_keeps_stream bigOctetBigBit littleOctetBigBit (ib := 8) (ob := 32) (by decide) (by decide)
  (by decide) (by decide) (by decide) [0x12, 0x34, 0x56, 0x78, 1, 2, 3, 4] (by decide) (by decide)

example : packAll littleOctetBigBit bigOctetLittleBit 64 16 (packAll bigOctetLittleBit littleOctetBigBit 16 64
    [0x1234, 0x5678, 0xFFFF, 1]) = [0x1234, 0x5678, 0xFFFF, 1] :=
  C52_unpack bigOctetLittleBit littleOctetBigBit (by decide) (by decide) (by decide) (by decide) (by decide) _
    (by decide) (by decide)

/-! ### The four stream orders -/

/-- The number with the given octets, least significant first. -/
def ofOctets (os : List Nat) : Nat := os.foldr (fun o n => o + 256 * n) 0

theorem testBit_ofOctets : ∀ (os : List Nat), (∀ o ∈ os, o < 256) → ∀ j k, k < 8 →
    (ofOctets os).testBit (8 * j + k) = (os.getD j 0).testBit k
  | [], _, j, k, _ => by simp [ofOctets]
  | o :: os, h, j, k, hk => by
    have ho : o < 2 ^ 8 := h o (by simp)
    have e : ofOctets (o :: os) = 2 ^ 8 * ofOctets os + o := by
      show o + 256 * ofOctets os = _
      omega
    rw [e, Nat.testBit_two_pow_mul_add _ ho]
    cases j with
    | zero => simp [hk]
    | succ j =>
      rw [if_neg (by omega), show 8 * (j + 1) + k - 8 = 8 * j + k by omega,
        testBit_ofOctets os (fun x hx => h x (by simp [hx])) j k hk, List.getD_cons_succ]

theorem range_octets (f : Nat → Bool) (n : Nat) :
    (List.range (8 * n)).map f = (List.range n).flatMap fun j => (List.range 8).map fun k => f (8 * j + k) := by
  induction n with
  | zero => rfl
  | succ n ih =>
    rw [Nat.mul_succ, List.range_add, List.map_append, ih, List.range_succ (n := n), List.flatMap_append, List.flatMap_singleton, List.map_map]
    rfl

theorem flatMap_octets (g : Nat → List Bool) (os : List Nat) :
    (List.range os.length).flatMap (fun j => g (os.getD j 0)) = os.flatMap g := by
  rw [List.flatMap_def, List.flatMap_def]
  congr 1
  apply List.ext_getElem
  · simp
  · intro i h1 h2
    simp at h1
    simp [h1]

/-- C52, what the four names mean: the octets of a word appear in the stream most or least significant first, and so do the bits of an
octet. -/
theorem C52_views (os : List Nat) (h : ∀ o ∈ os, o < 256) :
    bigOctetBigBit.view (8 * os.length) (ofOctets os) = os.reverse.flatMap (fun o => (List.range 8).map fun k => o.testBit (7 - k)) ∧
    bigOctetLittleBit.view (8 * os.length) (ofOctets os) = os.reverse.flatMap (fun o => (List.range 8).map fun k => o.testBit k) ∧
    littleOctetBigBit.view (8 * os.length) (ofOctets os) = os.flatMap (fun o => (List.range 8).map fun k => o.testBit (7 - k)) ∧
    littleOctetLittleBit.view (8 * os.length) (ofOctets os) = os.flatMap (fun o => (List.range 8).map fun k => o.testBit k) := by
  have little : ∀ g : Nat → Nat, (∀ k, k < 8 → g k < 8) → (List.range (8 * os.length)).map (fun i => (ofOctets os).testBit
      (8 * (i / 8) + g (i % 8))) = os.flatMap fun o => (List.range 8).map fun k => o.testBit (g k) := by
    intro g hg
    rw [range_octets, ← flatMap_octets _ os]
    refine congrArg List.flatten (List.map_congr_left fun j hj => List.map_congr_left fun k hk => ?_)
    have hk' := List.mem_range.1 hk
    rw [show (8 * j + k) / 8 = j by omega, show (8 * j + k) % 8 = k by omega, testBit_ofOctets os h j _ (hg k hk')]
  have big : ∀ g : Nat → Nat, (∀ k, k < 8 → g k < 8) → (List.range (8 * os.length)).map (fun i => (ofOctets os).testBit
      (8 * (8 * os.length / 8 - 1 - i / 8) + g (i % 8))) = os.reverse.flatMap fun o => (List.range 8).map fun k => o.testBit (g k) := by
    intro g hg
    rw [range_octets, ← flatMap_octets _ os.reverse, List.length_reverse]
    refine congrArg List.flatten (List.map_congr_left fun j hj => List.map_congr_left fun k hk => ?_)
    have hk' := List.mem_range.1 hk
    have hj' := List.mem_range.1 hj
    rw [show (8 * j + k) / 8 = j by omega, show (8 * j + k) % 8 = k by omega, testBit_ofOctets os h _ _ (hg k hk'),
      Nat.mul_div_cancel_left _ (by decide)]
    simp only [List.getD_eq_getElem?_getD, List.getElem?_reverse hj']
  exact ⟨big (fun k => 7 - k) fun k hk => by omega, big (fun k => k) fun k hk => hk, little (fun k => 7 - k) fun k hk => by omega, little (fun k => k) fun k hk => hk⟩

example : littleOctetLittleBit.view 16 0x1201 =
    [true, false, false, false, false, false, false, false, false, true, false, false, true, false, false, false] :=
  (C52_views [0x01, 0x12] (by decide)).2.2.2

end Verif.Props
