import Verif.Model.PackUnits
import Verif.Proof.PackStream
/- The documented `pack` algorithms with units of any number of octets keep the bit stream. -/
namespace Verif

/-- A position in a chunk of `v` units: unit, octet of the unit, bit of the octet. -/
theorem unit_cases {s v p : Nat} (hp : p < 8 * s * v) :
    ∃ a c d, a < v ∧ c < s ∧ d < 8 ∧ p = 8 * s * a + (8 * c + d) := by
  have hs : 0 < 8 * s := by
    rcases Nat.eq_zero_or_pos (8 * s) with h | h
    · rw [h, Nat.zero_mul] at hp; omega
    · exact h
  refine ⟨p / (8 * s), p % (8 * s) / 8, p % (8 * s) % 8, (Nat.div_lt_iff_lt_mul hs).2 (by rwa [Nat.mul_comm v]), ?_,
    Nat.mod_lt _ (by omega), ?_⟩
  · have := Nat.mod_lt p hs
    omega
  · rw [Nat.div_add_mod, Nat.div_add_mod]

theorem unit_div {u a b : Nat} (hb : b < u) : (u * a + b) / u = a ∧ (u * a + b) % u = b := by
  constructor
  · rw [Nat.mul_add_div (by omega), Nat.div_eq_of_lt hb, Nat.add_zero]
  · rw [Nat.mul_add_mod, Nat.mod_eq_of_lt hb]

theorem unit_lt {u a b v : Nat} (ha : a < v) (hb : b < u) : u * a + b < u * v := by
  have : u * a + u ≤ u * v := by rw [← Nat.mul_succ]; exact Nat.mul_le_mul_left _ ha
  omega

theorem unit_rev {u a v : Nat} (ha : a < v) : u * (v - 1 - a) + u * a + u = u * v := by
  rw [← Nat.mul_add, ← Nat.mul_succ]
  congr 1
  omega

theorem testBit_revOctetsInUnits {s v a c d : Nat} (ha : a < v) (hc : c < s) (hd : d < 8) (x : Nat) :
    (revOctetsInUnits (8 * s) (8 * s * v) x).testBit (8 * s * a + (8 * c + d)) =
      x.testBit (8 * s * a + (8 * (s - 1 - c) + d)) := by
  obtain ⟨h1, h2⟩ := unit_div (u := 8 * s) (a := a) (b := 8 * c + d) (by omega)
  unfold revOctetsInUnits
  rw [Nat.testBit_ofBits', dif_pos (unit_lt ha (by omega))]
  simp only [h1, h2]
  have h3 : (8 * s * a + (8 * c + d)) % 8 = d := by
    rw [Nat.mul_assoc, Nat.mul_add_mod]; omega
  rw [h3, show 8 * s / 8 = s by omega, show (8 * c + d) / 8 = c by omega]

theorem testBit_revOctets {s v a c d : Nat} (ha : a < v) (hc : c < s) (hd : d < 8) (x : Nat) :
    (revOctets (8 * s * v) x).testBit (8 * s * a + (8 * c + d)) =
      x.testBit (8 * s * (v - 1 - a) + (8 * (s - 1 - c) + d)) := by
  unfold revOctets
  rw [Nat.testBit_ofBits', dif_pos (unit_lt ha (by omega))]
  congr 1
  have := unit_rev (u := s) ha
  simp only [Nat.mul_assoc] at *
  generalize s * v = m at *
  generalize s * a = m' at *
  generalize s * (v - 1 - a) = m'' at *
  omega

theorem testBit_revBits {s v a c d : Nat} (ha : a < v) (hc : c < s) (hd : d < 8) (x : Nat) :
    (revBits (8 * s * v) x).testBit (8 * s * a + (8 * c + d)) = x.testBit (8 * s * a + (8 * c + (7 - d))) := by
  unfold revBits
  rw [Nat.testBit_ofBits', dif_pos (unit_lt ha (by omega))]
  congr 1
  simp only [Nat.mul_assoc] at *
  generalize s * a = m' at *
  omega

/-- The two steps of the unit order reversal exchange whole units. -/
theorem testBit_reverseUnitOrder {s v a b : Nat} (ha : a < v) (hb : b < 8 * s) (x : Nat) :
    (reverseUnitOrder (8 * s) (8 * s * v) x).testBit (8 * s * a + b) = x.testBit (8 * s * (v - 1 - a) + b) := by
  obtain ⟨c, d, hd, rfl⟩ : ∃ c d, d < 8 ∧ b = 8 * c + d := ⟨b / 8, b % 8, Nat.mod_lt _ (by omega), by omega⟩
  have hc : c < s := by omega
  unfold reverseUnitOrder
  rw [testBit_revOctetsInUnits ha hc hd, testBit_revOctets ha (by omega) hd]
  congr 3
  omega

/-- The two steps of the bit order reversal reverse the bits of every unit. -/
theorem testBit_reverseBitOrder {s v a b : Nat} (ha : a < v) (hb : b < 8 * s) (x : Nat) :
    (reverseBitOrder (8 * s) (8 * s * v) x).testBit (8 * s * a + b) = x.testBit (8 * s * a + (8 * s - 1 - b)) := by
  obtain ⟨c, d, hd, rfl⟩ : ∃ c d, d < 8 ∧ b = 8 * c + d := ⟨b / 8, b % 8, Nat.mod_lt _ (by omega), by omega⟩
  have hc : c < s := by omega
  unfold reverseBitOrder
  rw [testBit_revBits ha hc hd, testBit_revOctetsInUnits ha hc (by omega)]
  congr 2
  omega

theorem Endian.posIn_eq (e : Endian) {u v a b : Nat} (hb : b < u) :
    e.posIn u (u * v) (u * a + b) = u * (if e.littleOctet then a else v - 1 - a) + (if e.littleBit then b else u - 1 - b) := by
  obtain ⟨h1, h2⟩ := unit_div (a := a) hb
  unfold Endian.posIn
  rw [h1, h2, Nat.mul_div_cancel_left _ (by omega)]

theorem Endian.posIn_lt (e : Endian) {u w j : Nat} (hu : u ∣ w) (hj : j < w) : e.posIn u w j < w := by
  obtain ⟨v, rfl⟩ := hu
  have hu : 0 < u := by
    rcases Nat.eq_zero_or_pos u with h | h
    · rw [h, Nat.zero_mul] at hj; omega
    · exact h
  have hb := Nat.mod_lt j hu
  have ha : j / u < v := (Nat.div_lt_iff_lt_mul hu).2 (by rwa [Nat.mul_comm v])
  rw [← Nat.div_add_mod j u, e.posIn_eq hb]
  generalize j / u = a at *
  generalize j % u = b at *
  exact unit_lt (by split <;> omega) (by split <;> omega)

/-- Unit conversion keeps the stream of a chunk. -/
theorem convertUnits_testBit {u : Nat} (h8 : 8 ∣ u) (i o : Endian) {w j : Nat} (hu : u ∣ w) (hj : j < w) (x : Nat) :
    (convertUnits u i o w x).testBit (o.posIn u w j) = x.testBit (i.posIn u w j) := by
  obtain ⟨s, rfl⟩ := h8
  obtain ⟨v, rfl⟩ := hu
  obtain ⟨a, c, d, ha, hc, hd, rfl⟩ := unit_cases hj
  have hb : 8 * c + d < 8 * s := by omega
  generalize 8 * c + d = b at *
  rw [o.posIn_eq hb, i.posIn_eq hb]
  have hr : v - 1 - (v - 1 - a) = a := by omega
  have hr' : 8 * s - 1 - (8 * s - 1 - b) = b := by omega
  have ha' : v - 1 - a < v := by omega
  have hb' : 8 * s - 1 - b < 8 * s := by omega
  rcases i with ⟨io, ib⟩
  rcases o with ⟨oo, ob⟩
  unfold convertUnits
  cases io <;> cases ib <;> cases oo <;> cases ob <;>
    simp only [ne_eq, not_true_eq_false, if_false, not_false_eq_true, if_true, reduceCtorEq,
      Bool.false_eq_true] <;>
    simp only [testBit_reverseBitOrder, testBit_reverseUnitOrder, ha, hb, ha', hb', hr, hr']

theorem convertUnits_lt (u : Nat) (i o : Endian) (w x : Nat) (hx : x < 2 ^ w) : convertUnits u i o w x < 2 ^ w := by
  unfold convertUnits
  simp only
  split
  · exact Nat.ofBits_lt_two_pow _
  · split
    · exact Nat.ofBits_lt_two_pow _
    · exact hx

/-- Position of stream bit `j` of chunk `k` inside a larger chunk. -/
theorem Endian.posIn_split (o : Endian) {u ib ob k j : Nat} (hu : 0 < u) (hib : u ∣ ib) (hob : u ∣ ob) (hj : j < ib)
    (hk : k * ib + ib ≤ ob) :
    o.posIn u ob (k * ib + j) =
      (if o.littleOctet then k * ib else ob - (ib + k * ib)) + o.posIn u ib j := by
  obtain ⟨m, rfl⟩ := hib
  obtain ⟨n, rfl⟩ := hob
  have hb := Nat.mod_lt j hu
  have ha : j / u < m := (Nat.div_lt_iff_lt_mul hu).2 (by rwa [Nat.mul_comm m])
  rw [← Nat.div_add_mod j u]
  generalize j / u = a at *
  generalize j % u = b at *
  have e : k * (u * m) = u * (k * m) := by rw [Nat.mul_left_comm]
  rw [e] at hk ⊢
  have hk' : k * m + m ≤ n := by
    refine Nat.le_of_mul_le_mul_left ?_ hu
    rwa [Nat.mul_add]
  rw [← Nat.add_assoc, ← Nat.mul_add, o.posIn_eq hb, o.posIn_eq hb, ← Nat.mul_add, ← Nat.mul_sub, ← Nat.add_assoc]
  congr 1
  split
  · rw [Nat.mul_add]
  · rw [← Nat.mul_add]
    congr 1
    generalize k * m = t at *
    omega

/-- Stream view of a chunk of `w` bits in units of `u` bits. -/
def Endian.viewIn (e : Endian) (u w x : Nat) : Bits :=
  (List.range w).map fun i => x.testBit (e.posIn u w i)

/-- Stream view of a sequence of chunks. -/
def Endian.viewsIn (e : Endian) (u w : Nat) (xs : List Nat) : Bits := xs.flatMap (e.viewIn u w)

theorem implodeUnits_testBit (i o : Endian) {ib ob : Nat} (hib : 0 < ib) (hdvd : ib ∣ ob) (xs : List Nat)
    (hx : ∀ x ∈ xs, x < 2 ^ ib) (k q : Nat) (hk : k < ob / ib) (hq : q < ib) :
    (implodeUnits u i o ib ob xs).testBit (packShift o ib ob k + q) =
      (convertUnits u i o ib (xs.getD k 0)).testBit q := by
  unfold implodeUnits
  rw [foldl_or_testBit (fun k => convertUnits u i o ib (xs.getD k 0) <<<
    (if o.littleOctet then k * ib else ob - (ib + k * ib)))]
  have hob : ob = ob / ib * ib := (Nat.div_mul_cancel hdvd).symm
  generalize hN : ob / ib = N at *
  have hlt : ∀ j, convertUnits u i o ib (xs.getD j 0) < 2 ^ ib := by
    intro j
    apply convertUnits_lt
    rw [List.getD_eq_getElem?_getD]
    cases e : xs[j]? with
    | none => exact Nat.two_pow_pos _
    | some b => exact hx b (List.mem_of_getElem? e)
  have hterm : ∀ j, j < N → (convertUnits u i o ib (xs.getD j 0) <<<
      (if o.littleOctet then j * ib else ob - (ib + j * ib))).testBit (packShift o ib ob k + q) =
        (decide (j = k) && (convertUnits u i o ib (xs.getD k 0)).testBit q) := by
    intro j hj
    show (_ <<< packShift o ib ob j).testBit _ = _
    have h1 : j * ib + ib ≤ N * ib := mul_add_le_of_lt hj
    have h2 : k * ib + ib ≤ N * ib := mul_add_le_of_lt hk
    rw [Nat.testBit_shiftLeft]
    by_cases e : j = k
    · subst e
      rw [decide_eq_true (Nat.le_add_right _ _)]
      simp
    · rw [decide_eq_false e, Bool.false_and]
      have hjk : j * ib + ib ≤ k * ib ∨ k * ib + ib ≤ j * ib := by
        rcases Nat.lt_or_ge j k with h | h
        · exact Or.inl (mul_add_le_of_lt h)
        · exact Or.inr (mul_add_le_of_lt (by omega))
      by_cases hge : packShift o ib ob j ≤ packShift o ib ob k + q
      · rw [decide_eq_true hge, Bool.true_and]
        apply Nat.testBit_lt_two_pow
        refine Nat.lt_of_lt_of_le (hlt j) (Nat.pow_le_pow_right (by omega) ?_)
        unfold packShift at *
        split at hge <;> rename_i hl <;> simp only [hl] <;> simp at * <;> omega
      · rw [decide_eq_false hge, Bool.false_and]
  rw [Bool.eq_iff_iff, List.any_eq_true]
  constructor
  · rintro ⟨j, hj, h⟩
    rw [hterm j (List.mem_range.1 hj)] at h
    simp only [Bool.and_eq_true, decide_eq_true_eq] at h
    exact h.2
  · intro h
    refine ⟨k, List.mem_range.2 hk, ?_⟩
    rw [hterm k hk, h]; simp

/-- Imploding keeps the stream. -/
theorem implodeUnits_stream {u : Nat} (hu0 : 0 < u) (h8 : 8 ∣ u) (i o : Endian) {ib ob : Nat} (hib : 0 < ib) (hu : u ∣ ib) (hdvd : ib ∣ ob)
    (xs : List Nat) (hlen : xs.length = ob / ib) (hx : ∀ x ∈ xs, x < 2 ^ ib) :
    o.viewIn u ob (implodeUnits u i o ib ob xs) = i.viewsIn u ib xs := by
  have hxs : xs = (List.range (ob / ib)).map fun k => xs.getD k 0 := by
    apply List.ext_getElem?
    intro k
    rw [List.getElem?_map]
    by_cases hk : k < ob / ib
    · rw [List.getElem?_range hk, List.getElem?_eq_getElem (by omega)]
      simp [List.getD_eq_getElem?_getD, List.getElem?_eq_getElem (show k < xs.length by omega)]
    · rw [List.getElem?_eq_none (by omega), List.getElem?_eq_none (by simp; omega)]; rfl
  have hR : i.viewsIn u ib xs = (List.range (ob / ib * ib)).map fun t =>
      (xs.getD (t / ib) 0).testBit (i.posIn u ib (t % ib)) := by
    rw [← flatMap_range (ob / ib) ib fun k j => (xs.getD k 0).testBit (i.posIn u ib j)]
    have h2 : i.viewsIn u ib xs = ((List.range (ob / ib)).map fun k => xs.getD k 0).flatMap (i.viewIn u ib) :=
      congrArg (fun l => l.flatMap (i.viewIn u ib)) hxs
    rw [h2, List.flatMap_map]
    rfl
  rw [hR, Nat.div_mul_cancel hdvd]
  unfold Endian.viewIn
  apply List.map_congr_left
  intro t ht
  have ht : t < ob := List.mem_range.1 ht
  have hj := Nat.mod_lt t hib
  have hk : t / ib < ob / ib := by
    rw [Nat.div_lt_iff_lt_mul hib, Nat.div_mul_cancel hdvd]; exact ht
  have hsp := o.posIn_split (u := u) (ib := ib) (ob := ob) (k := t / ib) (j := t % ib) hu0 hu (Nat.dvd_trans hu hdvd) hj
    (by have := mul_add_le_of_lt (ib := ib) hk; rwa [Nat.div_mul_cancel hdvd] at this)
  rw [show t / ib * ib + t % ib = t by rw [Nat.mul_comm]; exact Nat.div_add_mod t ib] at hsp
  rw [hsp]
  show (implodeUnits u i o ib ob xs).testBit (packShift o ib ob (t / ib) + o.posIn u ib (t % ib)) = _
  rw [implodeUnits_testBit i o hib hdvd xs hx _ _ hk (o.posIn_lt hu hj), convertUnits_testBit h8 i o hu hj]

/-- Exploding keeps the stream. -/
theorem explodeUnits_stream {u : Nat} (hu0 : 0 < u) (h8 : 8 ∣ u) (i o : Endian) {ib ob : Nat} (hob : 0 < ob) (hu : u ∣ ob) (hdvd : ob ∣ ib)
    (x : Nat) : o.viewsIn u ob (explodeUnits u i o ib ob x) = i.viewIn u ib x := by
  have hL : o.viewsIn u ob (explodeUnits u i o ib ob x) = (List.range (ib / ob * ob)).map fun t =>
      x.testBit ((if i.littleOctet then t / ob * ob else ib - (ob + t / ob * ob)) +
        i.posIn u ob (t % ob)) := by
    rw [← flatMap_range (ib / ob) ob fun k j => x.testBit ((if i.littleOctet then k * ob else
      ib - (ob + k * ob)) + i.posIn u ob j)]
    unfold Endian.viewsIn explodeUnits
    rw [List.flatMap_map]
    congr 1
    funext k
    unfold Endian.viewIn
    apply List.map_congr_left
    intro j hj
    have hj : j < ob := List.mem_range.1 hj
    simp only
    rw [convertUnits_testBit h8 i o hu hj, Nat.testBit_mod_two_pow, Nat.testBit_shiftRight,
      decide_eq_true (i.posIn_lt hu hj), Bool.true_and]
  rw [hL, Nat.div_mul_cancel hdvd]
  unfold Endian.viewIn
  apply List.map_congr_left
  intro t ht
  have ht : t < ib := List.mem_range.1 ht
  have hj := Nat.mod_lt t hob
  have hk : t / ob < ib / ob := by
    rw [Nat.div_lt_iff_lt_mul hob, Nat.div_mul_cancel hdvd]; exact ht
  have hsp := i.posIn_split (u := u) (ib := ob) (ob := ib) (k := t / ob) (j := t % ob) hu0 hu (Nat.dvd_trans hu hdvd) hj
    (by have := mul_add_le_of_lt (ib := ob) hk; rwa [Nat.div_mul_cancel hdvd] at this)
  rw [show t / ob * ob + t % ob = t by rw [Nat.mul_comm]; exact Nat.div_add_mod t ob] at hsp
  rw [hsp]

/-- The position map is an involution. -/
theorem Endian.posIn_posIn (e : Endian) {u w i : Nat} (hu : u ∣ w) (hi : i < w) : e.posIn u w (e.posIn u w i) = i := by
  obtain ⟨v, rfl⟩ := hu
  have hu : 0 < u := by
    rcases Nat.eq_zero_or_pos u with h | h
    · rw [h, Nat.zero_mul] at hi; omega
    · exact h
  have hb := Nat.mod_lt i hu
  have ha : i / u < v := (Nat.div_lt_iff_lt_mul hu).2 (by rwa [Nat.mul_comm v])
  rw [← Nat.div_add_mod i u]
  generalize i / u = a at *
  generalize i % u = b at *
  rw [e.posIn_eq hb, e.posIn_eq (by split <;> omega)]
  congr 2 <;> split <;> omega

/-- A unit is determined by its stream. -/
theorem viewIn_injective (e : Endian) {u w x y : Nat} (hu : u ∣ w) (hx : x < 2 ^ w) (hy : y < 2 ^ w)
    (h : e.viewIn u w x = e.viewIn u w y) : x = y := by
  apply Nat.eq_of_testBit_eq
  intro p
  by_cases hp : p < w
  · have h1 := congrArg (fun l => l[e.posIn u w p]?) h
    simp only [Endian.viewIn, List.getElem?_map, List.getElem?_range (e.posIn_lt hu hp), Option.map_some,
      Option.some.injEq] at h1
    rwa [e.posIn_posIn hu hp] at h1
  · rw [Nat.testBit_lt_two_pow (Nat.lt_of_lt_of_le hx (Nat.pow_le_pow_right (by omega) (by omega))),
      Nat.testBit_lt_two_pow (Nat.lt_of_lt_of_le hy (Nat.pow_le_pow_right (by omega) (by omega)))]

theorem viewsIn_injective (e : Endian) {u w : Nat} (h0 : 0 < w) (hu : u ∣ w) : ∀ (xs ys : List Nat),
    (∀ x ∈ xs, x < 2 ^ w) → (∀ y ∈ ys, y < 2 ^ w) → e.viewsIn u w xs = e.viewsIn u w ys → xs = ys
  | [], [], _, _, _ => rfl
  | [], y :: ys, _, _, h => by
    have := congrArg List.length h
    simp [Endian.viewsIn, Endian.viewIn] at this
    omega
  | x :: xs, [], _, _, h => by
    have := congrArg List.length h
    simp [Endian.viewsIn, Endian.viewIn] at this
    omega
  | x :: xs, y :: ys, hx, hy, h => by
    unfold Endian.viewsIn at h
    rw [List.flatMap_cons, List.flatMap_cons] at h
    have h1 := List.append_inj h (by simp [Endian.viewIn])
    rw [viewIn_injective e hu (hx x List.mem_cons_self) (hy y List.mem_cons_self) h1.1,
      viewsIn_injective e h0 hu xs ys (fun a ha => hx a (List.mem_cons_of_mem _ ha))
        (fun a ha => hy a (List.mem_cons_of_mem _ ha)) h1.2]

theorem implodeUnits_lt (i o : Endian) {ib ob : Nat} (xs : List Nat) (hdvd : ib ∣ ob)
    (hx : ∀ x ∈ xs, x < 2 ^ ib) : implodeUnits u i o ib ob xs < 2 ^ ob := by
  unfold implodeUnits
  apply Nat.lt_pow_two_of_testBit
  intro p hp
  rw [foldl_or_testBit (fun k => convertUnits u i o ib (xs.getD k 0) <<<
    (if o.littleOctet then k * ib else ob - (ib + k * ib))), List.any_eq_false]
  intro k hk
  have hk := mul_add_le_of_lt (ib := ib) (List.mem_range.1 hk)
  rw [Nat.div_mul_cancel hdvd] at hk
  have hlt : convertUnits u i o ib (xs.getD k 0) < 2 ^ ib := by
    apply convertUnits_lt
    rw [List.getD_eq_getElem?_getD]
    cases e : xs[k]? with
    | none => exact Nat.two_pow_pos _
    | some b => exact hx b (List.mem_of_getElem? e)
  rw [Nat.testBit_shiftLeft, Nat.testBit_lt_two_pow (Nat.lt_of_lt_of_le hlt
    (Nat.pow_le_pow_right (by omega) (by split <;> omega)))]
  simp

theorem explodeUnits_lt (i o : Endian) (ib ob x : Nat) : ∀ y ∈ explodeUnits u i o ib ob x, y < 2 ^ ob := by
  intro y hy
  obtain ⟨k, -, rfl⟩ := List.mem_map.1 hy
  exact convertUnits_lt _ _ _ _ _ (Nat.mod_lt _ (Nat.two_pow_pos _))

end Verif
