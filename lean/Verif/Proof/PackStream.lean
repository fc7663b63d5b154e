import Batteries.Data.Nat.Lemmas
import Verif.Proof.LengthField
/- The documented `pack` algorithms keep the bit stream. -/
namespace Verif

theorem Nat.testBit_ofBits' {w : Nat} (f : Fin w → Bool) (p : Nat) :
    (Nat.ofBits f).testBit p = if h : p < w then f ⟨p, h⟩ else false := by
  by_cases h : p < w
  · rw [dif_pos h, Nat.testBit_ofBits_lt f p h]
  · rw [dif_neg h, Nat.testBit_ofBits_ge f p (by omega)]

/-- Unit conversion keeps the stream of a unit. -/
theorem convertUnit_testBit (i o : Endian) {w j : Nat} (h8 : 8 ∣ w) (hj : j < w) (x : Nat) :
    (convertUnit i o w x).testBit (o.pos w j) = x.testBit (i.pos w j) := by
  obtain ⟨v, rfl⟩ := h8
  have hrev : ∀ p x, p < 8 * v → (revOctets (8 * v) x).testBit p =
      x.testBit (8 * (v - 1 - p / 8) + p % 8) := by
    intro p x hp
    unfold revOctets
    rw [Nat.testBit_ofBits', dif_pos hp]
    congr 2
    simp
  have hbit : ∀ p x, p < 8 * v → (revBits (8 * v) x).testBit p =
      x.testBit (8 * (p / 8) + (7 - p % 8)) := by
    intro p x hp
    unfold revBits
    rw [Nat.testBit_ofBits', dif_pos hp]
  have hpos := o.pos_lt (w := 8 * v) ⟨v, rfl⟩ hj
  have hdiv : 8 * v / 8 = v := by omega
  rcases i with ⟨io, ib⟩
  rcases o with ⟨oo, ob⟩
  unfold convertUnit
  unfold Endian.pos at *
  rw [hdiv] at *
  cases io <;> cases ib <;> cases oo <;> cases ob <;>
    simp only [ne_eq, not_true_eq_false, if_false, not_false_eq_true, if_true, reduceCtorEq,
      Bool.false_eq_true] at hpos ⊢ <;>
    first
    | rfl
    | (rw [hbit _ _ hpos, hrev _ _ (by omega)]; congr 1; omega)
    | (rw [hrev _ _ hpos]; congr 1; omega)
    | (rw [hbit _ _ hpos]; congr 1; omega)

theorem convertUnit_lt (i o : Endian) (w x : Nat) (hx : x < 2 ^ w) : convertUnit i o w x < 2 ^ w := by
  unfold convertUnit
  simp only
  split
  · exact Nat.ofBits_lt_two_pow _
  · split
    · exact Nat.ofBits_lt_two_pow _
    · exact hx

/-- Position of stream bit `j` of unit `k` inside a larger unit. -/
theorem Endian.pos_split (o : Endian) {ib ob k j : Nat} (hib : 8 ∣ ib) (hob : 8 ∣ ob) (hj : j < ib)
    (hk : k * ib + ib ≤ ob) :
    o.pos ob (k * ib + j) =
      (if o.littleOctet then k * ib else ob - (ib + k * ib)) + o.pos ib j := by
  obtain ⟨a, rfl⟩ := hib
  obtain ⟨b, rfl⟩ := hob
  have e : k * (8 * a) = 8 * (k * a) := by rw [Nat.mul_left_comm]
  rw [e] at hk ⊢
  unfold Endian.pos
  generalize k * a = m at *
  have h1 : 8 * a / 8 = a := by omega
  have h2 : 8 * b / 8 = b := by omega
  rw [h1, h2]
  split <;> split <;> omega

theorem foldl_or_testBit (f : Nat → Nat) (n p : Nat) :
    ((List.range n).foldl (fun acc k => acc ||| f k) 0).testBit p =
      (List.range n).any fun k => (f k).testBit p := by
  induction n with
  | zero => simp
  | succ n ih =>
    rw [List.range_succ, List.foldl_append, List.any_append, ← ih]
    simp

theorem mul_add_le_of_lt {k n ib : Nat} (hk : k < n) : k * ib + ib ≤ n * ib := by
  rw [← Nat.succ_mul]; exact Nat.mul_le_mul_right _ hk

/-- The shift of unit `k`. -/
def packShift (o : Endian) (ib ob k : Nat) : Nat :=
  if o.littleOctet then k * ib else ob - (ib + k * ib)

theorem implodeOne_testBit (i o : Endian) {ib ob : Nat} (hib : 0 < ib) (hdvd : ib ∣ ob) (xs : List Nat)
    (hx : ∀ x ∈ xs, x < 2 ^ ib) (k q : Nat) (hk : k < ob / ib) (hq : q < ib) :
    (implodeOne i o ib ob xs).testBit (packShift o ib ob k + q) =
      (convertUnit i o ib (xs.getD k 0)).testBit q := by
  unfold implodeOne
  rw [foldl_or_testBit (fun k => convertUnit i o ib (xs.getD k 0) <<<
    (if o.littleOctet then k * ib else ob - (ib + k * ib)))]
  have hob : ob = ob / ib * ib := (Nat.div_mul_cancel hdvd).symm
  generalize hN : ob / ib = N at *
  have hlt : ∀ j, convertUnit i o ib (xs.getD j 0) < 2 ^ ib := by
    intro j
    apply convertUnit_lt
    rw [List.getD_eq_getElem?_getD]
    cases e : xs[j]? with
    | none => exact Nat.two_pow_pos _
    | some b => exact hx b (List.mem_of_getElem? e)
  have hterm : ∀ j, j < N → (convertUnit i o ib (xs.getD j 0) <<<
      (if o.littleOctet then j * ib else ob - (ib + j * ib))).testBit (packShift o ib ob k + q) =
        (decide (j = k) && (convertUnit i o ib (xs.getD k 0)).testBit q) := by
    intro j hj
    show (_ <<< packShift o ib ob j).testBit _ = _
    have h1 : j * ib + ib ≤ N * ib := mul_add_le_of_lt hj
    have h2 : k * ib + ib ≤ N * ib := mul_add_le_of_lt hk
    rw [Nat.testBit_shiftLeft]
    by_cases e : j = k
    · subst e
      rw [decide_eq_true (Nat.le_add_right _ _)]
      simp
    · rw [decide_eq_false e, Bool.false_and]
      have hjk : j * ib + ib ≤ k * ib ∨ k * ib + ib ≤ j * ib := by
        rcases Nat.lt_or_ge j k with h | h
        · exact Or.inl (mul_add_le_of_lt h)
        · exact Or.inr (mul_add_le_of_lt (by omega))
      by_cases hge : packShift o ib ob j ≤ packShift o ib ob k + q
      · rw [decide_eq_true hge, Bool.true_and]
        apply Nat.testBit_lt_two_pow
        refine Nat.lt_of_lt_of_le (hlt j) (Nat.pow_le_pow_right (by omega) ?_)
        unfold packShift at *
        split at hge <;> rename_i hl <;> simp only [hl] <;> simp at * <;> omega
      · rw [decide_eq_false hge, Bool.false_and]
  rw [Bool.eq_iff_iff, List.any_eq_true]
  constructor
  · rintro ⟨j, hj, h⟩
    rw [hterm j (List.mem_range.1 hj)] at h
    simp only [Bool.and_eq_true, decide_eq_true_eq] at h
    exact h.2
  · intro h
    refine ⟨k, List.mem_range.2 hk, ?_⟩
    rw [hterm k hk, h]; simp

/-- Imploding keeps the stream. -/
theorem implode_stream (i o : Endian) {ib ob : Nat} (hib : 0 < ib) (h8 : 8 ∣ ib) (hdvd : ib ∣ ob)
    (xs : List Nat) (hlen : xs.length = ob / ib) (hx : ∀ x ∈ xs, x < 2 ^ ib) :
    o.view ob (implodeOne i o ib ob xs) = i.views ib xs := by
  have hxs : xs = (List.range (ob / ib)).map fun k => xs.getD k 0 := by
    apply List.ext_getElem?
    intro k
    rw [List.getElem?_map]
    by_cases hk : k < ob / ib
    · rw [List.getElem?_range hk, List.getElem?_eq_getElem (by omega)]
      simp [List.getD_eq_getElem?_getD, List.getElem?_eq_getElem (show k < xs.length by omega)]
    · rw [List.getElem?_eq_none (by omega), List.getElem?_eq_none (by simp; omega)]; rfl
  have hR : i.views ib xs = (List.range (ob / ib * ib)).map fun t =>
      (xs.getD (t / ib) 0).testBit (i.pos ib (t % ib)) := by
    rw [← flatMap_range (ob / ib) ib fun k j => (xs.getD k 0).testBit (i.pos ib j)]
    have h2 : i.views ib xs = ((List.range (ob / ib)).map fun k => xs.getD k 0).flatMap (i.view ib) :=
      congrArg (fun l => l.flatMap (i.view ib)) hxs
    rw [h2, List.flatMap_map]
    rfl
  rw [hR, Nat.div_mul_cancel hdvd]
  unfold Endian.view
  apply List.map_congr_left
  intro t ht
  have ht : t < ob := List.mem_range.1 ht
  have hj := Nat.mod_lt t hib
  have hk : t / ib < ob / ib := by
    rw [Nat.div_lt_iff_lt_mul hib, Nat.div_mul_cancel hdvd]; exact ht
  have hsp := o.pos_split (ib := ib) (ob := ob) (k := t / ib) (j := t % ib) h8 (Nat.dvd_trans h8 hdvd) hj
    (by have := mul_add_le_of_lt (ib := ib) hk; rwa [Nat.div_mul_cancel hdvd] at this)
  rw [show t / ib * ib + t % ib = t by rw [Nat.mul_comm]; exact Nat.div_add_mod t ib] at hsp
  rw [hsp]
  show (implodeOne i o ib ob xs).testBit (packShift o ib ob (t / ib) + o.pos ib (t % ib)) = _
  rw [implodeOne_testBit i o hib hdvd xs hx _ _ hk (o.pos_lt h8 hj), convertUnit_testBit i o h8 hj]

/-- Exploding keeps the stream. -/
theorem explode_stream (i o : Endian) {ib ob : Nat} (hob : 0 < ob) (h8 : 8 ∣ ob) (hdvd : ob ∣ ib)
    (x : Nat) : o.views ob (explodeOne i o ib ob x) = i.view ib x := by
  have hL : o.views ob (explodeOne i o ib ob x) = (List.range (ib / ob * ob)).map fun t =>
      x.testBit ((if i.littleOctet then t / ob * ob else ib - (ob + t / ob * ob)) +
        i.pos ob (t % ob)) := by
    rw [← flatMap_range (ib / ob) ob fun k j => x.testBit ((if i.littleOctet then k * ob else
      ib - (ob + k * ob)) + i.pos ob j)]
    unfold Endian.views explodeOne
    rw [List.flatMap_map]
    congr 1
    funext k
    unfold Endian.view
    apply List.map_congr_left
    intro j hj
    have hj : j < ob := List.mem_range.1 hj
    simp only
    rw [convertUnit_testBit i o h8 hj, Nat.testBit_mod_two_pow, Nat.testBit_shiftRight,
      decide_eq_true (i.pos_lt h8 hj), Bool.true_and]
  rw [hL, Nat.div_mul_cancel hdvd]
  unfold Endian.view
  apply List.map_congr_left
  intro t ht
  have ht : t < ib := List.mem_range.1 ht
  have hj := Nat.mod_lt t hob
  have hk : t / ob < ib / ob := by
    rw [Nat.div_lt_iff_lt_mul hob, Nat.div_mul_cancel hdvd]; exact ht
  have hsp := i.pos_split (ib := ob) (ob := ib) (k := t / ob) (j := t % ob) h8 (Nat.dvd_trans h8 hdvd) hj
    (by have := mul_add_le_of_lt (ib := ob) hk; rwa [Nat.div_mul_cancel hdvd] at this)
  rw [show t / ob * ob + t % ob = t by rw [Nat.mul_comm]; exact Nat.div_add_mod t ob] at hsp
  rw [hsp]

/-- The position map of an octet-aligned unit is an involution. -/
theorem Endian.pos_pos (e : Endian) {w i : Nat} (h8 : 8 ∣ w) (hi : i < w) : e.pos w (e.pos w i) = i := by
  obtain ⟨v, rfl⟩ := h8
  unfold Endian.pos
  cases e.littleOctet <;> cases e.littleBit <;> simp <;> omega

/-- A unit is determined by its stream. -/
theorem view_injective (e : Endian) {w x y : Nat} (h8 : 8 ∣ w) (hx : x < 2 ^ w) (hy : y < 2 ^ w)
    (h : e.view w x = e.view w y) : x = y := by
  apply Nat.eq_of_testBit_eq
  intro p
  by_cases hp : p < w
  · have h1 := congrArg (fun l => l[e.pos w p]?) h
    simp only [Endian.view, List.getElem?_map, List.getElem?_range (e.pos_lt h8 hp), Option.map_some,
      Option.some.injEq] at h1
    rwa [e.pos_pos h8 hp] at h1
  · rw [Nat.testBit_lt_two_pow (Nat.lt_of_lt_of_le hx (Nat.pow_le_pow_right (by omega) (by omega))),
      Nat.testBit_lt_two_pow (Nat.lt_of_lt_of_le hy (Nat.pow_le_pow_right (by omega) (by omega)))]

theorem views_injective (e : Endian) {w : Nat} (h0 : 0 < w) (h8 : 8 ∣ w) : ∀ (xs ys : List Nat),
    (∀ x ∈ xs, x < 2 ^ w) → (∀ y ∈ ys, y < 2 ^ w) → e.views w xs = e.views w ys → xs = ys
  | [], [], _, _, _ => rfl
  | [], y :: ys, _, _, h => by
    have := congrArg List.length h
    simp [Endian.views, Endian.view] at this
    omega
  | x :: xs, [], _, _, h => by
    have := congrArg List.length h
    simp [Endian.views, Endian.view] at this
    omega
  | x :: xs, y :: ys, hx, hy, h => by
    unfold Endian.views at h
    rw [List.flatMap_cons, List.flatMap_cons] at h
    have h1 := List.append_inj h (by simp [Endian.view])
    rw [view_injective e h8 (hx x List.mem_cons_self) (hy y List.mem_cons_self) h1.1,
      views_injective e h0 h8 xs ys (fun a ha => hx a (List.mem_cons_of_mem _ ha))
        (fun a ha => hy a (List.mem_cons_of_mem _ ha)) h1.2]

theorem implodeOne_lt (i o : Endian) {ib ob : Nat} (xs : List Nat) (hdvd : ib ∣ ob)
    (hx : ∀ x ∈ xs, x < 2 ^ ib) : implodeOne i o ib ob xs < 2 ^ ob := by
  unfold implodeOne
  apply Nat.lt_pow_two_of_testBit
  intro p hp
  rw [foldl_or_testBit (fun k => convertUnit i o ib (xs.getD k 0) <<<
    (if o.littleOctet then k * ib else ob - (ib + k * ib))), List.any_eq_false]
  intro k hk
  have hk := mul_add_le_of_lt (ib := ib) (List.mem_range.1 hk)
  rw [Nat.div_mul_cancel hdvd] at hk
  have hlt : convertUnit i o ib (xs.getD k 0) < 2 ^ ib := by
    apply convertUnit_lt
    rw [List.getD_eq_getElem?_getD]
    cases e : xs[k]? with
    | none => exact Nat.two_pow_pos _
    | some b => exact hx b (List.mem_of_getElem? e)
  rw [Nat.testBit_shiftLeft, Nat.testBit_lt_two_pow (Nat.lt_of_lt_of_le hlt
    (Nat.pow_le_pow_right (by omega) (by split <;> omega)))]
  simp

theorem explodeOne_lt (i o : Endian) (ib ob x : Nat) : ∀ y ∈ explodeOne i o ib ob x, y < 2 ^ ob := by
  intro y hy
  obtain ⟨k, -, rfl⟩ := List.mem_map.1 hy
  exact convertUnit_lt _ _ _ _ (Nat.mod_lt _ (Nat.two_pow_pos _))

end Verif
