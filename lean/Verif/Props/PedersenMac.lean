import Mathlib.Algebra.Module.BigOperators
import Mathlib.Data.List.GetD
import Verif.Props.Pedersen
/-
C117: Pedersen digests are sums of contributions of the chunks, so that a secret key does not authenticate a message.
-/
namespace Verif.Props

open Spec

variable {G : Type} [AddCommGroup G]

/-- What the bits `m` contribute to the digest of a bit string in which `start` chunks of three bits stand before them: each chunk
the multiple `enc(chunk) * 2^(4 (j mod c))` of base point `j / c`, `j` being its position. -/
def contribution (c : Nat) (base : Nat → G) (start : Nat) (m : List Bool) : G :=
  ∑ j ∈ Finset.range (blocks 3 (pedersenPad m)).length,
    (enc ((blocks 3 (pedersenPad m)).getD j []) * 2 ^ (4 * ((start + j) % c))) • base ((start + j) / c)

theorem segmentScalar_eq {c : Nat} (L : List (List Bool)) (i : Nat) :
    segmentScalar (segment c L i) = ∑ t ∈ Finset.range c, enc (L.getD (i * c + t) []) * 2 ^ (4 * t) := by
  have hl : (segment c L i).length ≤ c := by
    unfold segment
    rw [List.length_take]
    omega
  have hg : ∀ t, t < c → (segment c L i).getD t [] = L.getD (i * c + t) [] := fun t ht => by
    unfold segment
    rw [List.getD_eq_getElem?_getD, List.getD_eq_getElem?_getD, List.getElem?_take_of_lt ht, List.getElem?_drop]
  have hsum : ∀ (f : Nat → Int) n, ((List.range n).map f).sum = ∑ t ∈ Finset.range n, f t := fun f n => by
    induction n with
    | zero => simp
    | succ n ih => rw [List.range_succ, List.map_append, List.sum_append, ih, Finset.sum_range_succ]; simp
  unfold segmentScalar
  rw [hsum]
  generalize segment c L i = seg at *
  obtain ⟨k, hk⟩ := Nat.exists_eq_add_of_le hl
  rw [Finset.sum_congr (s₂ := Finset.range c) (g := fun t => enc (seg.getD t []) * 2 ^ (4 * t)) rfl
    fun t ht => by rw [hg t (Finset.mem_range.1 ht)]]
  conv_rhs => rw [hk, Finset.sum_range_add]
  rw [left_eq_add]
  apply Finset.sum_eq_zero
  intro t _
  rw [List.getD_eq_default _ _ (by omega)]
  simp [enc]

/-- The sum over the segments is a sum over the chunks. -/
theorem sum_segments {c : Nat} (hc : 0 < c) (base : Nat → G) (L : List (List Bool)) :
    ∑ i ∈ Finset.range (segmentCount c L), segmentScalar (segment c L i) • base i =
      ∑ j ∈ Finset.range L.length, (enc (L.getD j []) * 2 ^ (4 * (j % c))) • base (j / c) := by
  have hrow : ∀ i, segmentScalar (segment c L i) • base i = ∑ t ∈ Finset.range c,
      (enc (L.getD (i * c + t) []) * 2 ^ (4 * ((i * c + t) % c))) • base ((i * c + t) / c) := fun i => by
    rw [segmentScalar_eq, Finset.sum_smul]
    apply Finset.sum_congr rfl
    intro t ht
    have ht := Finset.mem_range.1 ht
    rw [Nat.mul_comm i c, Nat.mul_add_mod, Nat.mod_eq_of_lt ht, Nat.mul_add_div hc, Nat.div_eq_of_lt ht, Nat.add_zero]
  have hall : ∀ k, ∑ i ∈ Finset.range k, segmentScalar (segment c L i) • base i =
      ∑ j ∈ Finset.range (k * c), (enc (L.getD j []) * 2 ^ (4 * (j % c))) • base (j / c) := fun k => by
    induction k with
    | zero => simp
    | succ k ih => rw [Finset.sum_range_succ, ih, hrow, Nat.succ_mul, Finset.sum_range_add]
  rw [hall]
  have hn : L.length ≤ segmentCount c L * c := by
    unfold segmentCount
    have h1 := Nat.div_add_mod (L.length + c - 1) c
    have h2 := Nat.mod_lt (L.length + c - 1) hc
    rw [Nat.mul_comm] at h1
    omega
  obtain ⟨k, hk⟩ := Nat.exists_eq_add_of_le hn
  rw [hk, Finset.sum_range_add, add_eq_left]
  apply Finset.sum_eq_zero
  intro j _
  rw [List.getD_eq_default _ _ (by omega)]
  simp [enc]

theorem pedersen_eq_contribution {c : Nat} (hc : 0 < c) (base : Nat → G) (m : List Bool) :
    Spec.pedersen c base m = contribution c base 0 m := by
  unfold Spec.pedersen contribution
  rw [sum_segments hc]
  simp

theorem pedersenPad_append {s : List Bool} (hs : 3 ∣ s.length) (m : List Bool) : pedersenPad (s ++ m) = s ++ pedersenPad m := by
  obtain ⟨k, hk⟩ := hs
  unfold pedersenPad
  rw [List.length_append, hk, fillTo_add_mul, List.append_assoc]

theorem contribution_append {c : Nat} (base : Nat → G) (start : Nat) {s : List Bool} (hs : 3 ∣ s.length) (m : List Bool) :
    contribution c base start (s ++ m) = contribution c base start s + contribution c base (start + s.length / 3) m := by
  have hp : pedersenPad s = s := by
    have := pedersenPad_append hs []
    rw [List.append_nil] at this
    rw [this]
    simp [pedersenPad, fillTo]
  unfold contribution
  rw [pedersenPad_append hs, blocks_append (by decide) hs, List.length_append, Finset.sum_range_add, hp, length_blocks]
  congr 1
  · apply Finset.sum_congr rfl
    intro j hj
    rw [List.getD_append _ _ _ _ (by rw [length_blocks]; exact Finset.mem_range.1 hj)]
  · apply Finset.sum_congr rfl
    intro j _
    rw [List.getD_append_right _ _ _ _ (by rw [length_blocks]; omega), length_blocks, Nat.add_sub_cancel_left, Nat.add_assoc]

/-- **C117.** The digest of `s` followed by `m`, if `s` has whole chunks, is the digest of `s` plus a point that depends on `m` and
the length of `s` only. -/
theorem C117_split (P : PedersenParams G) (V : P.Valid) (s m : List Bool) (hs : 3 ∣ s.length) (hne : s ++ m ≠ [])
    (h64 : s.length + m.length + 3 < 2 ^ 64) (hseg : s.length + m.length + 3 ≤ 3 * (P.c * 2 ^ 32)) (fuel : Nat) (hf : 3 ≤ fuel) :
    pedersenHash P fuel (s ++ m) =
      some (contribution P.c P.base 0 s + contribution P.c P.base (s.length / 3) m) := by
  have hc := V.c
  rw [C31_zcash P V _ hne (by rw [List.length_append]; exact h64) (by rw [List.length_append]; exact hseg) fuel hf,
    pedersen_eq_contribution (by omega), contribution_append _ _ hs, Nat.zero_add]

/-- **C117, the secret around the message.** Whoever knows the digest of a message between two secret bit strings, and the length of
the first one, knows the digests of all messages of the same length between them. (The message starts at a chunk and has whole
chunks; else its first and last bits stay as they are and belong to the secrets.) -/
theorem C117_inner (P : PedersenParams G) (V : P.Valid) (κ : Nat) (hκ : 3 ∣ κ) (m m' : List Bool) (hm : 3 ∣ m.length)
    (hl : m.length = m'.length) (fuel : Nat) (hf : 3 ≤ fuel) (s t : List Bool) (hs : s.length = κ) (hne : s ++ m ++ t ≠ [])
    (h64 : (s ++ m ++ t).length + 3 < 2 ^ 64) (hseg : (s ++ m ++ t).length + 3 ≤ 3 * (P.c * 2 ^ 32)) (g : G)
    (hg : pedersenHash P fuel (s ++ m ++ t) = some g) :
    pedersenHash P fuel (s ++ m' ++ t) =
      some (g + (contribution P.c P.base (κ / 3) m' - contribution P.c P.base (κ / 3) m)) := by
  have hc := V.c
  have h1 : ∀ x : List Bool, x.length = m.length → pedersenHash P fuel (s ++ x ++ t) = some (contribution P.c P.base 0 s +
      contribution P.c P.base (κ / 3) x + contribution P.c P.base (κ / 3 + m.length / 3) t) := fun x hx => by
    have e : (s ++ x ++ t).length = (s ++ m ++ t).length := by simp [hx]
    have hn : s ++ x ++ t ≠ [] := fun h => hne (List.length_eq_zero_iff.1 (by rw [← e, h]; rfl))
    rw [List.append_assoc] at hn e ⊢
    rw [C117_split P V s (x ++ t) (hs ▸ hκ) hn (by rw [← List.length_append, e]; exact h64)
      (by rw [← List.length_append, e]; exact hseg) fuel hf, contribution_append _ _ (hx ▸ hm), hs, hx, add_assoc]
  rw [h1 m rfl] at hg
  rw [h1 m' hl.symm, ← Option.some.inj hg]
  congr 1
  abel

/-- **C117, the key in front.** Whoever knows the length of a secret key and its digest with one message knows its digests with all
messages that have the same first bits (up to the end of the chunk that the key begins: none if the key has whole chunks), of any
length. -/
theorem C117_forgery (P : PedersenParams G) (V : P.Valid) (κ : Nat) (a m m' : List Bool) (ha : 3 ∣ κ + a.length) (fuel : Nat)
    (hf : 3 ≤ fuel) (key : List Bool) (hk : key.length = κ) (hne : key ≠ [])
    (h64 : κ + a.length + m.length + 3 < 2 ^ 64) (hseg : κ + a.length + m.length + 3 ≤ 3 * (P.c * 2 ^ 32))
    (h64' : κ + a.length + m'.length + 3 < 2 ^ 64) (hseg' : κ + a.length + m'.length + 3 ≤ 3 * (P.c * 2 ^ 32)) (g : G)
    (hg : pedersenHash P fuel (key ++ a ++ m) = some g) :
    pedersenHash P fuel (key ++ a ++ m') = some (g + (contribution P.c P.base ((κ + a.length) / 3) m' -
      contribution P.c P.base ((κ + a.length) / 3) m)) := by
  have hl : (key ++ a).length = κ + a.length := by rw [List.length_append, hk]
  have hn : ∀ x, key ++ a ++ x ≠ [] := fun x h => hne (by simp at h; exact h.1)
  rw [C117_split P V _ m (hl ▸ ha) (hn _) (hl ▸ h64) (hl ▸ hseg) fuel hf] at hg
  rw [C117_split P V _ m' (hl ▸ ha) (hn _) (hl ▸ h64') (hl ▸ hseg') fuel hf, ← Option.some.inj hg, hl]
  congr 1
  abel

/-- **C117, without a computation.** Unless the bits are whole chunks, a zero bit behind them does not change the digest. -/
theorem C117_zero (P : PedersenParams G) (V : P.Valid) (m : List Bool) (hm : ¬ 3 ∣ m.length)
    (h64 : m.length + 4 < 2 ^ 64) (hseg : m.length + 4 ≤ 3 * (P.c * 2 ^ 32)) (fuel : Nat) (hf : 3 ≤ fuel) :
    pedersenHash P fuel (m ++ [false]) = pedersenHash P fuel m := by
  have hne : m ≠ [] := fun h => hm (by rw [h]; exact Nat.dvd_zero 3)
  rw [C31_zcash P V _ (by simp) (by simp; omega) (by simp; omega) fuel hf, C31_zcash P V _ hne (by omega) (by omega) fuel hf]
  have hp : pedersenPad (m ++ [false]) = pedersenPad m := by
    unfold pedersenPad fillTo
    rw [List.append_assoc, List.length_append, List.length_singleton, ← List.replicate_one, List.replicate_append_replicate]
    congr 2
    omega
  unfold Spec.pedersen
  rw [hp]

/-! With the order of Jubjub. -/

example (key m : List Bool) (hk : key.length = 252) (hm : m.length ≤ 1000) :
    pedersenHash jubjubToy 3 (key ++ m) =
      some (contribution 63 jubjubToy.base 0 key + contribution 63 jubjubToy.base 84 m) := by
  have hc : jubjubToy.c = 63 := rfl
  have h := C117_split jubjubToy jubjubToy_valid key m (by rw [hk]; decide)
    (fun h => by simp at h; rw [h.1] at hk; simp at hk) (by omega) (by rw [hc]; omega) 3 (by omega)
  rw [hk] at h
  exact h

/-- A secret of 252 bits before and one of any length behind the bits. -/
example (s t : List Bool) (hs : s.length = 252) (ht : t.length ≤ 1000) (g : ZMod jubjubOrder)
    (hg : pedersenHash jubjubToy 3 (s ++ [true, false, true] ++ t) = some g) :
    pedersenHash jubjubToy 3 (s ++ [false, true, true] ++ t) = some (g + (contribution 63 jubjubToy.base 84 [false, true, true] -
      contribution 63 jubjubToy.base 84 [true, false, true])) := by
  have hc : jubjubToy.c = 63 := rfl
  exact C117_inner jubjubToy jubjubToy_valid 252 (by decide) [true, false, true] [false, true, true] (by decide) rfl 3 (by omega) s t hs
    (by simp) (by simp; omega) (by rw [hc]; simp; omega) g hg

/-- A key of 256 bits begins a chunk with one bit; the next two bits stay. -/
example (key : List Bool) (hk : key.length = 256) (g : ZMod jubjubOrder)
    (hg : pedersenHash jubjubToy 3 (key ++ [true, true] ++ [true]) = some g) :
    pedersenHash jubjubToy 3 (key ++ [true, true] ++ [false, true, false, true]) = some (g +
      (contribution 63 jubjubToy.base 86 [false, true, false, true] - contribution 63 jubjubToy.base 86 [true])) := by
  have hc : jubjubToy.c = 63 := rfl
  exact C117_forgery jubjubToy jubjubToy_valid 256 [true, true] [true] [false, true, false, true] (by decide) 3 (by omega) key hk
    (fun h => by rw [h] at hk; simp at hk) (by simp) (by rw [hc]; simp) (by simp) (by rw [hc]; simp) g hg

example (key : List Bool) (hk : key.length = 256) :
    pedersenHash jubjubToy 3 (key ++ [false]) = pedersenHash jubjubToy 3 key := by
  have hc : jubjubToy.c = 63 := rfl
  exact C117_zero jubjubToy jubjubToy_valid key (by rw [hk]; decide) (by omega) (by rw [hc]; omega) 3 (by omega)

end Verif.Props
