import Verif.Proof.SpongeSecurity
import Verif.Proof.Collision
import Verif.Props.Sponge2
import Verif.Props.Blake2b
import Verif.Props.Keccak
/-
C76, C77: collisions of the sponge hashes and of HAIFA reduce to their primitives.
-/
namespace Verif.Props
open Spec

/-! ### C76 -/

/-- The padded message of FIPS 202, cut into blocks. -/
def spongeInput (k : SpongeKind) (r : Nat) (m : Bits) : List Bits :=
  blocks r (flipOctets m ++ k.suffix ++ pad101 r (flipOctets m ++ k.suffix).length)

theorem spongeInput_injective {r : Nat} (hr : 0 < r) {k k' : SpongeKind} {m m' : Bits} (h8 : 8 ∣ m.length)
    (h8' : 8 ∣ m'.length) (h : spongeInput k r m = spongeInput k' r m') : k = k' ∧ m = m' := by
  have hd : ∀ N : Bits, ∃ n, (N ++ pad101 r N.length).length = n * r := fun N => by
    obtain ⟨n, hn⟩ := length_padded hr N
    exact ⟨n, by rw [hn, Nat.mul_comm]⟩
  obtain ⟨n1, hn1⟩ := hd (flipOctets m ++ k.suffix)
  obtain ⟨n2, hn2⟩ := hd (flipOctets m' ++ k'.suffix)
  have h2 := congrArg List.flatten h
  unfold spongeInput at h2
  rw [flatten_blocks hr n1 _ hn1, flatten_blocks hr n2 _ hn2] at h2
  have h3 := C18_domain_separation r r k k' _ _ (by rw [length_flipOctets]; exact h8)
    (by rw [length_flipOctets]; exact h8') h2
  exact ⟨h3.1, by rw [← flipOctets_flipOctets _ h8, ← flipOctets_flipOctets _ h8', h3.2]⟩

theorem length_sponge (permute : Lanes → Lanes) {d : Nat} (S : SpongeSize d) (N : Bits) :
    (sponge 1600 (spongeBlockBits d) (onStrings permute) N d).length = d := by
  have h := S.facts
  unfold sponge squeeze
  rw [List.length_take, length_flatMap_const _ (spongeBlockBits d)]
  · simp only [List.length_range]
    have h1 := Nat.div_add_mod d (spongeBlockBits d)
    have h2 := Nat.mod_lt d (show 0 < spongeBlockBits d from h.1)
    rw [Nat.mul_comm] at h1
    rw [Nat.add_mul]; omega
  · intro i _
    have hl : (Nat.repeat (onStrings permute) i (absorb 1600 (spongeBlockBits d) (onStrings permute)
        (N ++ pad101 (spongeBlockBits d) N.length))).length = 1600 := by
      cases i with
      | succ i => exact length_onStrings _ _
      | zero => exact length_absorbBlocks (r := spongeBlockBits d) (length_onStrings permute) _
    rw [List.length_take, hl]; omega

/-- C76: two programs, of the Keccak or the SHA-3 family, that feed different messages (or the same message to
different families) and obtain the same digest exhibit one of: two different final states with the same
output bits, two states on the way with equal capacity and different rate parts, or a way back to the
all-zero state.  `permute` is any injective function on the state. -/
theorem C76_sponge_collision (k k' : SpongeKind) (permute : Lanes → Lanes) (hinj : Function.Injective permute)
    {d : Nat} (S : SpongeSize d) (JP J : Injector)
    (garbage garbage' : Bits) (hgb : garbage.length = spongeBlockBits d)
    (hgb' : garbage'.length = spongeBlockBits d) (ops ops' : List Op)
    (hwt : ∀ op ∈ ops, op.WellTyped (spongeBlockBits d)) (hwt' : ∀ op ∈ ops', op.WellTyped (spongeBlockBits d))
    (hx : GoodExtracts (spongeBlockBits d) SpongeGood [] ops) (hx' : GoodExtracts (spongeBlockBits d) SpongeGood [] ops')
    (hg : SpongeGood (streamOf (spongeBlockBits d) ops)) (hg' : SpongeGood (streamOf (spongeBlockBits d) ops'))
    (hdiff : (k, streamOf (spongeBlockBits d) ops) ≠ (k', streamOf (spongeBlockBits d) ops'))
    (hcoll : (do let (a, _) ← runOps (spongeConstruction k permute d JP) J
                   (Acc.init (spongeConstruction k permute d JP) garbage) [] ops
                 a.result (spongeConstruction k permute d JP)) =
             (do let (a, _) ← runOps (spongeConstruction k' permute d JP) J
                   (Acc.init (spongeConstruction k' permute d JP) garbage') [] ops'
                 a.result (spongeConstruction k' permute d JP))) :
    let r := 1600 - 2 * d
    let f := onStrings permute
    let P := spongeInput k r (streamOf r ops)
    let Q := spongeInput k' r (streamOf r ops')
    OutputCollision 1600 r f d P Q ∨ InnerCollision 1600 r f P Q ∨ ReturnsToZero 1600 r f P ∨
      ReturnsToZero 1600 r f Q := by
  have h := S.facts
  obtain ⟨a, e, r⟩ := (sponge_verified k permute JP S).extraction J garbage hgb ops hwt
    (Or.inl hg.2) hx hg
  obtain ⟨a', e', r'⟩ := (sponge_verified k' permute JP S).extraction J garbage' hgb' ops' hwt'
    (Or.inl hg'.2) hx' hg'
  rw [e, e'] at hcoll
  replace hcoll : a.result (spongeConstruction k permute d JP) =
    a'.result (spongeConstruction k' permute d JP) := hcoll
  rw [r, r'] at hcoll
  have h1 := congrArg flipOctets (Except.ok.inj hcoll)
  unfold spongeSpec at h1
  rw [flipOctets_flipOctets _ (by rw [length_sponge permute S]; exact h.2.2.2.1),
    flipOctets_flipOctets _ (by rw [length_sponge permute S]; exact h.2.2.2.1)] at h1
  have hlen : ∀ (k : SpongeKind) (m : Bits), ∀ x ∈ spongeInput k (spongeBlockBits d) m,
    x.length = spongeBlockBits d := fun k m x hx => length_of_mem_blocks hx
  show OutputCollision 1600 (spongeBlockBits d) _ d _ _ ∨ _
  by_cases hs : absorbBlocks 1600 (spongeBlockBits d) (onStrings permute)
        (spongeInput k (spongeBlockBits d) (streamOf (spongeBlockBits d) ops)) =
      absorbBlocks 1600 (spongeBlockBits d) (onStrings permute)
        (spongeInput k' (spongeBlockBits d) (streamOf (spongeBlockBits d) ops'))
  · refine Or.inr (absorb_collision h.2.2.1 (length_onStrings permute) (onStrings_injective hinj) _ _ _ rfl
      (hlen _ _) (hlen _ _) ?_ hs)
    intro hin
    obtain ⟨hk, hm⟩ := spongeInput_injective h.1 hg.1 hg'.1 hin
    exact hdiff (by rw [hk, hm])
  · exact Or.inl ⟨hs, h1⟩

/-- For the permutation of the library the hypothesis holds (C22). -/
theorem C76_keccak_injective : Function.Injective keccakPermute := C22_permutation_bijective.1

/-- The identity in place of Keccak-f: two messages of 40 bytes that differ in the last one collide. -/
example : let f := onStrings id
    let P := spongeInput .sha3 1088 (streamOf 1088 [spongeBytes 256 (List.replicate 40 0)])
    let Q := spongeInput .sha3 1088 (streamOf 1088 [spongeBytes 256 (List.replicate 39 0 ++ [1])])
    OutputCollision 1600 1088 f 256 P Q ∨ InnerCollision 1600 1088 f P Q ∨ ReturnsToZero 1600 1088 f P ∨
      ReturnsToZero 1600 1088 f Q := by
  have hw : ∀ (bs : List Nat), ∀ op ∈ [spongeBytes 256 bs], op.WellTyped 1088 := by
    intro bs op hop
    rw [List.mem_singleton.1 hop]; exact spongeBytes_wellTyped sizes.2.1 _
  have good : ∀ bs : List Nat, bs.length = 40 → SpongeGood (streamOf 1088 [spongeBytes 256 bs]) := by
    intro bs hb
    have : (streamOf 1088 [spongeBytes 256 bs]).length = 320 := by
      simp [streamOf, spongeBytes, Op.stream, wordElem, Endian.view, hb, List.map_const']
    exact ⟨by rw [this]; decide, by rw [this]; decide⟩
  apply C76_sponge_collision .sha3 .sha3 id Function.injective_id sizes.2.1 spliceInjector spliceInjector
    (List.replicate 1088 true) (List.replicate 1088 false) List.length_replicate List.length_replicate
    _ _ (hw _) (hw _) trivial trivial (good _ (by simp)) (good _ (by simp))
    (by decide +kernel)
  obtain ⟨a, e, r⟩ := (sponge_verified .sha3 id spliceInjector sizes.2.1).extraction spliceInjector
    (List.replicate 1088 true) List.length_replicate [spongeBytes 256 (List.replicate 40 0)] (hw _)
    (Or.inl (good _ (by simp)).2) trivial (good _ (by simp))
  obtain ⟨a', e', r'⟩ := (sponge_verified .sha3 id spliceInjector sizes.2.1).extraction spliceInjector
    (List.replicate 1088 false) List.length_replicate [spongeBytes 256 (List.replicate 39 0 ++ [1])] (hw _)
    (Or.inl (good _ (by simp)).2) trivial (good _ (by simp))
  rw [e, e']
  show a.result (spongeConstruction .sha3 id 256 spliceInjector) =
    a'.result (spongeConstruction .sha3 id 256 spliceInjector)
  rw [r, r']
  exact congrArg Except.ok (by decide +kernel)

/-! ### C77 -/

/-- The compression calls of HAIFA for `m`: the block, the number of bits up to its end, the final flag.  The
last call takes the zero-padded rest; if there is none, but there are blocks, the last block again. -/
def haifaInput (B : Nat) (m : Bits) : List (Bits × Nat × Bool) :=
  (List.range (m.length / B)).map (fun i => (block B m i, (i + 1) * B, false)) ++
  [(if m.length ≠ 0 ∧ m.length % B = 0 then m.drop (m.length - B)
    else m.drop (m.length / B * B) ++ List.replicate (B - m.length % B) false, m.length, true)]

theorem haifaAbsorbed_foldl {σ : Type} (B : Nat) (init : σ) (compress : σ → Bits → Nat → Bool → σ) (m : Bits)
    (q : Nat) : haifaAbsorbed B init compress m q = ((List.range q).map fun i =>
      (block B m i, (i + 1) * B, false)).foldl (fun s c => compress s c.1 c.2.1 c.2.2) init := by
  induction q with
  | zero => rfl
  | succ q ih =>
    rw [List.range_succ, List.map_append, List.foldl_append, ← ih]
    rfl

theorem haifaInput_injective {B : Nat} (hB : 0 < B) {m m' : Bits} (h : haifaInput B m = haifaInput B m') :
    m = m' := by
  unfold haifaInput at h
  have hl := congrArg (fun l => l.getLast?) h
  simp only [List.getLast?_append, List.getLast?_singleton, Option.some_or, Option.some.injEq,
    Prod.mk.injEq] at hl
  obtain ⟨hlast, hlen, _⟩ := hl
  have hb := (List.append_inj' h rfl).1
  rw [← hlen] at hb hlast
  have hblk : ∀ i, i < m.length / B → block B m i = block B m' i := by
    intro i hi
    have := List.map_inj_left.1 hb i (List.mem_range.2 hi)
    exact (Prod.mk.inj this).1
  have hdm := Nat.div_add_mod m.length B
  rw [Nat.mul_comm] at hdm
  apply List.ext_getElem?
  intro j
  by_cases hj : j < m.length / B * B
  · have hi : j / B < m.length / B := Nat.div_lt_of_lt_mul (by rw [Nat.mul_comm]; exact hj)
    have hjm := Nat.div_add_mod j B
    rw [Nat.mul_comm] at hjm
    have hr := Nat.mod_lt j hB
    have hg : ∀ x : Bits, x[j]? = (block B x (j / B))[j % B]? := by
      intro x
      unfold block
      rw [List.getElem?_take_of_lt hr, List.getElem?_drop, hjm]
    rw [hg m, hg m', hblk _ hi]
  · by_cases hf : m.length ≠ 0 ∧ m.length % B = 0
    · rw [List.getElem?_eq_none (by omega), List.getElem?_eq_none (by omega)]
    · rw [if_neg hf, if_neg hf] at hlast
      have hd := (List.append_inj' hlast rfl).1
      have hg : ∀ x : Bits, x[j]? = (x.drop (m.length / B * B))[j - m.length / B * B]? := by
        intro x
        rw [List.getElem?_drop]; congr 1; omega
      rw [hg m, hg m', hd]

theorem haifaInput_collision {σ : Type} {B : Nat} (hB : 0 < B) (f : σ → Bits × Nat × Bool → σ) (iv : σ)
    {m m' : Bits} (hne : m ≠ m') (h : (haifaInput B m).foldl f iv = (haifaInput B m').foldl f iv) :
    CollisionInRuns f iv (haifaInput B m) (haifaInput B m') := by
  by_cases hl : m.length = m'.length
  · refine collision_same_length f iv (m.length / B + 1) _ _ (by simp [haifaInput]) (by simp [haifaInput, hl])
      (fun e => hne (haifaInput_injective hB e)) h
  · exact collision_last f iv _ _ _ _ (fun e => hl (Prod.mk.inj (Prod.mk.inj (Prod.mk.inj e).2).2).1) h

/-- C77: HAIFA with any compression function and any injective readout.  Two programs that feed different
messages (below 2^64 bits) and obtain the same digest exhibit, among the compression calls for the two
messages, two different inputs with the same output. -/
theorem C77_haifa_collision {σ δ : Type} (B w : Nat) (hB : 0 < B) (hw : 0 < w) (hwB : w ∣ B) (init : σ)
    (compress : σ → Bits → Nat → Bool → σ) (output : σ → Except Fault δ) (out : σ → δ)
    (hout : ∀ s, output s = .ok (out s)) (hinj : Function.Injective out) (JP J : Injector)
    (garbage garbage' : Bits) (hgb : garbage.length = B) (hgb' : garbage'.length = B) (ops ops' : List Op)
    (hwt : ∀ op ∈ ops, op.WellTyped B) (hwt' : ∀ op ∈ ops', op.WellTyped B)
    (hx : GoodExtracts B HaifaGood [] ops) (hx' : GoodExtracts B HaifaGood [] ops')
    (hg : (streamOf B ops).length < 2 ^ 64) (hg' : (streamOf B ops').length < 2 ^ 64)
    (hdiff : streamOf B ops ≠ streamOf B ops')
    (hcoll : (do let (a, _) ← runOps (haifaConstruction B w init compress output JP) J
                   (Acc.init (haifaConstruction B w init compress output JP) garbage) [] ops
                 a.result (haifaConstruction B w init compress output JP)) =
             (do let (a, _) ← runOps (haifaConstruction B w init compress output JP) J
                   (Acc.init (haifaConstruction B w init compress output JP) garbage') [] ops'
                 a.result (haifaConstruction B w init compress output JP))) :
    CollisionInRuns (fun s c => compress s c.1 c.2.1 c.2.2) init (haifaInput B (streamOf B ops))
      (haifaInput B (streamOf B ops')) := by
  have V := haifa_verified B w hB hw hwB init compress output out hout JP
  obtain ⟨a, e, r⟩ := V.extraction J garbage hgb ops hwt (Or.inl hg)
    hx hg
  obtain ⟨a', e', r'⟩ := V.extraction J garbage' hgb' ops' hwt' (Or.inl hg')
    hx' hg'
  rw [e, e'] at hcoll
  replace hcoll : a.result (haifaConstruction B w init compress output JP) =
    a'.result (haifaConstruction B w init compress output JP) := hcoll
  rw [r, r'] at hcoll
  have h1 := hinj (Except.ok.inj hcoll)
  apply haifaInput_collision hB _ _ hdiff
  unfold haifaInput
  rw [List.foldl_append, List.foldl_append, ← haifaAbsorbed_foldl, ← haifaAbsorbed_foldl]
  exact h1

/-- A compression function that forgets the block: one-byte messages collide. -/
example : CollisionInRuns (fun (s : Nat) (c : Bits × Nat × Bool) => s + c.2.1) 7
    (haifaInput 1024 (streamOf 1024 [blakeBytesOp [1]])) (haifaInput 1024 (streamOf 1024 [blakeBytesOp [2]])) := by
  have wt : ∀ (n : Nat) (op : Op), op ∈ [blakeBytesOp [n]] → op.WellTyped 1024 := by
    intro n op hop
    rw [List.mem_singleton.1 hop]; exact blakeBytesOp_wellTyped _
  have V := haifa_verified 1024 64 (by omega) (by omega) (by omega) 7 (fun s _ n _ => s + n) Except.ok id
    (fun _ => rfl) spliceInjector
  apply C77_haifa_collision 1024 64 (by omega) (by omega) (by omega) 7 (fun s _ n _ => s + n) Except.ok id
    (fun _ => rfl) Function.injective_id spliceInjector spliceInjector (List.replicate 1024 true)
    (List.replicate 1024 true) List.length_replicate List.length_replicate _ _ (wt 1) (wt 2)
    trivial trivial (by decide) (by decide) (by decide)
  obtain ⟨a, e, r⟩ := V.extraction spliceInjector (List.replicate 1024 true) List.length_replicate _ (wt 1)
    (Or.inl (by decide)) trivial (by show _ < _; decide)
  obtain ⟨a', e', r'⟩ := V.extraction spliceInjector (List.replicate 1024 true) List.length_replicate _ (wt 2)
    (Or.inl (by decide)) trivial (by show _ < _; decide)
  rw [e, e']
  show a.result (haifaConstruction 1024 64 7 (fun s _ n _ => s + n) Except.ok spliceInjector) =
    a'.result (haifaConstruction 1024 64 7 (fun s _ n _ => s + n) Except.ok spliceInjector)
  rw [r, r']
  exact congrArg Except.ok (by decide +kernel)

/-! BLAKE2b -/

theorem octetBits_injective : ∀ {xs ys : List Nat}, (∀ x ∈ xs, x < 256) → (∀ y ∈ ys, y < 256) →
    octetBits xs = octetBits ys → xs = ys
  | [], [], _, _, _ => rfl
  | [], y :: ys, _, _, h => by have := congrArg List.length h; simp [length_octetBits] at this
  | x :: xs, [], _, _, h => by have := congrArg List.length h; simp [length_octetBits] at this
  | x :: xs, y :: ys, hx, hy, h => by
    have e : ∀ (z : Nat) (zs : List Nat), octetBits (z :: zs) = bigEndian 8 z ++ octetBits zs := fun _ _ => rfl
    rw [e, e] at h
    obtain ⟨h1, h2⟩ := List.append_inj h (by simp [bigEndian])
    have hxy : x = y := by
      have hx' := hx x (by simp)
      have hy' := hy y (by simp)
      apply Nat.eq_of_testBit_eq
      intro i
      by_cases hi : i < 8
      · have := congrArg (fun l => l[7 - i]?) h1
        simp only [bigEndian, List.getElem?_map, List.getElem?_range (show 7 - i < 8 by omega),
          Option.map_some, Option.some.injEq] at this
        rwa [show 8 - 1 - (7 - i) = i by omega] at this
      · have h256 : 256 ≤ 2 ^ i := Nat.pow_le_pow_right (n := 2) (by omega) (show 8 ≤ i by omega)
        rw [Nat.testBit_lt_two_pow (Nat.lt_of_lt_of_le hx' h256),
          Nat.testBit_lt_two_pow (Nat.lt_of_lt_of_le hy' h256)]
    rw [hxy, octetBits_injective (fun z hz => hx z (by simp [hz])) (fun z hz => hy z (by simp [hz])) h2]

/-- The 64 octets of a state determine it. -/
theorem readout_injective (s t : BlakeState) (h : octetBits (readout 64 s.toList) = octetBits (readout 64 t.toList)) :
    s = t := by
  have hb : ∀ (u : BlakeState), ∀ x ∈ readout 64 u.toList, x < 256 := by
    intro u x hx
    unfold readout at hx
    obtain ⟨k, _, rfl⟩ := List.mem_map.1 (List.mem_of_mem_take hx)
    exact Nat.mod_lt _ (by omega)
  have e := octetBits_injective (hb s) (hb t) h
  unfold readout at e
  rw [List.take_of_length_le (by simp), List.take_of_length_le (by simp)] at e
  have hk := List.map_inj_left.1 e
  apply Vector.ext
  intro i hi
  have hg : ∀ u : BlakeState, Blake2b.get u.toList i = u[i] := by
    intro u
    unfold Blake2b.get
    rw [List.getD_eq_getElem?_getD, List.getElem?_eq_getElem (by simp; omega)]
    simp
  apply BitVec.eq_of_toNat_eq
  have hj : ∀ j, j < 8 → (s[i]).toNat / 256 ^ j % 256 = (t[i]).toNat / 256 ^ j % 256 := by
    intro j hj
    have := hk (8 * i + j) (List.mem_range.2 (by omega))
    rwa [show (8 * i + j) / 8 = i by omega, show (8 * i + j) % 8 = j by omega, hg, hg] at this
  apply Nat.eq_of_testBit_eq
  intro p
  have hbyte : ∀ x : Nat, p < 64 → x.testBit p = (x / 256 ^ (p / 8) % 256).testBit (p % 8) := by
    intro x _
    rw [show (256 : Nat) = 2 ^ 8 from rfl, ← Nat.pow_mul, Nat.testBit_mod_two_pow, Nat.testBit_div_two_pow]
    have h8 : p % 8 < 8 := by omega
    rw [show p % 8 + 8 * (p / 8) = p by omega]
    simp [h8]
  by_cases hp : p < 64
  · rw [hbyte _ hp, hbyte _ hp, hj _ (by omega)]
  · have h64 : 2 ^ 64 ≤ 2 ^ p := Nat.pow_le_pow_right (by omega) (by omega)
    rw [Nat.testBit_lt_two_pow (Nat.lt_of_lt_of_le (s[i]).isLt h64),
      Nat.testBit_lt_two_pow (Nat.lt_of_lt_of_le (t[i]).isLt h64)]

/-- The inputs of RFC 7693's `F` for a byte string, as the code calls it: sixteen words, the byte counter, the
final flag. -/
def blakeInput (bytes : List Nat) : List (Blake2b.Words × Nat × Bool) :=
  (List.range (bytes.length / 128)).map (fun i => (Blake2b.blockWords bytes i, (i + 1) * 128, false)) ++
  [(Blake2b.blockWords bytes (if bytes.length ≠ 0 ∧ bytes.length % 128 = 0 then bytes.length / 128 - 1
    else bytes.length / 128), bytes.length, true)]

/-- A number from its octets, least significant first. -/
def horner : List Nat → Nat
  | [] => 0
  | a :: l => a + 256 * horner l

theorem horner_lt : ∀ (l : List Nat), (∀ b ∈ l, b < 256) → horner l < 256 ^ l.length
  | [], _ => by simp [horner]
  | a :: l, h => by
    have h1 := horner_lt l fun b hb => h b (by simp [hb])
    have h2 := h a (by simp)
    simp only [horner, List.length_cons, Nat.pow_succ]
    omega

theorem horner_digit : ∀ (l : List Nat), (∀ b ∈ l, b < 256) → ∀ k, horner l / 256 ^ k % 256 = l.getD k 0
  | [], _, k => by simp [horner]
  | a :: l, h, 0 => by
    have h2 := h a (by simp)
    simp only [horner, Nat.pow_zero, Nat.div_one, List.getD_cons_zero]
    omega
  | a :: l, h, k + 1 => by
    have h2 := h a (by simp)
    rw [Nat.pow_succ', ← Nat.div_div_eq_div_mul, show horner (a :: l) / 256 = horner l by
      simp only [horner]; omega, horner_digit l (fun b hb => h b (by simp [hb])), List.getD_cons_succ]

theorem horner_snoc (l : List Nat) (a : Nat) : horner (l ++ [a]) = horner l + a * 256 ^ l.length := by
  induction l with
  | nil => simp [horner]
  | cons x l ih =>
    rw [List.cons_append, horner, horner, ih, List.length_cons, Nat.pow_succ', Nat.mul_add]
    rw [Nat.add_assoc, Nat.mul_left_comm]

theorem foldl_horner (g : Nat → Nat) (n : Nat) :
    (List.range n).foldl (fun m k => m + g k * 256 ^ k) 0 = horner ((List.range n).map g) := by
  induction n with
  | zero => rfl
  | succ n ih =>
    rw [List.range_succ, List.foldl_append, List.map_append, List.map_cons, List.map_nil, horner_snoc, ih,
      List.length_map, List.length_range, List.foldl_cons, List.foldl_nil]

theorem leWord_byte (bytes : List Nat) (hb : ∀ b ∈ bytes, b < 256) (i k : Nat) (hk : k < 8) :
    (Blake2b.leWord bytes i).toNat / 256 ^ k % 256 = bytes.getD (8 * i + k) 0 := by
  have hlt : ∀ j, bytes.getD j 0 < 256 := by
    intro j
    rw [List.getD_eq_getElem?_getD]
    by_cases hj : j < bytes.length
    · rw [List.getElem?_eq_getElem hj]; exact hb _ (List.getElem_mem hj)
    · rw [List.getElem?_eq_none (by omega)]; decide
  unfold Blake2b.leWord
  have e := foldl_horner (fun k => bytes.getD (8 * i + k) 0) 8
  have hd : ∀ b ∈ (List.range 8).map fun k => bytes.getD (8 * i + k) 0, b < 256 := by
    intro b hm
    obtain ⟨k, _, rfl⟩ := List.mem_map.1 hm
    exact hlt _
  have hl := horner_lt _ hd
  rw [BitVec.toNat_ofNat, e, Nat.mod_eq_of_lt (Nat.lt_of_lt_of_eq hl (by simp)), horner_digit _ hd,
    List.getD_eq_getElem?_getD, List.getElem?_map, List.getElem?_range hk]
  rfl

theorem blockWords_byte (bytes : List Nat) (hb : ∀ b ∈ bytes, b < 256) (i k : Nat) (hk : k < 128) :
    (Blake2b.get (Blake2b.blockWords bytes i) (k / 8)).toNat / 256 ^ (k % 8) % 256 =
      bytes.getD (128 * i + k) 0 := by
  unfold Blake2b.blockWords
  rw [get_map_range _ _ _ (by omega), leWord_byte _ (fun b h => hb b (List.mem_of_mem_drop (List.mem_of_mem_take h)))
    _ _ (by omega), show 8 * (k / 8) + k % 8 = k by omega, List.getD_eq_getElem?_getD, List.getD_eq_getElem?_getD,
    List.getElem?_take_of_lt hk, List.getElem?_drop]

theorem map_snoc_inj {α : Type} (f g : Nat → α) {n n' : Nat} {x y : α}
    (h : (List.range n).map f ++ [x] = (List.range n').map g ++ [y]) : x = y ∧ ∀ i, i < n → f i = g i := by
  obtain ⟨h1, h2⟩ := List.append_inj' h rfl
  have hl := congrArg List.length h1
  simp only [List.length_map, List.length_range] at hl
  subst hl
  exact ⟨List.singleton_inj.1 h2, fun i hi => List.map_inj_left.1 h1 i (List.mem_range.2 hi)⟩

theorem blakeInput_injective {xs ys : List Nat} (hx : ∀ b ∈ xs, b < 256) (hy : ∀ b ∈ ys, b < 256)
    (h : blakeInput xs = blakeInput ys) : xs = ys := by
  unfold blakeInput at h
  obtain ⟨hl, hb⟩ := map_snoc_inj _ _ h
  obtain ⟨hlast, hlen⟩ := Prod.mk.inj hl
  replace hlen := (Prod.mk.inj hlen).1
  rw [← hlen] at hlast
  have hblk : ∀ i, i < xs.length / 128 → Blake2b.blockWords xs i = Blake2b.blockWords ys i :=
    fun i hi => (Prod.mk.inj (hb i hi)).1
  have hall : ∀ j, j < xs.length → xs.getD j 0 = ys.getD j 0 := by
    intro j hj
    have key : Blake2b.blockWords xs (j / 128) = Blake2b.blockWords ys (j / 128) := by
      by_cases hi : j / 128 < xs.length / 128
      · exact hblk _ hi
      · rw [if_neg (by omega)] at hlast
        rwa [show j / 128 = xs.length / 128 by omega]
    have h1 := blockWords_byte xs hx (j / 128) (j % 128) (by omega)
    have h2 := blockWords_byte ys hy (j / 128) (j % 128) (by omega)
    rw [show 128 * (j / 128) + j % 128 = j by omega] at h1 h2
    rw [← h1, ← h2, key]
  apply List.ext_getElem hlen
  intro j h1 h2
  have := hall j h1
  rwa [List.getD_eq_getElem?_getD, List.getD_eq_getElem?_getD, List.getElem?_eq_getElem h1,
    List.getElem?_eq_getElem h2] at this

/-- The initial chaining value of RFC 7693 section 3.3 for `nn` octets, no key. -/
def blakeIvOf (nn : Nat) : Blake2b.Words :=
  Blake2b.put Blake2b.IV 0 (Blake2b.get Blake2b.IV 0 ^^^ 0x01010000 ^^^ BitVec.ofNat 64 nn)

theorem codeState_foldl_of (nn : Nat) (bytes : List Nat) : codeState nn bytes =
    (blakeInput bytes).foldl (fun h c => Blake2b.F h c.1 c.2.1 c.2.2) (blakeIvOf nn) := by
  unfold blakeInput
  rw [List.foldl_append, List.foldl_map]
  unfold codeState
  by_cases hf : bytes.length ≠ 0 ∧ bytes.length % 128 = 0
  · rw [if_pos hf]
    simp only [if_pos hf, List.foldl_cons, List.foldl_nil]
    unfold rfcLoop blakeIvOf
    rfl
  · rw [if_neg hf]
    simp only [if_neg hf]
    have hc : Blake2b.blockCount bytes.length - 1 = bytes.length / 128 := by
      unfold Blake2b.blockCount
      split <;> omega
    unfold Blake2b.finalState
    simp only [hc, List.foldl_cons, List.foldl_nil]
    unfold blakeIvOf
    rfl

/-- Hash length 64. -/
def blakeIv : Blake2b.Words := blakeIvOf 64

theorem codeState_foldl (bytes : List Nat) : codeState 64 bytes =
    (blakeInput bytes).foldl (fun h c => Blake2b.F h c.1 c.2.1 c.2.2) blakeIv := codeState_foldl_of 64 bytes

theorem blake_collision {iv : Blake2b.Words} {bytes bytes' : List Nat} (hb : ∀ b ∈ bytes, b < 256)
    (hb' : ∀ b ∈ bytes', b < 256) (hne : bytes ≠ bytes')
    (h2 : (blakeInput bytes).foldl (fun h c => Blake2b.F h c.1 c.2.1 c.2.2) iv =
      (blakeInput bytes').foldl (fun h c => Blake2b.F h c.1 c.2.1 c.2.2) iv) :
    CollisionInRuns (fun h c => Blake2b.F h c.1 c.2.1 c.2.2) iv (blakeInput bytes) (blakeInput bytes') := by
  by_cases hl : bytes.length = bytes'.length
  · exact collision_same_length _ _ (bytes.length / 128 + 1) _ _ (by simp [blakeInput])
      (by simp [blakeInput, hl]) (fun he => hne (blakeInput_injective hb hb' he)) h2
  · exact collision_last _ _ _ _ _ _ (fun he => hl (Prod.mk.inj (Prod.mk.inj (Prod.mk.inj he).2).2).1) h2

/-- C77 for BLAKE2b-512 on byte strings, in spite of the last block being compressed twice (C08): two
different byte strings (below 2^61 bytes) with the same digest give two different inputs of RFC 7693's `F`
(chaining value, message words, counter, flag), among the calls for the two strings, with the same output.  (No
collision being known, `hcoll` cannot be illustrated; see the example of the general theorem.) -/
theorem C77_blake2b_collision (JP J : Injector) (garbage garbage' : Bits) (hgb : garbage.length = 1024)
    (hgb' : garbage'.length = 1024) (kind kind' : RangeKind) (cache0 cache0' bytes bytes' : List Nat)
    (hc : cache0.length = 128) (hc' : cache0'.length = 128) (hb : ∀ b ∈ bytes, b < 256)
    (hb' : ∀ b ∈ bytes', b < 256) (hlen : bytes.length < 2 ^ 61) (hlen' : bytes'.length < 2 ^ 61)
    (hne : bytes ≠ bytes')
    (hcoll : hashOnce (blake2bConstruction 512 JP) J (wordElem littleOctetBigBit 8) kind garbage cache0 bytes =
      hashOnce (blake2bConstruction 512 JP) J (wordElem littleOctetBigBit 8) kind' garbage' cache0' bytes') :
    CollisionInRuns (fun h c => Blake2b.F h c.1 c.2.1 c.2.2) blakeIv (blakeInput bytes) (blakeInput bytes') := by
  have e := C08_exact 64 (by omega) JP J garbage hgb kind cache0 bytes hc hb hlen
  have e' := C08_exact 64 (by omega) JP J garbage' hgb' kind' cache0' bytes' hc' hb' hlen'
  have h1 := Except.ok.inj (e.symm.trans (hcoll.trans e'))
  rw [← haifa_bytes 64 bytes hb hlen, ← haifa_bytes 64 bytes' hb' hlen'] at h1
  have h2 := congrArg Vector.toList (readout_injective _ _ h1)
  rw [haifa_bytes 64 bytes hb hlen, haifa_bytes 64 bytes' hb' hlen', codeState_foldl, codeState_foldl] at h2
  exact blake_collision hb hb' hne h2

/-- C77 for every digest size: two different byte strings with the same digest of `nn` octets give a collision of `F`
among the calls for the two strings, or the two final chaining values differ and agree in the first `nn` octets. -/
theorem C77_truncated (nn : Nat) (hnn : nn ≤ 64) (JP J : Injector) (garbage garbage' : Bits)
    (hgb : garbage.length = 1024) (hgb' : garbage'.length = 1024) (kind kind' : RangeKind)
    (cache0 cache0' bytes bytes' : List Nat)
    (hc : cache0.length = 128) (hc' : cache0'.length = 128) (hb : ∀ b ∈ bytes, b < 256)
    (hb' : ∀ b ∈ bytes', b < 256) (hlen : bytes.length < 2 ^ 61) (hlen' : bytes'.length < 2 ^ 61)
    (hne : bytes ≠ bytes')
    (hcoll : hashOnce (blake2bConstruction (8 * nn) JP) J (wordElem littleOctetBigBit 8) kind garbage cache0 bytes =
      hashOnce (blake2bConstruction (8 * nn) JP) J (wordElem littleOctetBigBit 8) kind' garbage' cache0' bytes') :
    let F := fun h (c : Blake2b.Words × Nat × Bool) => Blake2b.F h c.1 c.2.1 c.2.2
    let s := (blakeInput bytes).foldl F (blakeIvOf nn)
    let s' := (blakeInput bytes').foldl F (blakeIvOf nn)
    CollisionInRuns F (blakeIvOf nn) (blakeInput bytes) (blakeInput bytes') ∨
      (s ≠ s' ∧ readout nn s = readout nn s') := by
  have e := C08_exact nn hnn JP J garbage hgb kind cache0 bytes hc hb hlen
  have e' := C08_exact nn hnn JP J garbage' hgb' kind' cache0' bytes' hc' hb' hlen'
  have h1 := Except.ok.inj (e.symm.trans (hcoll.trans e'))
  have hr : ∀ w : Blake2b.Words, ∀ x ∈ readout nn w, x < 256 := by
    intro w x hx
    obtain ⟨k, _, rfl⟩ := List.mem_map.1 (List.mem_of_mem_take hx)
    exact Nat.mod_lt _ (by decide)
  have h2 := octetBits_injective (hr _) (hr _) h1
  rw [codeState_foldl_of, codeState_foldl_of] at h2
  intro F s s'
  by_cases hs : s = s'
  · exact Or.inl (blake_collision hb hb' hne hs)
  · exact Or.inr ⟨hs, h2⟩

/-- A digest of no octets: every two messages agree. -/
example (JP J : Injector) (kind : RangeKind) :=
  C77_truncated 0 (by decide) JP J (List.replicate 1024 true) (List.replicate 1024 false) List.length_replicate
    List.length_replicate kind kind (List.replicate 128 7) (List.replicate 128 9) [1, 2, 3] [4]
    List.length_replicate List.length_replicate (by decide) (by decide) (by decide) (by decide) (by decide)
    (by
      rw [C08_exact 0 (by decide) JP J _ List.length_replicate kind _ _ List.length_replicate (by decide) (by decide),
        C08_exact 0 (by decide) JP J _ List.length_replicate kind _ _ List.length_replicate (by decide) (by decide)]
      simp only [readout, List.take_zero])

/-- The byte counter cannot tell bit strings of the same number of octets apart: at bit granularity
BLAKE2b has trivial collisions, here of one and of two bits. -/
theorem C77_bits_false (nn : Nat) (hnn : nn ≤ 64) (JP J : Injector) (garbage : Bits) (hgb : garbage.length = 1024)
    (value : Bits) (hv : value.length = 1024) (h0 : value[1]? = some false) :
    (do let a ← (Acc.init (blake2bConstruction (8 * nn) JP) garbage).pushBlock
          (blake2bConstruction (8 * nn) JP) J value 1
        a.result (blake2bConstruction (8 * nn) JP)) =
      (do let a ← (Acc.init (blake2bConstruction (8 * nn) JP) garbage).pushBlock
            (blake2bConstruction (8 * nn) JP) J value 2
          a.result (blake2bConstruction (8 * nn) JP)) := by
  have h := fun (bits : Nat) (h1 : 0 < bits) (h2 : bits ≤ 2) =>
    C15_haifa_bits_argument hnn JP J garbage hgb [] (by simp) trivial value hv bits (by omega)
      (by rw [if_neg (by omega)]; simp [streamOf]; omega)
  have h1 := h 1 (by omega) (by omega)
  have h2 := h 2 (by omega) (by omega)
  simp only [runOps] at h1 h2
  refine Eq.trans h1 (Eq.trans (congrArg Except.ok ?_) h2.symm)
  simp only [streamOf, List.flatMap_nil, List.nil_append, Nat.one_ne_zero, if_false, Nat.reduceEqDiff]
  obtain ⟨x, rest, rfl⟩ : ∃ x rest, value = x :: false :: rest := by
    match value, h0 with
    | x :: y :: rest, h0 => exact ⟨x, rest, by simpa using h0⟩
  have e1 : haifaLast 1024 [x] = x :: List.replicate (1022 + 1) false := by
    unfold haifaLast
    rw [if_neg (by simp)]
    simp only [List.length_cons, List.length_nil, Nat.reduceAdd, Nat.reduceDiv, Nat.zero_mul,
      Nat.reduceMod, Nat.reduceSub, List.drop_zero, List.cons_append, List.nil_append]
  have e2 : haifaLast 1024 [x, false] = x :: List.replicate (1022 + 1) false := by
    unfold haifaLast
    rw [if_neg (by simp), List.replicate_succ]
    simp only [List.length_cons, List.length_nil, Nat.reduceAdd, Nat.reduceDiv, Nat.zero_mul,
      Nat.reduceMod, Nat.reduceSub, List.drop_zero, List.cons_append, List.nil_append]
  unfold blakeOf haifaDigestOf
  simp only [List.take_succ_cons, List.take_zero, List.length_cons, List.length_nil]
  have e3 : ∀ y : Bits, ∀ n, n < 1024 → haifaAbsorbed 1024 (blakeInit (8 * nn)) blakeCompress y (n / 1024) =
      blakeInit (8 * nn) := by
    intro y n hn
    rw [Nat.div_eq_of_lt hn]; rfl
  rw [e1, e2, e3 _ _ (by omega), e3 _ _ (by omega)]
  unfold blakeCompress blakeCompressWords
  rw [byteCount _ (by omega), byteCount _ (by omega)]

/-- The one-bit and two-bit messages `1` and `10`. -/
example : (do
      let a ← (Acc.init (blake2bConstruction 512 spliceInjector) (List.replicate 1024 true)).pushBlock
        (blake2bConstruction 512 spliceInjector) spliceInjector (true :: List.replicate 1023 false) 1
      a.result (blake2bConstruction 512 spliceInjector)) = (do
      let a ← (Acc.init (blake2bConstruction 512 spliceInjector) (List.replicate 1024 true)).pushBlock
        (blake2bConstruction 512 spliceInjector) spliceInjector (true :: List.replicate 1023 false) 2
      a.result (blake2bConstruction 512 spliceInjector)) :=
  C77_bits_false 64 (by omega) _ _ _ List.length_replicate _
    (by rw [List.length_cons, List.length_replicate]) (by decide +kernel)

end Verif.Props
