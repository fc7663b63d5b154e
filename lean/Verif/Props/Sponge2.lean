import Verif.Props.Sponge
import Verif.Props.MerkleDamgard2
/- C07, C18 and the sponge part of C19. -/
namespace Verif.Props

open Spec

/-! ### C18 -/

theorem replicate_one_inj (j j' : Nat) (A A' : Bits)
    (h : List.replicate j false ++ true :: A = List.replicate j' false ++ true :: A') : A = A' := by
  induction j generalizing j' with
  | zero =>
    cases j' with
    | zero => simpa using h
    | succ j' => simp [List.replicate_succ] at h
  | succ j ih =>
    cases j' with
    | zero => simp [List.replicate_succ] at h
    | succ j' =>
      simp only [List.replicate_succ, List.cons_append, List.cons.injEq, true_and] at h
      exact ih j' h

/-- C18: `pad10*1` is injective on all bit strings, for every rate (also different rates). -/
theorem C18_pad101_injective (r r' : Nat) (N N' : Bits)
    (h : N ++ pad101 r N.length = N' ++ pad101 r' N'.length) : N = N' := by
  have h2 := congrArg List.reverse h
  unfold pad101 at h2
  simp only [List.reverse_append, List.reverse_cons, List.reverse_replicate, List.reverse_nil,
    List.nil_append, List.append_assoc, List.cons_append, List.cons.injEq, true_and] at h2
  exact List.reverse_injective (replicate_one_inj _ _ _ _ h2)

/-- C18: at byte granularity, padded messages determine the family and the message. -/
theorem C18_domain_separation (r r' : Nat) (k k' : SpongeKind) (m m' : Bits) (h8 : 8 ∣ m.length)
    (h8' : 8 ∣ m'.length)
    (h : m ++ k.suffix ++ pad101 r (m ++ k.suffix).length =
      m' ++ k'.suffix ++ pad101 r' (m' ++ k'.suffix).length) : k = k' ∧ m = m' := by
  have e := C18_pad101_injective r r' _ _ h
  have hl := congrArg List.length e
  cases k <;> cases k' <;> simp only [SpongeKind.suffix, List.length_append, List.length_nil,
    List.length_cons] at hl e
  · exact ⟨rfl, by simpa using e⟩
  · omega
  · omega
  · exact ⟨rfl, by simpa using e⟩

/-- The condition on lengths matters: without whole octets the families overlap. -/
example : ([true, false, true] : Bits) ++ SpongeKind.keccak.suffix ++ pad101 8 3 =
    [true] ++ SpongeKind.sha3.suffix ++ pad101 8 3 := by decide

theorem flatten_blocks {B : Nat} (hB : 0 < B) : ∀ (n : Nat) (P : Bits), P.length = n * B →
    (blocks B P).flatten = P := by
  intro n
  induction n with
  | zero => intro P h; simp at h; subst h; simp [blocks_nil]
  | succ n ih =>
    intro P h
    rw [Nat.add_mul] at h
    have e : P = P.take B ++ P.drop B := (List.take_append_drop _ _).symm
    have hl : (P.take B).length = B := by simp; omega
    rw [e, blocks_append hB ⟨1, by rw [hl, Nat.mul_one]⟩, blocks_single hB hl]
    simp only [List.flatten_append, List.flatten_cons, List.flatten_nil, List.append_nil]
    rw [ih (P.drop B) (by simp; omega)]

theorem length_padded {r : Nat} (hr : 0 < r) (N : Bits) : r ∣ (N ++ pad101 r N.length).length := by
  have := fillTo_spec hr (N.length + 2)
  unfold pad101
  simp only [List.length_append, List.length_cons, List.length_replicate, List.length_nil]
  rw [show N.length + (fillTo r (N.length + 2) + (0 + 1) + 1) =
    N.length + 2 + fillTo r (N.length + 2) by omega]
  exact this

/-- The sponge construction whose state is the list of blocks compressed so far. -/
abbrev spongeTracing (k : SpongeKind) (B : Nat) (JP : Injector) : Construction (List Bits) (List Bits) :=
  spongeConstructionOf k B [] (fun t b => t ++ [b]) Except.ok JP

theorem spongeTracing_verified (k : SpongeKind) {B : Nat} (hB : 0 < B) (h64 : 64 ∣ B) (JP : Injector) :
    Verified (spongeTracing k B JP) SpongeGood (absorbedBlocks k B) where
  block := hB
  word := by show 0 < 64; omega
  wordBlock := h64
  computes := by
    intro a m h hm
    rw [sponge_result k B hB h64 _ _ _ JP a m h hm, foldl_trace, List.nil_append]

theorem absorbedBlocks_inj {k k' : SpongeKind} {B : Nat} (hB : 0 < B) (h64 : 64 ∣ B) {m m' : Bits}
    (h8 : 8 ∣ m.length) (h8' : 8 ∣ m'.length) (h : absorbedBlocks k B m = absorbedBlocks k' B m') :
    k = k' ∧ m = m' := by
  have h2 := congrArg (fun l => (l.map flipOctets).flatten) h
  simp only [map_flip_absorbedBlocks _ _ (show 8 ∣ B by omega)] at h2
  have hd : ∀ N : Bits, ∃ n, (N ++ pad101 B N.length).length = n * B := fun N => by
    obtain ⟨n, hn⟩ := length_padded hB N
    exact ⟨n, by rw [hn, Nat.mul_comm]⟩
  obtain ⟨n1, hn1⟩ := hd (flipOctets m ++ k.suffix)
  obtain ⟨n2, hn2⟩ := hd (flipOctets m' ++ k'.suffix)
  rw [flatten_blocks hB n1 _ hn1, flatten_blocks hB n2 _ hn2] at h2
  have h3 := C18_domain_separation B B k k' _ _ (by rw [length_flipOctets]; exact h8)
    (by rw [length_flipOctets]; exact h8') h2
  refine ⟨h3.1, ?_⟩
  rw [← flipOctets_flipOctets _ h8, ← flipOctets_flipOctets _ h8', h3.2]

/-- C18, for the code: if two byte-aligned feeding histories, of possibly different families, make the
construction absorb the same blocks then the families and the messages are the same. -/
theorem C18_absorbed_blocks_injective (k k' : SpongeKind) {B : Nat} (hB : 0 < B) (h64 : 64 ∣ B)
    (JP J : Injector) (garbage garbage' : Bits) (hgb : garbage.length = B) (hgb' : garbage'.length = B)
    (ops ops' : List Op) (hwt : ∀ op ∈ ops, op.WellTyped B) (hwt' : ∀ op ∈ ops', op.WellTyped B)
    (hx : GoodExtracts B SpongeGood [] ops) (hx' : GoodExtracts B SpongeGood [] ops')
    (hg : SpongeGood (streamOf B ops)) (hg' : SpongeGood (streamOf B ops'))
    (h : (do let (a, _) ← runOps (spongeTracing k B JP) J (Acc.init (spongeTracing k B JP) garbage) [] ops
             a.result (spongeTracing k B JP)) =
         (do let (a, _) ← runOps (spongeTracing k' B JP) J
               (Acc.init (spongeTracing k' B JP) garbage') [] ops'
             a.result (spongeTracing k' B JP))) :
    k = k' ∧ streamOf B ops = streamOf B ops' := by
  obtain ⟨a, e, r⟩ := (spongeTracing_verified k hB h64 JP).extraction J garbage hgb ops hwt
    (Or.inl hg.2) hx hg
  obtain ⟨a', e', r'⟩ := (spongeTracing_verified k' hB h64 JP).extraction J garbage' hgb' ops' hwt'
    (Or.inl hg'.2) hx' hg'
  rw [e, e'] at h
  replace h : a.result (spongeTracing k B JP) = a'.result (spongeTracing k' B JP) := h
  rw [r, r'] at h
  have h1 : absorbedBlocks k B (streamOf B ops) = absorbedBlocks k' B (streamOf B ops') :=
    Except.ok.inj h
  exact absorbedBlocks_inj hB h64 hg.1 hg'.1 h1

/-- The hypotheses are satisfiable: the same message fed in two ways. -/
example : ∃ r, (do
      let (a, _) ← runOps (spongeTracing .sha3 1088 spliceInjector) spliceInjector
        (Acc.init (spongeTracing .sha3 1088 spliceInjector) (List.replicate 1088 true)) []
        [spongeBytes 256 [1, 2]]
      a.result (spongeTracing .sha3 1088 spliceInjector)) = .ok r ∧
    (do
      let (a, _) ← runOps (spongeTracing .sha3 1088 spliceInjector) spliceInjector
        (Acc.init (spongeTracing .sha3 1088 spliceInjector) (List.replicate 1088 false)) []
        [spongeBytes 256 [1], spongeBytes 256 [2]]
      a.result (spongeTracing .sha3 1088 spliceInjector)) = .ok r := by
  have hw : ∀ bs : List Nat, (spongeBytes 256 bs).WellTyped 1088 := spongeBytes_wellTyped sizes.2.1
  obtain ⟨a, e, r⟩ := (spongeTracing_verified .sha3 (B := 1088) (by omega) (by omega)
    spliceInjector).extraction spliceInjector (List.replicate 1088 true) List.length_replicate
    [spongeBytes 256 [1, 2]] (by intro op hop; rw [List.mem_singleton.1 hop]; exact hw _) (Or.inl (by decide)) trivial
    ⟨by decide, by decide⟩
  obtain ⟨a', e', r'⟩ := (spongeTracing_verified .sha3 (B := 1088) (by omega) (by omega)
    spliceInjector).extraction spliceInjector (List.replicate 1088 false) List.length_replicate
    [spongeBytes 256 [1], spongeBytes 256 [2]]
    (by
      intro op hop
      simp only [List.mem_cons, List.not_mem_nil, or_false] at hop
      rcases hop with rfl | rfl <;> exact hw _) (Or.inl (by decide)) trivial
    ⟨by decide, by decide⟩
  rw [e, e']
  exact ⟨_, r, r'⟩

/-! ### C19 -/

/-- C19 (sponge): the compression calls behind a digest are one per block of the padded message, in
order, however the message is fed and whatever was extracted before. -/
theorem C19_sponge_calls (k : SpongeKind) {B : Nat} (hB : 0 < B) (h64 : 64 ∣ B) (JP J : Injector)
    (garbage : Bits) (hgb : garbage.length = B) (ops : List Op) (hwt : ∀ op ∈ ops, op.WellTyped B)
    (hg : GoodExtracts B SpongeGood [] ops) (hgf : SpongeGood (streamOf B ops)) :
    ∃ a calls, runOps (spongeTracing k B JP) J (Acc.init (spongeTracing k B JP) garbage) [] ops =
        .ok (a, expected B (absorbedBlocks k B) [] ops) ∧
      a.result (spongeTracing k B JP) = .ok calls ∧
      calls.map flipOctets = blocks B (flipOctets (streamOf B ops) ++ k.suffix ++
        pad101 B (flipOctets (streamOf B ops) ++ k.suffix).length) ∧
      calls.length = ((streamOf B ops).length + k.suffix.length + 2 + (B - 1)) / B := by
  obtain ⟨a, e, r⟩ := (spongeTracing_verified k hB h64 JP).extraction J garbage hgb ops hwt
    (Or.inl hgf.2) hg hgf
  have e1 : (absorbedBlocks k B (streamOf B ops)).map flipOctets = _ :=
    map_flip_absorbedBlocks k B (by omega) _
  refine ⟨a, _, e, r, e1, ?_⟩
  have hl := congrArg List.length e1
  rw [List.length_map, length_blocks] at hl
  show (absorbedBlocks k B (streamOf B ops)).length = _
  rw [hl]
  obtain ⟨u, hu⟩ := length_padded hB (flipOctets (streamOf B ops) ++ k.suffix)
  rw [hu, Nat.mul_div_cancel_left _ hB]
  have hlt := fillTo_lt hB ((flipOctets (streamOf B ops) ++ k.suffix).length + 2)
  unfold pad101 at hu
  simp only [List.length_append, List.length_cons, List.length_replicate, List.length_nil,
    length_flipOctets] at hu hlt
  generalize fillTo B _ = z at *
  rw [show (streamOf B ops).length + k.suffix.length + 2 + (B - 1) = B * u + (B - 1 - z) by omega,
    Nat.mul_add_div hB, Nat.div_eq_of_lt (by omega), Nat.add_zero]

/-- 136 bytes of SHA3-256: two compressions. -/
example : ∃ a calls, runOps (spongeTracing .sha3 1088 spliceInjector) spliceInjector
      (Acc.init (spongeTracing .sha3 1088 spliceInjector) (List.replicate 1088 true)) []
      [spongeBytes 256 (List.range 136)] = .ok (a, []) ∧
    a.result (spongeTracing .sha3 1088 spliceInjector) = .ok calls ∧ calls.length = 2 := by
  obtain ⟨a, calls, e, r, -, l⟩ := C19_sponge_calls .sha3 (B := 1088) (by omega) (by omega) spliceInjector
    spliceInjector (List.replicate 1088 true) List.length_replicate [spongeBytes 256 (List.range 136)]
    (by intro op hop; rw [List.mem_singleton.1 hop]; exact spongeBytes_wellTyped sizes.2.1 _) trivial
    ⟨by decide +kernel, by decide +kernel⟩
  exact ⟨a, calls, e, r, l.trans (by decide +kernel)⟩

/-! ### C07 -/

/-- C07 (refutation, 1): if the message leaves one free bit in the block (Keccak), or at most three
(SHA-3), every extraction writes outside the block, whatever the permutation. -/
theorem C07_short_tail_faults {σ δ : Type} (k : SpongeKind) {B : Nat} (hB : 8 ≤ B)
    (init : σ) (compress : σ → Bits → σ) (output : σ → Except Fault δ) (JP : Injector) (a : Acc σ)
    (m : Bits) (h : Rep (spongeConstructionOf k B init compress output JP) a m)
    (hlt : m.length < 2 ^ 64)
    (htail : B - m.length % B ≤ (match k with | .keccak => 1 | .sha3 => 3)) :
    a.result (spongeConstructionOf k B init compress output JP) = .error .outOfRange := by
  unfold Acc.result
  show spongeDigest k B compress output JP a.st a.cache a.total = _
  rw [h.total, wrap64_of_lt hlt]
  have hm := Nat.mod_lt m.length (show 0 < B by omega)
  unfold spongeDigest
  cases k with
  | keccak =>
    replace htail : B - m.length % B ≤ 1 := htail
    simp only [SpongeKind.pad, SpongeKind.padLast, keccakPad, keccakPadLast]
    rw [if_neg (by omega)]
    have : JP.run (List.replicate B false) (B - 1) (flipOctets (List.replicate B false))
        (m.length % B) 0 = .error .outOfRange := by
      unfold Injector.run
      rw [if_neg]
      rw [length_flipOctets, List.length_replicate]; omega
    simp only [bind, Except.bind]
    rw [this]
    rfl
  | sha3 =>
    replace htail : B - m.length % B ≤ 3 := htail
    simp only [SpongeKind.pad, SpongeKind.padLast, sha3Pad, sha3PadLast]
    rw [if_neg (by omega)]
    simp only [bind, Except.bind]
    by_cases h1 : m.length % B + (3 - (B - m.length % B)) ≤ B
    · have hr : JP.run (bigOctetLittleBit.view 64 (2 ^ (3 - (B - m.length % B)) - 1))
          (3 - (B - m.length % B)) (flipOctets (List.replicate B false)) (m.length % B) 0 =
          .ok (JP.inject (bigOctetLittleBit.view 64 (2 ^ (3 - (B - m.length % B)) - 1))
          (3 - (B - m.length % B)) (flipOctets (List.replicate B false)) (m.length % B) 0) :=
        JP.run_ok (by rw [length_flipOctets, List.length_replicate]; exact h1)
          (by simp [Endian.view]; omega)
      have hl := JP.length_inject (bigOctetLittleBit.view 64 (2 ^ (3 - (B - m.length % B)) - 1))
          (3 - (B - m.length % B)) (flipOctets (List.replicate B false)) (m.length % B) 0
          (by rw [length_flipOctets, List.length_replicate]; exact h1)
          (by simp [Endian.view]; omega)
      rw [hr]
      simp only
      have hr2 : JP.run (List.replicate B false) (B - 1 - (3 - (B - m.length % B)))
          (JP.inject (bigOctetLittleBit.view 64 (2 ^ (3 - (B - m.length % B)) - 1))
          (3 - (B - m.length % B)) (flipOctets (List.replicate B false)) (m.length % B) 0)
          (m.length % B + (3 - (B - m.length % B))) 0 = .error .outOfRange := by
        unfold Injector.run
        rw [if_neg]
        rw [hl, length_flipOctets, List.length_replicate]; omega
      rw [hr2]
      rfl
    · have hr : JP.run (bigOctetLittleBit.view 64 (2 ^ (3 - (B - m.length % B)) - 1))
          (3 - (B - m.length % B)) (flipOctets (List.replicate B false)) (m.length % B) 0 =
          .error .outOfRange := by
        unfold Injector.run
        rw [if_neg]
        rw [length_flipOctets, List.length_replicate]; omega
      rw [hr]
      rfl

/-- Seven bits in a block of eight leave one free bit, too few for the two bits of the Keccak padding. -/
example (compress : Nat → Bits → Nat) (JP : Injector) :
    (Acc.mk false 7 [true, false, true, true, false, false, true, false] 5).result
      (spongeConstructionOf .keccak 8 5 compress (fun s => .ok s) JP) = .error .outOfRange :=
  C07_short_tail_faults .keccak (le_refl 8) 5 compress _ JP _ [true, false, true, true, false, false, true]
    ⟨rfl, rfl, Or.inl (by decide), 0, by simp, by simp [spongeConstructionOf], Or.inl rfl, by simp [spongeConstructionOf], rfl, rfl⟩
    (by decide) (by decide)

/-- What the code does with a message of a single bit. -/
theorem one_bit_digest (k : SpongeKind) (permute : Lanes → Lanes) {d : Nat} (S : SpongeSize d)
    (JP J : Injector) (garbage value : Bits) (hgb : garbage.length = spongeBlockBits d)
    (hv : value.length = spongeBlockBits d) :
    (do let a ← (Acc.init (spongeConstruction k permute d JP) garbage).pushBlock
          (spongeConstruction k permute d JP) J value 1
        a.result (spongeConstruction k permute d JP)) =
      spongeOutput permute d (spongeCompress permute (spongeBlockBits d) (Vector.replicate 25 0)
        (flipOctets ([value.getD 7 false] ++ k.suffix ++ [true] ++
          List.replicate (spongeBlockBits d - 1 - (1 + k.suffix.length + 1)) false ++ [true]))) := by
  obtain ⟨hB, h64, h16, h8, hB64⟩ := S.facts
  have e : (Acc.init (spongeConstruction k permute d JP) garbage).pushBlock
      (spongeConstruction k permute d JP) J value 1 =
      .ok { filled := false, total := 1, cache := value.take 64 ++ garbage.drop 64,
            st := Vector.replicate 25 0 } := by
    have hC : (spongeConstruction k permute d JP).blockBits = spongeBlockBits d := rfl
    have hW : (spongeConstruction k permute d JP).wordBits = 64 := rfl
    unfold Acc.pushBlock Acc.processBlockValue
    simp only [Acc.flush, Acc.init, hC, hW]
    simp only [Bool.false_eq_true, if_false, Nat.zero_mod, ne_eq, not_true_eq_false, one_ne_zero,
      Nat.zero_add]
    rw [if_neg (show ¬ 1 = spongeBlockBits d by omega),
      if_pos (show (1 / 64 + if ¬ 1 % 64 = 0 then 1 else 0) * 64 ≤ value.length ∧
        (1 / 64 + if ¬ 1 % 64 = 0 then 1 else 0) * 64 ≤ garbage.length by
          simp only [hv, hgb]; exact ⟨hB64, hB64⟩)]
    rfl
  rw [e]
  show spongeDigest k (spongeBlockBits d) (spongeCompress permute (spongeBlockBits d))
    (spongeOutput permute d) JP (Vector.replicate 25 0) (value.take 64 ++ garbage.drop 64) 1 = _
  unfold spongeDigest
  have hm : 1 % spongeBlockBits d = 1 := Nat.mod_eq_of_lt (by omega)
  have hcl : (value.take 64 ++ garbage.drop 64).length = spongeBlockBits d := by simp; omega
  simp only [hm]
  rw [if_neg (by omega), k.pad_eq JP _ 1 hcl (by omega)]
  simp only [bind, Except.bind, if_true, pure, Except.pure]
  have ht : (flipOctets (value.take 64 ++ garbage.drop 64)).take 1 = [value.getD 7 false] := by
    apply List.ext_getElem?
    intro i
    rcases i with _ | i
    · rw [List.getElem?_take_of_lt (by omega), getElem?_flipOctets _ (by omega)]
      rw [List.getElem?_append_left (by simp; omega), List.getElem?_take_of_lt (by omega)]
      simp [List.getD_eq_getElem?_getD]
      rw [List.getElem?_eq_getElem (by omega)]; rfl
    · rw [List.getElem?_eq_none (by simp), List.getElem?_eq_none (by simp)]
  rw [ht]

/-- C07 (refutation, 2): the two messages of one bit have the same digest, for every permutation: the
message bit is ignored. -/
theorem C07_one_bit_messages_collide (k : SpongeKind) (permute : Lanes → Lanes) {d : Nat}
    (S : SpongeSize d) (JP J : Injector) (garbage value : Bits)
    (hgb : garbage.length = spongeBlockBits d) (hv : value.length = spongeBlockBits d) :
    (do let a ← (Acc.init (spongeConstruction k permute d JP) garbage).pushBlock
          (spongeConstruction k permute d JP) J (value.set 0 true) 1
        a.result (spongeConstruction k permute d JP)) =
    (do let a ← (Acc.init (spongeConstruction k permute d JP) garbage).pushBlock
          (spongeConstruction k permute d JP) J (value.set 0 false) 1
        a.result (spongeConstruction k permute d JP)) := by
  rw [one_bit_digest k permute S JP J garbage _ hgb (by simpa using hv),
    one_bit_digest k permute S JP J garbage _ hgb (by simpa using hv)]
  simp [List.getD_eq_getElem?_getD, List.getElem?_set]

theorem output_lane (permute : Lanes → Lanes) {d : Nat} (S : SpongeSize d) (hd : 64 ≤ d) (s s' : Lanes)
    (h : spongeOutput permute d s = spongeOutput permute d s') : s[0] = s'[0] := by
  obtain ⟨hB, h64, h16, h8, hB64⟩ := S.facts
  have hlt := S.lt
  obtain ⟨T, e, hT⟩ := spongeFinalize_ok permute (spongeBlockBits d) d hB h64 (by omega) s
  obtain ⟨T', e', hT'⟩ := spongeFinalize_ok permute (spongeBlockBits d) d hB h64 (by omega) s'
  unfold spongeOutput at h
  rw [e, e'] at h
  have hd8 : d / 8 * 8 = d := by omega
  have hl : ∀ T : Lanes, (bigOctetBigBit.arrayView T).length = 1600 := fun T => by
    rw [arrayView_eq, length_flipOctets, length_fipsState]
  simp only [bind, Except.bind, pure, Except.pure, hl, hd8] at h
  rw [if_pos (by omega), if_pos (by omega)] at h
  have h1 : (bigOctetBigBit.arrayView T).take d = (bigOctetBigBit.arrayView T').take d := Except.ok.inj h
  rw [arrayView_eq, arrayView_eq, flipOctets_take _ (by rw [length_fipsState]; omega) _ h8,
    flipOctets_take _ (by rw [length_fipsState]; omega) _ h8] at h1
  have h2 := congrArg flipOctets h1
  rw [flipOctets_flipOctets _ (by rw [List.length_take, length_fipsState]; omega),
    flipOctets_flipOctets _ (by rw [List.length_take, length_fipsState]; omega)] at h2
  have h3 := hT 0 (by omega) (by omega)
  have h3' := hT' 0 (by omega) (by omega)
  simp only [Nat.zero_div, Nat.zero_mod, Nat.repeat] at h3 h3'
  rw [← h3, ← h3']
  have key : byteSwap64 T[0] = byteSwap64 T'[0] := by
    apply BitVec.eq_of_getLsbD_eq
    intro z hz
    have h4 := congrArg (fun l => l[z]?) h2
    rw [List.getElem?_take_of_lt (by omega), List.getElem?_take_of_lt (by omega)] at h4
    unfold fipsState at h4
    rw [getElem?_laneString _ _ (by omega), getElem?_laneString _ _ (by omega)] at h4
    have e1 : z / 64 = 0 := by omega
    have e2 : z % 64 = z := by omega
    simp only [Vector.getElem_map, e1, e2, Option.some.injEq] at h4
    exact h4
  have h5 := byteSwap_twice T
  have h5' := byteSwap_twice T'
  have h6 := congrArg (fun v : Lanes => v[0]) h5
  have h6' := congrArg (fun v : Lanes => v[0]) h5'
  simp only [Vector.getElem_map] at h6 h6'
  rw [← h6, ← h6', key]

/-- The first lane of the padded one-bit message. -/
def oneBitWord : SpongeKind → Bool → BitVec 64
  | .keccak, false => 2
  | .keccak, true => 3
  | .sha3, false => 12
  | .sha3, true => 13

/-- The lanes given to the permutation for a one-bit message. -/
def oneBitLanes (low : BitVec 64) : Lanes :=
  #v[low, 0, 0, 0, 0, 0, 0, 0, 0, 0, 0, 0, 0, 0, 0, 0, 0x8000000000000000, 0, 0, 0, 0, 0, 0, 0, 0]

/-- The compressed block of a one-bit message, as lanes. -/
theorem one_bit_lane (k : SpongeKind) (x : Bool) : byteSwap64 (spongeCompress keccakPermute 1088
      (Vector.replicate 25 0) (flipOctets ([x] ++ k.suffix ++ [true] ++
        List.replicate (1088 - 1 - (1 + k.suffix.length + 1)) false ++ [true])))[0] =
    (keccakPermute (oneBitLanes (oneBitWord k x)))[0] := by
  have hlen : ([x] ++ k.suffix ++ [true] ++
        List.replicate (1088 - 1 - (1 + k.suffix.length + 1)) false ++ [true]).length = 1088 := by
    simp only [List.length_append, List.length_replicate, List.length_cons, List.length_nil]
    cases k <;> decide
  have key : xorBits (List.replicate 1600 false) (([x] ++ k.suffix ++ [true] ++
        List.replicate (1088 - 1 - (1 + k.suffix.length + 1)) false ++ [true]) ++
        List.replicate (1600 - 1088) false) = laneString (oneBitLanes (oneBitWord k x)) := by
    cases k <;> cases x <;> decide +kernel
  generalize [x] ++ k.suffix ++ [true] ++
    List.replicate (1088 - 1 - (1 + k.suffix.length + 1)) false ++ [true] = P at *
  have h1 := fipsState_compress keccakPermute 1088 (by omega) (by omega) (Vector.replicate 25 0)
    (flipOctets P) (by rw [length_flipOctets, hlen])
  rw [flipOctets_flipOctets P (by rw [hlen]; omega), fipsState_zero] at h1
  rw [key] at h1
  unfold onStrings fipsState at h1
  rw [stringLanes_laneString] at h1
  have h2 := congrArg stringLanes h1
  rw [stringLanes_laneString, stringLanes_laneString] at h2
  rw [← h2, Vector.getElem_map]

/-- C07 (refutation, 3): the digest of a one-bit message depends on bits of the block that are not part
of the message (SHA3-256 and Keccak-256, the real permutation). -/
theorem C07_foreign_bit_matters (k : SpongeKind) (JP J : Injector) (garbage : Bits)
    (hgb : garbage.length = 1088) :
    (do let a ← (Acc.init (spongeConstruction k keccakPermute 256 JP) garbage).pushBlock
          (spongeConstruction k keccakPermute 256 JP) J (List.replicate 1088 false) 1
        a.result (spongeConstruction k keccakPermute 256 JP)) ≠
    (do let a ← (Acc.init (spongeConstruction k keccakPermute 256 JP) garbage).pushBlock
          (spongeConstruction k keccakPermute 256 JP) J ((List.replicate 1088 false).set 7 true) 1
        a.result (spongeConstruction k keccakPermute 256 JP)) := by
  rw [one_bit_digest k keccakPermute sizes.2.1 JP J garbage (List.replicate 1088 false) hgb
      List.length_replicate,
    one_bit_digest k keccakPermute sizes.2.1 JP J garbage ((List.replicate 1088 false).set 7 true) hgb
      (by rw [List.length_set]; exact List.length_replicate)]
  intro h
  have e7 : (List.replicate 1088 false).getD 7 false = false := by decide +kernel
  have e7' : ((List.replicate 1088 false).set 7 true).getD 7 false = true := by decide +kernel
  have h2 := output_lane keccakPermute sizes.2.1 (by omega) _ _ h
  have h3 := congrArg byteSwap64 h2
  rw [e7, e7', show spongeBlockBits 256 = 1088 from rfl, one_bit_lane, one_bit_lane] at h3
  revert h3
  cases k <;> decide +kernel

/-- C07 is false: there is no function of the message bits that the digest of bit messages computes, let
alone the one of FIPS 202 (Keccak-256 and SHA3-256, the real permutation, any injectors). -/
theorem C07_false (k : SpongeKind) (JP J : Injector) :
    ¬ ∃ H : Bits → Bits, ∀ garbage value : Bits, garbage.length = 1088 → value.length = 1088 →
      ∀ n, 0 < n → n ≤ 1088 →
      (do let a ← (Acc.init (spongeConstruction k keccakPermute 256 JP) garbage).pushBlock
            (spongeConstruction k keccakPermute 256 JP) J value n
          a.result (spongeConstruction k keccakPermute 256 JP)) = .ok (H (value.take n)) := by
  rintro ⟨H, h⟩
  apply C07_foreign_bit_matters k JP J (List.replicate 1088 false) List.length_replicate
  rw [h _ _ List.length_replicate List.length_replicate 1 (by omega) (by omega),
    h _ _ List.length_replicate (by rw [List.length_set]; exact List.length_replicate) 1 (by omega)
      (by omega)]
  exact congrArg (fun l => Except.ok (H l)) (by decide +kernel)

/-- C07, the part that holds: pushes of any bit counts, as long as the total is a whole number of
octets.  Missing: totals that are not a multiple of eight, for which the claim is false. -/
theorem C07_bit_padding_partial (k : SpongeKind) (permute : Lanes → Lanes) {d : Nat} (S : SpongeSize d)
    (JP J : Injector) (garbage : Bits) (hgb : garbage.length = spongeBlockBits d)
    (pushes : List (Bits × Nat))
    (hp : ∀ p ∈ pushes, p.1.length = spongeBlockBits d ∧ 0 < p.2 ∧ p.2 ≤ spongeBlockBits d)
    (h8 : 8 ∣ (pushes.flatMap fun p => p.1.take p.2).length)
    (hlt : (pushes.flatMap fun p => p.1.take p.2).length < 2 ^ 64) :
    ∃ a, runOps (spongeConstruction k permute d JP) J
        (Acc.init (spongeConstruction k permute d JP) garbage) []
        (pushes.map fun p => .block p.1 p.2) = .ok (a, []) ∧
      a.result (spongeConstruction k permute d JP) = .ok (flipOctets (sponge 1600 (1600 - 2 * d)
        (onStrings permute) (flipOctets (pushes.flatMap fun p => p.1.take p.2) ++ k.suffix) d)) := by
  have hs : streamOf (spongeBlockBits d) (pushes.map fun p => .block p.1 p.2) =
      pushes.flatMap fun p => p.1.take p.2 := by
    clear h8 hlt
    induction pushes with
    | nil => rfl
    | cons p ps ih =>
      rw [List.map_cons, streamOf_cons, ih fun q hq => hp q (by simp [hq]), List.flatMap_cons]
      have := hp p (by simp)
      simp only [Op.stream]
      rw [if_neg (by omega)]
  have hne : Op.extract ∉ (pushes.map fun p => Op.block p.1 p.2) := by simp
  have hw : ∀ op ∈ (pushes.map fun p => Op.block p.1 p.2), op.WellTyped (spongeBlockBits d) := by
    intro op hop
    obtain ⟨p, h1, rfl⟩ := List.mem_map.1 hop
    exact ⟨(hp p h1).1, (hp p h1).2.2⟩
  obtain ⟨a, e, r⟩ := C10_sponge k permute JP J S garbage hgb _ hw
    (goodExtracts_of_no_extract _ _ _ hne _) ⟨by rw [hs]; exact h8, by rw [hs]; exact hlt⟩
  rw [expected_of_no_extract _ _ _ hne] at e
  rw [hs] at r
  exact ⟨a, e, r⟩

/-- Pushes of 3 and 5 bits. -/
example : ∃ a, runOps (spongeConstruction .sha3 keccakPermute 256 spliceInjector) clearingInjector
      (Acc.init (spongeConstruction .sha3 keccakPermute 256 spliceInjector) (List.replicate 1088 true)) []
      [.block (List.replicate 1088 true) 3, .block (List.replicate 1088 false) 5] = .ok (a, []) ∧
    a.result (spongeConstruction .sha3 keccakPermute 256 spliceInjector) =
      .ok (flipOctets (sponge 1600 1088 (onStrings keccakPermute)
        ([false, false, false, false, false, true, true, true] ++ [false, true]) 256)) := by
  have h := C07_bit_padding_partial .sha3 keccakPermute sizes.2.1 spliceInjector clearingInjector
    (List.replicate 1088 true) List.length_replicate
    [(List.replicate 1088 true, 3), (List.replicate 1088 false, 5)]
    (by
      intro p hp
      simp only [List.mem_cons, List.not_mem_nil, or_false] at hp
      rcases hp with rfl | rfl
      · exact ⟨List.length_replicate, by show 0 < 3; omega, by show 3 ≤ 1088; omega⟩
      · exact ⟨List.length_replicate, by show 0 < 5; omega, by show 5 ≤ 1088; omega⟩)
    (by decide +kernel) (by decide +kernel)
  have e : flipOctets (([(List.replicate 1088 true, 3), (List.replicate 1088 false, 5)] :
      List (Bits × Nat)).flatMap fun p => p.1.take p.2) =
      [false, false, false, false, false, true, true, true] := by decide +kernel
  rw [e] at h
  exact h

example := C07_one_bit_messages_collide .keccak keccakPermute sizes.2.1 spliceInjector clearingInjector
  (List.replicate 1088 true) (List.replicate 1088 true) List.length_replicate List.length_replicate

example := C07_foreign_bit_matters .sha3 spliceInjector clearingInjector (List.replicate 1088 true)
  List.length_replicate

/-- Two rates: the padded string still determines the message. -/
example (N : Bits) (h : N ++ pad101 16 N.length = [true, false] ++ pad101 8 2) : N = [true, false] :=
  C18_pad101_injective 16 8 N [true, false] h

end Verif.Props
