import Verif.Model.Output
import Verif.Proof.PackStream
import Verif.Props.Sponge
import Verif.Props.Blake2b
import Verif.Props.Crc
/- C29 (reading a digest out) and C30 (the `hashed` adaptor). -/
namespace Verif.Props

open Spec

variable {T : Type}

/-! ### C29 -/

theorem copyLoop_eq (conv : Nat → T) : ∀ (xs : List Nat) (i : Nat) (out : List T),
    (i + xs.length ≤ out.length →
      copyLoop conv xs i out = .ok (out.take i ++ xs.map conv ++ out.drop (i + xs.length))) ∧
    (¬ i + xs.length ≤ out.length → i ≤ out.length → copyLoop conv xs i out = .error .outOfRange) := by
  intro xs
  induction xs with
  | nil =>
    intro i out
    constructor
    · intro _; simp [copyLoop]
    · intro h h'; simp at h; omega
  | cons x xs ih =>
    intro i out
    constructor
    · intro h
      simp only [List.length_cons] at h
      rw [copyLoop, if_pos (by omega), (ih (i + 1) _).1 (by simp; omega)]
      congr 1
      apply List.ext_getElem?
      intro k
      simp only [List.map_cons, List.length_cons, List.getElem?_append, List.length_append,
        List.length_take, List.length_set, List.getElem?_take, List.getElem?_drop, List.getElem?_set,
        List.length_map, Nat.min_eq_left (show i + 1 ≤ out.length by omega),
        Nat.min_eq_left (show i ≤ out.length by omega)]
      rcases Nat.lt_trichotomy k i with hk | hk | hk
      · rw [if_pos (by omega), if_pos (by omega), if_pos (by omega), if_neg (by omega), if_pos (by omega),
          if_pos (by omega), if_pos hk]
      · subst hk
        simp only [Nat.sub_self, List.getElem?_cons_zero, Nat.lt_irrefl, if_false]
        rw [if_pos (by omega), if_pos (by omega), if_pos (by omega), if_pos trivial, if_pos (by omega),
          if_pos (by omega)]
      · rw [if_neg (by omega : ¬ k < i + 1), if_neg (by omega : ¬ k < i)]
        obtain ⟨j, rfl⟩ : ∃ j, k = i + 1 + j := ⟨k - (i + 1), by omega⟩
        rw [show i + 1 + j - i = j + 1 by omega, show i + 1 + j - (i + 1) = j by omega,
          List.getElem?_cons_succ]
        by_cases hj : j < xs.length
        · rw [if_pos (by omega), if_pos (by omega)]
        · rw [if_neg (by omega), if_neg (by omega), if_neg (by omega)]
          congr 1; omega
    · intro h h'
      simp only [List.length_cons] at h
      rw [copyLoop]
      split
      · exact (ih (i + 1) _).2 (by simp; omega) (by simp; omega)
      · rfl

/-- C29: a conversion to an array of exactly the digest length yields the digest bytes. -/
theorem C29_array_exact (conv : Nat → T) (digest : List Nat) (garbage : List T)
    (h : garbage.length = digest.length) : toArray conv digest garbage = .ok (digest.map conv) := by
  unfold toArray
  rw [(copyLoop_eq conv digest 0 garbage).1 (by omega)]
  simp [List.drop_of_length_le (Nat.le_of_eq h)]

/-- C29, every destination size: with room the digest comes first and the rest of the array is what the
uninitialised array held; without room the copy writes past the end. -/
theorem C29_array_partial (conv : Nat → T) (digest : List Nat) (garbage : List T) :
    (digest.length ≤ garbage.length →
      toArray conv digest garbage = .ok (digest.map conv ++ garbage.drop digest.length)) ∧
    (garbage.length < digest.length → toArray conv digest garbage = .error .outOfRange) := by
  unfold toArray
  constructor
  · intro h
    rw [(copyLoop_eq conv digest 0 garbage).1 (by omega)]
    simp
  · intro h
    exact (copyLoop_eq conv digest 0 garbage).2 (by omega) (by omega)

/-- C29 is false for destination arrays shorter than the digest: bytes are written past the end. -/
theorem C29_short_array_false (conv : Nat → T) (digest : List Nat) (garbage : List T)
    (h : garbage.length < digest.length) : toArray conv digest garbage = .error .outOfRange :=
  (C29_array_partial conv digest garbage).2 h

/-- … and for longer arrays the result depends on indeterminate memory. -/
theorem C29_long_array_false (digest : List Nat) (n : Nat) (h : digest.length < n) :
    ∃ g g' : List Nat, g.length = n ∧ g'.length = n ∧ toArray id digest g ≠ toArray id digest g' := by
  refine ⟨List.replicate n 0, List.replicate n 1, by simp, by simp, ?_⟩
  rw [(C29_array_partial id digest _).1 (by simp; omega), (C29_array_partial id digest _).1 (by simp; omega)]
  intro e
  have e := List.append_cancel_left (Except.ok.inj e)
  rw [List.drop_replicate, List.drop_replicate] at e
  obtain ⟨k, hk⟩ : ∃ k, n - digest.length = k + 1 := ⟨n - digest.length - 1, by omega⟩
  rw [hk, List.replicate_succ, List.replicate_succ] at e
  exact absurd (List.cons.inj e).1 (by decide)

example : toArray id [1, 2, 3, 4] [9, 9, 9, 9] = .ok [1, 2, 3, 4] ∧
    toArray id [1, 2, 3, 4] [9, 9, 9, 9, 9, 9] = .ok [1, 2, 3, 4, 9, 9] ∧
    toArray id [1, 2, 3, 4] [9, 9] = .error .outOfRange := by decide

/-- C29: a container built from the result holds exactly the digest bytes in order. -/
theorem C29_range (conv : Nat → T) (digest : List Nat) :
    (toRange conv digest).length = digest.length ∧
    ∀ i (h : i < digest.length), (toRange conv digest)[i]? = some (conv digest[i]) := by
  constructor
  · simp [toRange]
  · intro i h
    simp [toRange, h]

example : toRange (fun x => x) [1, 2, 3] = [1, 2, 3] := rfl

theorem moveLoop_pointer (conv : Nat → T) : ∀ (xs : List Nat) (i : Nat) (mem : List T),
    moveLoop (pointerIter conv) xs i mem = (copyLoop conv xs i mem).map fun m => (i + xs.length, m) := by
  intro xs
  induction xs with
  | nil => intro i mem; rfl
  | cons x xs ih =>
    intro i mem
    simp only [moveLoop, pointerIter, copyLoop]
    by_cases h : i < mem.length
    · rw [if_pos h, if_pos h]
      simp only [bind, Except.bind]
      rw [show (⟨fun i x mem => if i < mem.length then .ok (i + 1, mem.set i (conv x)) else
        .error .outOfRange⟩ : OutIter Nat (List T)) = pointerIter conv from rfl, ih, List.length_cons,
        show i + 1 + xs.length = i + (xs.length + 1) by omega]
    · rw [if_neg h, if_neg h]; rfl

/-- C29: writing through a pointer into a buffer with room emits exactly the digest bytes in order, leaves
all other cells alone and returns the iterator advanced by the digest length. -/
theorem C29_pointer (conv : Nat → T) (digest : List Nat) (p : Nat) (mem : List T)
    (h : p + digest.length ≤ mem.length) :
    toIterator (pointerIter conv) digest p mem = .ok (p + digest.length, p,
      mem.take p ++ digest.map conv ++ mem.drop (p + digest.length)) := by
  unfold toIterator
  rw [moveLoop_pointer, (copyLoop_eq conv digest p mem).1 h]
  rfl

/-- C29: without room the write runs past the end of the buffer. -/
theorem C29_pointer_short (conv : Nat → T) (digest : List Nat) (p : Nat) (mem : List T)
    (h : mem.length < p + digest.length) (hp : p ≤ mem.length) :
    toIterator (pointerIter conv) digest p mem = .error .outOfRange := by
  unfold toIterator
  rw [moveLoop_pointer, (copyLoop_eq conv digest p mem).2 (by omega) hp]
  rfl

example : toIterator (pointerIter id) [1, 2, 3] 1 [9, 9, 9, 9, 9] = .ok (4, 1, [9, 1, 2, 3, 9]) :=
  C29_pointer id [1, 2, 3] 1 [9, 9, 9, 9, 9] (by decide)

/-- C29: a back inserter appends exactly the digest. -/
theorem C29_back_inserter (conv : Nat → T) (digest : List Nat) (mem : List T) :
    toIterator (backInserter conv) digest () mem = .ok ((), (), mem ++ digest.map conv) := by
  have key : ∀ (xs : List Nat) (mem : List T),
      moveLoop (backInserter conv) xs () mem = .ok ((), mem ++ xs.map conv) := by
    intro xs
    induction xs with
    | nil => intro mem; simp [moveLoop]
    | cons x xs ih =>
      intro mem
      have : moveLoop (backInserter conv) (x :: xs) () mem =
        moveLoop (backInserter conv) xs () (mem ++ [conv x]) := rfl
      rw [this, ih]
      simp
  unfold toIterator
  rw [key]; rfl

/-- C29: the object keeps its iterator, so a second conversion writes the same cells again: for a pointer
nothing changes, and the returned iterator is advanced by one digest only. -/
theorem C29_convert_twice (conv : Nat → T) (digest : List Nat) (p n : Nat) (mem : List T)
    (h : p + digest.length ≤ mem.length) :
    convertTimes (pointerIter conv) digest (n + 1) p p mem = .ok (p + digest.length, p,
      mem.take p ++ digest.map conv ++ mem.drop (p + digest.length)) := by
  have step : ∀ (ret : Nat) (mem : List T), p + digest.length ≤ mem.length → ∀ n,
      convertTimes (pointerIter conv) digest (n + 1) ret p mem = .ok (p + digest.length, p,
      mem.take p ++ digest.map conv ++ mem.drop (p + digest.length)) := by
    intro ret mem h n
    induction n generalizing ret mem with
    | zero =>
      simp only [convertTimes]
      rw [C29_pointer conv digest p mem h]; rfl
    | succ n ih =>
      rw [convertTimes, C29_pointer conv digest p mem h]
      simp only [bind, Except.bind]
      rw [ih _ _ (by simp; omega)]
      have hp : (List.take p mem).length = p := by simp; omega
      have e1 : List.take p (List.take p mem ++ digest.map conv ++ mem.drop (p + digest.length)) =
          List.take p mem := by
        rw [List.append_assoc, List.take_append_of_le_length (by omega), List.take_of_length_le (by omega)]
      have e2 : List.drop (p + digest.length) (List.take p mem ++ digest.map conv ++
          mem.drop (p + digest.length)) = mem.drop (p + digest.length) := by
        rw [List.drop_append_of_le_length (by simp; omega), List.drop_of_length_le (by simp),
          List.nil_append]
      rw [e1, e2]
  exact step p mem h n

/-- … while a back inserter appends one digest per conversion: after `n` conversions there are `n` copies. -/
theorem C29_back_inserter_times (conv : Nat → T) (digest : List Nat) (n : Nat) (mem : List T) :
    convertTimes (backInserter conv) digest n () () mem =
      .ok ((), (), mem ++ (List.replicate n (digest.map conv)).flatten) := by
  induction n generalizing mem with
  | zero => simp [convertTimes]
  | succ n ih =>
    rw [convertTimes, C29_back_inserter]
    have := ih (mem ++ digest.map conv)
    rw [List.append_assoc, ← List.flatten_cons, ← List.replicate_succ] at this
    exact this

example : convertTimes (backInserter (id : Nat → Nat)) [1, 2] 2 () () [] = .ok ((), (), [1, 2, 1, 2]) :=
  C29_back_inserter_times id [1, 2] 2 []

/-- C29: the conversion to an integer of exactly the digest width reads the digest bytes with the least
significant first. -/
theorem C29_integral (digest : List Nat) (hb : ∀ x ∈ digest, x < 256) (i : Nat)
    (hi : i < 8 * digest.length) :
    (toIntegral digest).testBit i = (digest[i / 8]'(by omega)).testBit (i % 8) ∧
      toIntegral digest < 2 ^ (8 * digest.length) := by
  constructor
  · unfold toIntegral
    have := implodeOne_testBit littleOctetBigBit littleOctetBigBit (ib := 8) (ob := 8 * digest.length)
      (by omega) ⟨_, rfl⟩ digest (fun x hx => hb x hx) (i / 8) (i % 8) (by omega) (by omega)
    rw [show packShift littleOctetBigBit 8 (8 * digest.length) (i / 8) + i % 8 = i by
      simp only [packShift, littleOctetBigBit, if_true]; omega, convertUnit_self] at this
    rw [this, List.getD_eq_getElem?_getD, List.getElem?_eq_getElem (by omega), Option.getD_some]
  · exact implodeOne_lt _ _ digest ⟨_, rfl⟩ fun x hx => hb x hx

/-- The `std::uint32_t` conversion of `hash<crc32_png>("123456789")` is `0x2639f4cb`, the checksum with its
bytes reversed (the digest holds the checksum most significant byte first). -/
example : toIntegral (Crc.crc32Png.digest ([49, 50, 51, 52, 53, 54, 55, 56, 57].foldl Crc.crc32Png.byte
    Crc.crc32Png.init)) = 0x2639f4cb := by decide +kernel

/-! ### C30 -/

variable {σ δ : Type}

theorem adaptor_uses {C : Construction σ δ} {Good : Bits → Prop} {H : Bits → δ} {J : Injector}
    (hone : ∀ u : AdaptorUse, u.garbage.length = C.blockBits →
      (Op.feed u.E u.k u.cache0 u.xs).WellTyped C.blockBits → Good (u.xs.flatMap u.E.view) →
      hashOnce C J u.E u.k u.garbage u.cache0 u.xs = .ok (H (u.xs.flatMap u.E.view)))
    (f : Acc σ) (uses : List AdaptorUse)
    (h : ∀ u ∈ uses, u.garbage.length = C.blockBits ∧
      (Op.feed u.E u.k u.cache0 u.xs).WellTyped C.blockBits ∧ Good (u.xs.flatMap u.E.view)) :
    adaptorUses C J f uses = .ok (f, uses.map fun u => H (u.xs.flatMap u.E.view)) := by
  induction uses with
  | nil => rfl
  | cons u us ih =>
    obtain ⟨h1, h2, h3⟩ := h u List.mem_cons_self
    rw [adaptorUses, adaptorUse, hone u h1 h2 h3]
    simp only [bind, Except.bind, pure, Except.pure]
    rw [ih fun v hv => h v (List.mem_cons_of_mem _ hv)]
    rfl

/-- C30, Merkle–Damgård hashes: for any sequence of uses of the shared object `hashed<H>` (in whatever state
it is), every use yields the textbook digest of its own range alone, and the object is unchanged. -/
theorem C30_merkle_damgard {h : MDHash} (I : MDInst h σ) (J : Injector) (f : Acc σ) (uses : List AdaptorUse)
    (hu : ∀ u ∈ uses, u.garbage.length = h.policy.blockBits ∧
      (Op.feed u.E u.k u.cache0 u.xs).WellTyped h.policy.blockBits ∧ GoodMsg h (u.xs.flatMap u.E.view)) :
    adaptorUses (I.C J) J f uses =
      .ok (f, uses.map fun u => mdDigest h I.iv I.compress I.view (u.xs.flatMap u.E.view)) :=
  adaptor_uses (C := I.C J) (Good := GoodMsg h) (H := I.spec)
    (fun u h1 h2 h3 => I.hashOnce J u.E u.k u.garbage h1 u.cache0 u.xs h2 h3) f uses hu

/-- C30, Keccak and SHA-3. -/
theorem C30_sponge (k : SpongeKind) (permute : Lanes → Lanes) {d : Nat} (S : SpongeSize d) (JP J : Injector)
    (f : Acc Lanes) (uses : List AdaptorUse)
    (hu : ∀ u ∈ uses, u.garbage.length = spongeBlockBits d ∧
      (Op.feed u.E u.k u.cache0 u.xs).WellTyped (spongeBlockBits d) ∧
      SpongeGood (u.xs.flatMap u.E.view)) :
    adaptorUses (spongeConstruction k permute d JP) J f uses =
      .ok (f, uses.map fun u => spongeSpec k permute d (u.xs.flatMap u.E.view)) :=
  adaptor_uses (Good := SpongeGood) (H := spongeSpec k permute d)
    (fun u h1 h2 h3 => (sponge_verified k permute JP S).hashOnce J u.E u.k u.garbage h1 u.cache0 u.xs h2
      (Or.inl h3.2) h3) f uses hu

/-- C30, BLAKE2b. -/
theorem C30_blake2b (nn : Nat) (hnn : nn ≤ 64) (JP J : Injector) (f : Acc BlakeState)
    (uses : List AdaptorUse)
    (hu : ∀ u ∈ uses, u.garbage.length = 1024 ∧
      (Op.feed u.E u.k u.cache0 u.xs).WellTyped 1024 ∧ HaifaGood (u.xs.flatMap u.E.view)) :
    adaptorUses (blake2bConstruction (8 * nn) JP) J f uses =
      .ok (f, uses.map fun u => blakeOf nn (u.xs.flatMap u.E.view)) :=
  adaptor_uses (Good := HaifaGood) (H := blakeOf nn)
    (fun u h1 h2 h3 => (blake_verified nn hnn JP).hashOnce J u.E u.k u.garbage h1 u.cache0 u.xs h2
      (Or.inl h3) h3) f uses hu

/-- Two uses with different ranges and categories; the shared object has already seen other data. -/
example (f : Acc Nat) : adaptorUses ((toy .sha256).C spliceInjector) spliceInjector f
    [⟨wordElem bigOctetBigBit 8, .container, List.replicate 64 0, List.replicate 512 true, List.range 3⟩,
     ⟨wordElem bigOctetBigBit 8, .singlePass, List.replicate 64 7, List.replicate 512 false, [1, 2]⟩] =
    .ok (f, [mdDigest .sha256 (toy .sha256).iv (toy .sha256).compress (toy .sha256).view
        ((List.range 3).flatMap (wordElem bigOctetBigBit 8).view),
      mdDigest .sha256 (toy .sha256).iv (toy .sha256).compress (toy .sha256).view
        ([1, 2].flatMap (wordElem bigOctetBigBit 8).view)]) := by
  refine C30_merkle_damgard (toy .sha256) spliceInjector f _ ?_
  intro u hu
  simp only [List.mem_cons, List.not_mem_nil, or_false] at hu
  rcases hu with rfl | rfl
  · exact ⟨List.length_replicate, ⟨by simp [wordElem], by simp [wordElem, MDHash.policy],
      by simp [wordElem, MDHash.policy]⟩, goodMsg_of_bytes _ (by decide) (by decide)⟩
  · exact ⟨List.length_replicate, ⟨by simp [wordElem], by simp [wordElem, MDHash.policy],
      by simp [wordElem, MDHash.policy]⟩, goodMsg_of_bytes _ (by decide) (by decide)⟩

example : toArray (fun x => x + 1) [1, 2, 3] [9, 9, 9] = .ok [2, 3, 4] := C29_array_exact _ _ _ rfl

example : toArray (fun x => x + 1) [1, 2, 3] [9, 9] = .error .outOfRange := C29_short_array_false _ _ _ (by decide)

example : convertTimes (pointerIter id) [1, 2, 3] 3 1 1 [9, 9, 9, 9, 9] = .ok (4, 1, [9, 1, 2, 3, 9]) :=
  C29_convert_twice id [1, 2, 3] 1 2 [9, 9, 9, 9, 9] (by decide)

example (f : Acc Lanes) : adaptorUses (spongeConstruction .sha3 keccakPermute 256 spliceInjector) clearingInjector f
    [⟨wordElem bigOctetBigBit 8, .container, List.replicate 136 0, List.replicate 1088 true, List.range 3⟩,
     ⟨wordElem bigOctetBigBit 8, .singlePass, List.replicate 136 7, List.replicate 1088 false, [1, 2]⟩] =
    .ok (f, [spongeSpec .sha3 keccakPermute 256 ((List.range 3).flatMap (wordElem bigOctetBigBit 8).view),
      spongeSpec .sha3 keccakPermute 256 ([1, 2].flatMap (wordElem bigOctetBigBit 8).view)]) := by
  refine C30_sponge .sha3 keccakPermute sizes.2.1 spliceInjector clearingInjector f _ ?_
  intro u hu
  simp only [List.mem_cons, List.not_mem_nil, or_false] at hu
  rcases hu with rfl | rfl
  · exact ⟨List.length_replicate, ⟨by decide, by decide, List.length_replicate⟩, by unfold SpongeGood; decide⟩
  · exact ⟨List.length_replicate, ⟨by decide, by decide, List.length_replicate⟩, by unfold SpongeGood; decide⟩

end Verif.Props
