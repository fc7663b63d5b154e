import Batteries.Data.List.Basic
import Verif.Proof.Generic
/-
C01, C02, C03, C10, C11, C12, C15, C16 for the Merkle–Damgård hashes.

Throughout: `h` any of the thirteen hashes, `I : MDInst h σ` an arbitrary instantiation (initial
value, compression function, content of a default-constructed digest), `J` any injector obeying the
contract, `garbage` the uninitialised block cache.
-/
namespace Verif.Props

open Spec

variable {σ : Type} {h : MDHash}

/-! Concrete data used in the non-vacuity examples. -/

/-- A toy compression function that depends on every input bit. -/
def toyCompress (s : Nat) (b : Bits) : Nat := b.foldl (fun n x => (2 * n + x.toNat) % (2 ^ 192 - 237)) s

/-- A toy instantiation. -/
def toy (h : MDHash) : MDInst h Nat where
  iv := 5
  compress := toyCompress
  view := bigEndian h.policy.stateBits
  length_view := by simp [bigEndian]
  digest0 := List.replicate h.policy.digestBits true
  length_digest0 := by simp

/-- Bytes fed to a hash with 512-bit blocks. -/
def feedBytes (e : Endian) (bs : List Nat) : Op :=
  .feed (wordElem e 8) .randomAccess (List.replicate 64 0) bs

theorem feedBytes_wellTyped (e : Endian) (bs : List Nat) : (feedBytes e bs).WellTyped 512 :=
  ⟨by simp [wordElem], by simp [wordElem], by simp [wordElem]⟩

/-- Byte-aligned messages below 2^64 bits are good for every hash. -/
theorem goodMsg_of_bytes (h : MDHash) {m : Bits} (h8 : 8 ∣ m.length) (hlt : m.length < 2 ^ 64) :
    GoodMsg h m := by
  refine ⟨Nat.dvd_trans (policy_sizes h).2.2.2.2.2 h8, ?_, Or.inr hlt⟩
  rw [Nat.mod_eq_of_lt hlt]; omega

/-! ### C01 -/

/-- C01: after any sequence of updates (any cuts, any element types, empty pieces, mixed range kinds),
extraction gives the digest that a single `hash<H>(whole)` call gives for a range with the same bit
stream; both succeed. -/
theorem C01_incremental_eq_oneshot (I : MDInst h σ) (J : Injector)
    (garbage garbage' : Bits) (hgb : garbage.length = h.policy.blockBits)
    (hgb' : garbage'.length = h.policy.blockBits)
    (pieces : List Op) (hwt : ∀ op ∈ pieces, op.WellTyped h.policy.blockBits)
    (hne : Op.extract ∉ pieces)
    {α : Type} (E : Elem α) (k : RangeKind) (cache0 whole : List α)
    (hE : (Op.feed E k cache0 whole).WellTyped h.policy.blockBits)
    (hsame : whole.flatMap E.view = streamOf h.policy.blockBits pieces)
    (hg : GoodMsg h (whole.flatMap E.view)) :
    ∃ d, (do let (a, _) ← runOps (I.C J) J (Acc.init (I.C J) garbage) [] pieces
             a.result (I.C J)) = .ok d ∧
      hashOnce (I.C J) J E k garbage' cache0 whole = .ok d := by
  refine ⟨_, ?_, I.hashOnce J E k garbage' hgb' cache0 whole hE hg⟩
  obtain ⟨a, e, r⟩ := I.runOps J pieces hwt (I.init J garbage hgb)
    (goodExtracts_of_no_extract _ _ pieces hne _) []
  rw [e]
  rw [List.nil_append, ← hsame] at r
  exact I.computes J a _ r hg

/-- Hypotheses are satisfiable: 70 bytes cut inside the first block, with an empty piece. -/
example : ∃ d, (do
      let (a, _) ← runOps ((toy .sha256).C spliceInjector) spliceInjector
        (Acc.init ((toy .sha256).C spliceInjector) (List.replicate 512 true)) []
        [feedBytes bigOctetBigBit (List.range 3), feedBytes bigOctetBigBit [],
          feedBytes bigOctetBigBit ((List.range 70).drop 3)]
      a.result ((toy .sha256).C spliceInjector)) = .ok d ∧
    hashOnce ((toy .sha256).C spliceInjector)
      spliceInjector (wordElem bigOctetBigBit 8) .singlePass (List.replicate 512 false)
      (List.replicate 64 9) (List.range 70) = .ok d :=
  C01_incremental_eq_oneshot (toy .sha256) spliceInjector _ _ List.length_replicate
    List.length_replicate _
    (by
      intro op hop
      simp only [List.mem_cons, List.not_mem_nil, or_false] at hop
      rcases hop with rfl | rfl | rfl <;> exact feedBytes_wellTyped _ _)
    (by simp [feedBytes]) _ _ _ _
    ⟨by simp [wordElem], by simp [wordElem, MDHash.policy], by simp [wordElem, MDHash.policy]⟩
    (by decide +kernel)
    (goodMsg_of_bytes _ (by rw [length_flatMap_view]; exact ⟨70, by simp [wordElem]⟩)
      (by rw [length_flatMap_view]; simp [wordElem]))

/-! ### C02, C03 -/

/-- C02: `hash<H>(range)` is the textbook digest of the bit stream of the range. -/
theorem C02_digest_is_textbook (I : MDInst h σ) (J : Injector)
    (garbage : Bits) (hgb : garbage.length = h.policy.blockBits)
    {α : Type} (E : Elem α) (k : RangeKind) (cache0 xs : List α)
    (hE : (Op.feed E k cache0 xs).WellTyped h.policy.blockBits)
    (hg : GoodMsg h (xs.flatMap E.view)) :
    hashOnce (I.C J) J E k garbage cache0 xs =
      .ok (mdDigest h I.iv I.compress I.view (xs.flatMap E.view)) :=
  I.hashOnce J E k garbage hgb cache0 xs hE hg

example : hashOnce ((toy .md5).C spliceInjector) spliceInjector (wordElem littleOctetBigBit 8) .singlePass
      (List.replicate 512 true) (List.replicate 64 0) [97, 98, 99] =
    .ok (mdDigest .md5 (toy .md5).iv (toy .md5).compress (toy .md5).view (octetBits [97, 98, 99])) :=
  C02_digest_is_textbook (toy .md5) spliceInjector _ List.length_replicate (wordElem littleOctetBigBit 8)
    .singlePass (List.replicate 64 0) [97, 98, 99]
    ⟨by simp [wordElem], by simp [wordElem, MDHash.policy], by simp [wordElem, MDHash.policy]⟩
    (goodMsg_of_bytes _ (by decide) (by decide))

/-- A byte is its eight bits, most significant first, for both octet orders. -/
theorem view_octet (h : MDHash) (bytes : List Nat) :
    bytes.flatMap (wordElem h.policy.endian 8).view = octetBits bytes := by
  have hview : (wordElem h.policy.endian 8).view = bigEndian 8 := by
    have : h.policy.endian = bigOctetBigBit ∨ h.policy.endian = littleOctetBigBit := by
      cases h <;> decide
    funext x
    unfold wordElem Endian.view bigEndian
    apply List.map_congr_left
    intro i hi
    have hi : i < 8 := List.mem_range.1 hi
    have h0 : i / 8 = 0 := by omega
    have h1 : i % 8 = i := by omega
    rcases this with e | e <;> rw [e] <;> simp [Endian.pos, bigOctetBigBit, littleOctetBigBit, h0, h1]
  rw [hview]; rfl

theorem length_octetBits (bytes : List Nat) : (octetBits bytes).length = bytes.length * 8 := by
  rw [← view_octet .sha1, length_flatMap_view]; rfl

/-- C02, byte strings: for every byte string shorter than 2^61 bytes the digest is the textbook
digest. -/
theorem C02_byte_strings (I : MDInst h σ) (J : Injector)
    (garbage : Bits) (hgb : garbage.length = h.policy.blockBits) (k : RangeKind)
    (cache0 bytes : List Nat) (hc : cache0.length = h.policy.blockBits / 8)
    (hlen : bytes.length < 2 ^ 61) :
    hashOnce (I.C J) J (wordElem h.policy.endian 8) k garbage cache0 bytes =
      .ok (mdDigest h I.iv I.compress I.view (octetBits bytes)) := by
  rw [C02_digest_is_textbook I J garbage hgb _ k cache0 bytes
    ⟨by simp [wordElem], (policy_sizes h).2.2.2.2.1, hc⟩ ?_, view_octet h]
  rw [view_octet h]
  exact goodMsg_of_bytes h (by rw [length_octetBits]; exact ⟨bytes.length, by omega⟩)
    (by rw [length_octetBits]; omega)

example : hashOnce ((toy .sha384).C clearingInjector) clearingInjector (wordElem bigOctetBigBit 8)
      .container (List.replicate 1024 true) (List.replicate 128 0) (List.range 256) =
    .ok (mdDigest .sha384 (toy .sha384).iv (toy .sha384).compress (toy .sha384).view
      (octetBits (List.range 256))) :=
  C02_byte_strings (toy .sha384) _ _ List.length_replicate _ _ _ List.length_replicate (by simp)

/-- C02: the padded message is the message followed by the marker, zeros and the length, its length
is a multiple of the block size, and no shorter multiple has room for marker and length. -/
theorem C02_padding_minimal (h : MDHash) (m : Bits) :
    ∃ z, paddedMessage h m = m ++ (standard h).marker ++ List.replicate z false ++
        (standard h).encode m.length ∧
      (standard h).block ∣ (paddedMessage h m).length ∧
      ∀ n, (standard h).block ∣ n → m.length + (standard h).marker.length + (standard h).length ≤ n →
        (paddedMessage h m).length ≤ n := by
  have hB : 0 < (standard h).block := by cases h <;> decide
  have henc : ((standard h).encode m.length).length = (standard h).length := by
    unfold Standard.encode; split <;> simp [bigEndian, littleEndianOctets]
  have hl : (paddedMessage h m).length =
      (m.length + (standard h).marker.length + (standard h).length) +
        fillTo (standard h).block
          (m.length + (standard h).marker.length + (standard h).length) := by
    unfold paddedMessage mdPad
    simp only [List.length_append, List.length_replicate, henc]
    omega
  refine ⟨_, rfl, ?_, ?_⟩
  · rw [hl]; exact fillTo_spec hB _
  · intro n hn hle
    rw [hl]
    have h1 := fillTo_spec hB (m.length + (standard h).marker.length + (standard h).length)
    have h2 := fillTo_lt hB (m.length + (standard h).marker.length + (standard h).length)
    generalize m.length + (standard h).marker.length + (standard h).length = t at *
    obtain ⟨u, hu⟩ := h1
    obtain ⟨v, rfl⟩ := hn
    rw [hu]
    apply Nat.mul_le_mul_left
    have : (standard h).block * u < (standard h).block * (v + 1) := by rw [Nat.mul_add]; omega
    exact Nat.le_of_lt_succ (Nat.lt_of_mul_lt_mul_left this)

/-- 55 octets fit into one block of SHA-256, 56 do not. -/
example : (paddedMessage .sha256 (octetBits (List.range 55))).length ≤ 512 := by
  obtain ⟨_, _, _, h⟩ := C02_padding_minimal .sha256 (octetBits (List.range 55))
  exact h 512 (by decide) (by rw [length_octetBits]; decide)

/-- C03: Tiger.  For every byte string (below 2^61 bytes) the digest is the state after folding the
compression over: message, octet 0x01, zeros, 64-bit little-endian bit length, in 512-bit blocks. -/
theorem C03_tiger_padding (I : MDInst .tiger192 σ) (J : Injector)
    (garbage : Bits) (hgb : garbage.length = 512) (k : RangeKind)
    (cache0 bytes : List Nat) (hc : cache0.length = 64) (hlen : bytes.length < 2 ^ 61) :
    hashOnce (I.C J) J (wordElem littleOctetBigBit 8) k garbage cache0 bytes =
      .ok (I.view ((blocks 512 (octetBits bytes ++
          [false, false, false, false, false, false, false, true] ++
          List.replicate (fillTo 512 ((octetBits bytes).length + 8 + 64)) false ++
          littleEndianOctets 64 (octetBits bytes).length)).foldl I.compress I.iv)) := by
  have key := C02_byte_strings I J garbage hgb k cache0 bytes hc hlen
  refine key.trans ?_
  congr 1
  unfold mdDigest
  rw [List.take_of_length_le (by rw [I.length_view]; decide)]
  rfl

example : hashOnce ((toy .tiger192).C clearingInjector) clearingInjector (wordElem littleOctetBigBit 8)
      .container (List.replicate 512 true) (List.replicate 64 0) (List.range 63) =
    .ok (bigEndian 192 ((blocks 512 (octetBits (List.range 63) ++
          [false, false, false, false, false, false, false, true] ++
          List.replicate (fillTo 512 ((octetBits (List.range 63)).length + 8 + 64)) false ++
          littleEndianOctets 64 (octetBits (List.range 63)).length)).foldl toyCompress 5)) :=
  C03_tiger_padding (toy .tiger192) _ _ List.length_replicate _ _ _ List.length_replicate (by simp)

/-! ### C10, C11, C12, C15, C16 -/

/-- C10: in any program of updates and extractions every extraction yields the textbook digest of what
was fed before it (extractions themselves add nothing), and the final accumulator yields the digest of
everything fed. -/
theorem C10_extraction_does_not_disturb (I : MDInst h σ) (J : Injector)
    (garbage : Bits) (hgb : garbage.length = h.policy.blockBits)
    (ops : List Op) (hwt : ∀ op ∈ ops, op.WellTyped h.policy.blockBits)
    (hg : GoodExtracts h.policy.blockBits (GoodMsg h) [] ops)
    (hgf : GoodMsg h (streamOf h.policy.blockBits ops)) :
    ∃ a, runOps (I.C J) J (Acc.init (I.C J) garbage) [] ops =
        .ok (a, expected h.policy.blockBits I.spec [] ops) ∧
      a.result (I.C J) = .ok (I.spec (streamOf h.policy.blockBits ops)) := by
  obtain ⟨a, e, r⟩ := I.runOps J ops hwt (I.init J garbage hgb) hg []
  exact ⟨a, e, I.computes J a _ r (by simpa using hgf)⟩

/-- A program that extracts in the middle, and twice in a row; the specification says what it
outputs. -/
example : ∃ a, runOps ((toy .sha256).C spliceInjector) spliceInjector
      (Acc.init ((toy .sha256).C spliceInjector) (List.replicate 512 true)) []
      [feedBytes bigOctetBigBit [1, 2], .extract, .extract, feedBytes bigOctetBigBit [3], .extract] =
    .ok (a, [(toy .sha256).spec (octetBits [1, 2]), (toy .sha256).spec (octetBits [1, 2]),
      (toy .sha256).spec (octetBits [1, 2, 3])]) := by
  obtain ⟨a, e, _⟩ := C10_extraction_does_not_disturb (toy .sha256) spliceInjector
    (List.replicate 512 true) List.length_replicate
    [feedBytes bigOctetBigBit [1, 2], .extract, .extract, feedBytes bigOctetBigBit [3], .extract]
    (by
      intro op hop
      simp only [List.mem_cons, List.not_mem_nil, or_false] at hop
      rcases hop with rfl | rfl | rfl | rfl | rfl <;>
        first | trivial | exact feedBytes_wellTyped _ _)
    ⟨goodMsg_of_bytes _ (by decide) (by decide), goodMsg_of_bytes _ (by decide) (by decide),
      goodMsg_of_bytes _ (by decide) (by decide), trivial⟩
    (goodMsg_of_bytes _ (by decide) (by decide))
  exact ⟨a, e⟩

/-- C11: for every accumulator set (not only hashes, not only reachable states), the way a range is
handed over does not matter: same resulting accumulators, same fault if any. -/
theorem C11_range_kind_irrelevant {A α : Type} (push : Push A) (B : Nat) (E : Elem α)
    (k k' : RangeKind) (cache0 xs : List α) (a : A) :
    feedSet push B E k cache0 a xs = feedSet push B E k' cache0 a xs := by
  unfold feedSet
  rw [run_eq_updateWhile, run_eq_updateWhile]


/-- Everything but the content of the default-constructed digest is the same. -/
def MDInst.withDigest0 (I : MDInst h σ) (d0 : Bits) (hd0 : d0.length = h.policy.digestBits) :
    MDInst h σ := { I with digest0 := d0, length_digest0 := hd0 }

/-- C12: the uninitialised block cache, the initial content of the element buffers and of the digest
object do not influence any digest: programs that differ only in them give the same digests. -/
theorem C12_garbage_never_reaches_digest (I : MDInst h σ) (d0 : Bits)
    (hd0 : d0.length = h.policy.digestBits) (J : Injector)
    (garbage garbage' : Bits) (hgb : garbage.length = h.policy.blockBits)
    (hgb' : garbage'.length = h.policy.blockBits)
    (ops ops' : List Op) (hwt : ∀ op ∈ ops, op.WellTyped h.policy.blockBits)
    (hwt' : ∀ op ∈ ops', op.WellTyped h.policy.blockBits)
    (hsame : List.Forall₂ SameData ops ops')
    (hg : GoodExtracts h.policy.blockBits (GoodMsg h) [] ops) :
    ∃ a a' out, runOps (I.C J) J (Acc.init (I.C J) garbage) [] ops = .ok (a, out) ∧
      runOps ((MDInst.withDigest0 I d0 hd0).C J) J
        (Acc.init ((MDInst.withDigest0 I d0 hd0).C J) garbage') [] ops' = .ok (a', out) := by
  have key : ∀ (m : Bits), (expected h.policy.blockBits I.spec m ops =
      expected h.policy.blockBits I.spec m ops') ∧
      (GoodExtracts h.policy.blockBits (GoodMsg h) m ops →
        GoodExtracts h.policy.blockBits (GoodMsg h) m ops') := by
    clear hg hwt hwt'
    induction hsame with
    | nil => intro m; exact ⟨rfl, id⟩
    | cons hd _ ih =>
      intro m
      cases hd with
      | feed E k c c' xs => exact ih _
      | same =>
        rename_i op _ _ _
        cases op with
        | extract => exact ⟨congrArg (I.spec m :: ·) (ih m).1, fun hh => ⟨hh.1, (ih m).2 hh.2⟩⟩
        | feed => exact ih _
        | block => exact ih _
  obtain ⟨a, e, _⟩ := I.runOps J ops hwt (I.init J garbage hgb) hg []
  obtain ⟨a', e', _⟩ := (MDInst.withDigest0 I d0 hd0).runOps J ops' hwt'
    ((MDInst.withDigest0 I d0 hd0).init J garbage' hgb') ((key []).2 hg) []
  rw [show (MDInst.withDigest0 I d0 hd0).spec = I.spec from rfl, ← (key []).1] at e'
  exact ⟨a, a', _, e, e'⟩

example : ∃ a a' out, runOps ((toy .sha256).C spliceInjector) spliceInjector
      (Acc.init ((toy .sha256).C spliceInjector) (List.replicate 512 true)) []
      [feedBytes bigOctetBigBit [1, 2], .extract] = .ok (a, out) ∧
    runOps ((MDInst.withDigest0 (toy .sha256) (List.replicate 256 false)
        List.length_replicate).C spliceInjector) spliceInjector
      (Acc.init ((MDInst.withDigest0 (toy .sha256) (List.replicate 256 false)
        List.length_replicate).C spliceInjector) (List.replicate 512 false)) []
      [.feed (wordElem bigOctetBigBit 8) .randomAccess (List.replicate 64 77) [1, 2], .extract] =
        .ok (a', out) :=
  C12_garbage_never_reaches_digest (toy .sha256) _ List.length_replicate spliceInjector _ _
    List.length_replicate List.length_replicate _ _
    (by
      intro op hop
      simp only [List.mem_cons, List.not_mem_nil, or_false] at hop
      rcases hop with rfl | rfl <;> first | trivial | exact feedBytes_wellTyped _ _)
    (by
      intro op hop
      simp only [List.mem_cons, List.not_mem_nil, or_false] at hop
      rcases hop with rfl | rfl
      · exact ⟨by simp [wordElem], by simp [wordElem, MDHash.policy],
          by simp [wordElem, MDHash.policy]⟩
      · trivial)
    (.cons (.feed _ _ _ _ _) (.cons (.same _) .nil))
    ⟨goodMsg_of_bytes _ (by decide) (by decide), trivial⟩

/-- C15: an empty update leaves the accumulator unchanged, whatever the hash, element type or range
kind. -/
theorem C15_empty_update_is_noop {δ α : Type} (C : Construction σ δ) (J : Injector) (E : Elem α)
    (k : RangeKind) (cache0 : List α) (a : Acc σ) : a.feed C J E k cache0 [] = .ok a := by
  cases k <;> rfl

/-- C15: after any history, extractions included, `acc(block, bits = n)` appends the first `n` bits of
the block, `n = 0` the whole block. -/
theorem C15_bits_argument (I : MDInst h σ) (J : Injector)
    (garbage : Bits) (hgb : garbage.length = h.policy.blockBits)
    (ops : List Op) (hwt : ∀ op ∈ ops, op.WellTyped h.policy.blockBits)
    (hgx : GoodExtracts h.policy.blockBits (GoodMsg h) [] ops)
    (value : Bits) (hval : value.length = h.policy.blockBits) (bits : Nat)
    (hbits : bits ≤ h.policy.blockBits)
    (hg : GoodMsg h (streamOf h.policy.blockBits ops ++
      (if bits = 0 then value else value.take bits))) :
    (do let (a, _) ← runOps (I.C J) J (Acc.init (I.C J) garbage) [] ops
        let a ← a.pushBlock (I.C J) J value bits
        a.result (I.C J)) =
      .ok (I.spec (streamOf h.policy.blockBits ops ++
        (if bits = 0 then value else value.take bits))) := by
  obtain ⟨h1, h2, h3, _⟩ := policy_sizes h
  obtain ⟨a, e, r⟩ := I.runOps J ops hwt (I.init J garbage hgb) hgx []
  have hstep : ∃ a1, a.pushBlock (I.C J) J value bits = .ok a1 ∧
      Rep (I.C J) a1 (streamOf h.policy.blockBits ops ++
        (if bits = 0 then value else value.take bits)) := by
    by_cases h0 : bits = 0
    · subst h0
      exact r.pushBlock_zero (J := J) h1 h2 h3 hval (I.fits J _)
    · rw [if_neg h0]
      exact r.pushBlock (J := J) h2 h3 (by omega) hbits hval (I.fits J _)
  obtain ⟨a1, e1, r1⟩ := hstep
  rw [e]
  show (a.pushBlock (I.C J) J value bits >>= fun a => a.result (I.C J)) = _
  rw [e1]
  exact I.computes J a1 _ r1 hg

example : (do
      let (a, _) ← runOps ((toy .md5).C spliceInjector) spliceInjector
        (Acc.init ((toy .md5).C spliceInjector) (List.replicate 512 true)) [] [.extract]
      let a ← a.pushBlock ((toy .md5).C spliceInjector) spliceInjector (List.replicate 512 true) 5
      a.result ((toy .md5).C spliceInjector)) =
    .ok ((toy .md5).spec [true, true, true, true, true]) :=
  C15_bits_argument (toy .md5) spliceInjector (List.replicate 512 true) List.length_replicate [.extract]
    (by simp [Op.WellTyped]) ⟨⟨by decide, by decide, by decide⟩, trivial⟩ (List.replicate 512 true) List.length_replicate 5
    (by decide) ⟨by decide, by decide, by decide⟩

/-- C16: fork.  From one accumulator obtained by a program `pre`, extractions included, continuing with `left` and with
`right` gives for each branch the digests of `pre` followed by that branch. -/
theorem C16_fork (I : MDInst h σ) (J : Injector)
    (garbage : Bits) (hgb : garbage.length = h.policy.blockBits)
    (pre left right : List Op) (hp : ∀ op ∈ pre, op.WellTyped h.policy.blockBits)
    (hl : ∀ op ∈ left, op.WellTyped h.policy.blockBits)
    (hr : ∀ op ∈ right, op.WellTyped h.policy.blockBits)
    (hgp : GoodExtracts h.policy.blockBits (GoodMsg h) [] pre)
    (hgl : GoodExtracts h.policy.blockBits (GoodMsg h) (streamOf h.policy.blockBits pre) left)
    (hgr : GoodExtracts h.policy.blockBits (GoodMsg h) (streamOf h.policy.blockBits pre) right) :
    ∃ a al ar, runOps (I.C J) J (Acc.init (I.C J) garbage) [] pre = .ok (a,
        expected h.policy.blockBits I.spec [] pre) ∧
      runOps (I.C J) J a [] left = .ok (al,
        expected h.policy.blockBits I.spec (streamOf h.policy.blockBits pre) left) ∧
      runOps (I.C J) J a [] right = .ok (ar,
        expected h.policy.blockBits I.spec (streamOf h.policy.blockBits pre) right) := by
  obtain ⟨a, e, r⟩ := I.runOps J pre hp (I.init J garbage hgb) hgp []
  obtain ⟨al, el, _⟩ := I.runOps J left hl r hgl []
  obtain ⟨ar, er, _⟩ := I.runOps J right hr r hgr []
  exact ⟨a, al, ar, e, el, er⟩

example : ∃ a al ar, runOps ((toy .sha256).C spliceInjector) spliceInjector
      (Acc.init ((toy .sha256).C spliceInjector) (List.replicate 512 true)) []
        [feedBytes bigOctetBigBit [1], .extract] = .ok (a, [(toy .sha256).spec (octetBits [1])]) ∧
    runOps ((toy .sha256).C spliceInjector) spliceInjector a []
        [feedBytes bigOctetBigBit [2], .extract] =
      .ok (al, [(toy .sha256).spec (octetBits [1, 2])]) ∧
    runOps ((toy .sha256).C spliceInjector) spliceInjector a []
        [feedBytes bigOctetBigBit [3], .extract] =
      .ok (ar, [(toy .sha256).spec (octetBits [1, 3])]) := by
  have wt : ∀ (n : Nat) (op : Op), op ∈ [feedBytes bigOctetBigBit [n], Op.extract] →
      op.WellTyped 512 := by
    intro n op hop
    simp only [List.mem_cons, List.not_mem_nil, or_false] at hop
    rcases hop with rfl | rfl <;> first | trivial | exact feedBytes_wellTyped _ _
  exact C16_fork (toy .sha256) spliceInjector _ List.length_replicate
    [feedBytes bigOctetBigBit [1], .extract] [feedBytes bigOctetBigBit [2], .extract]
    [feedBytes bigOctetBigBit [3], .extract] (wt 1) (wt 2) (wt 3)
    ⟨goodMsg_of_bytes _ (by decide) (by decide), trivial⟩ ⟨goodMsg_of_bytes _ (by decide) (by decide), trivial⟩
    ⟨goodMsg_of_bytes _ (by decide) (by decide), trivial⟩

end Verif.Props
