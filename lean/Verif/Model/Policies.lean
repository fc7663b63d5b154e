import Verif.Model.MerkleDamgard
/-
Policies of the Merkle–Damgård hashes of the repository, and integral input elements.
-/
namespace Verif

/-- The Merkle–Damgård hashes of the repository.  `tiger<192, Passes>` is the only Tiger digest
size that can be instantiated: for 128 and 160 the generic `tiger_policy` has `state_words = 2` but a
three-word initial value (basic_tiger_policy.hpp:46-48, tiger_policy.hpp:62-68). -/
inductive MDHash where
  | sha0 | sha1 | sha224 | sha256 | sha384 | sha512 | md4 | md5
  | ripemd128 | ripemd160 | ripemd256 | ripemd320 | tiger192
  deriving DecidableEq, Repr

/-- The compile-time parameters that reach `merkle_damgard_construction`. -/
structure Policy where
  blockBits : Nat
  wordBits : Nat
  stateBits : Nat
  lengthBits : Nat
  digestBits : Nat
  endian : Endian
  markOctet : Nat
  markBits : Nat
  deriving DecidableEq, Repr

/-- Policies: sha/sha_policy.hpp:40-55, sha1/sha1_policy.hpp:40-55, sha2/sha2_policy.hpp:48-143,
md4/md4_policy.hpp:40-55, md5/md5_policy.hpp:41-56, ripemd/ripemd_policy.hpp:41-49, 116-178,
tiger/basic_tiger_policy.hpp:39-47, tiger/tiger_policy.hpp:71-93, tiger.hpp:108-117.
Word, block and state sizes of the SHA and MD families are those of the block ciphers
(shacal1: 32/512/160, shacal2<256>: 32/512/256, shacal2<512>: 64/1024/512, md4 and md5: 32/512/128).
The classes pass them on unchanged: sha.hpp:45-82, sha1.hpp:44-82, sha2.hpp:63-110, md4.hpp:43-82, md5.hpp:47-87. -/
def MDHash.policy : MDHash → Policy
  | .sha0 => ⟨512, 32, 160, 2 * 32, 160, bigOctetBigBit, 0x80, 1⟩
  | .sha1 => ⟨512, 32, 160, 2 * 32, 160, bigOctetBigBit, 0x80, 1⟩
  | .sha224 => ⟨512, 32, 256, 2 * 32, 224, bigOctetBigBit, 0x80, 1⟩
  | .sha256 => ⟨512, 32, 256, 2 * 32, 256, bigOctetBigBit, 0x80, 1⟩
  | .sha384 => ⟨1024, 64, 512, 2 * 64, 384, bigOctetBigBit, 0x80, 1⟩
  | .sha512 => ⟨1024, 64, 512, 2 * 64, 512, bigOctetBigBit, 0x80, 1⟩
  | .md4 => ⟨512, 32, 128, 2 * 32, 128, littleOctetBigBit, 0x80, 1⟩
  | .md5 => ⟨512, 32, 128, 2 * 32, 128, littleOctetBigBit, 0x80, 1⟩
  | .ripemd128 => ⟨512, 32, 4 * 32, 2 * 32, 128, littleOctetBigBit, 0x80, 1⟩
  | .ripemd160 => ⟨512, 32, 5 * 32, 2 * 32, 160, littleOctetBigBit, 0x80, 1⟩
  | .ripemd256 => ⟨512, 32, 8 * 32, 2 * 32, 256, littleOctetBigBit, 0x80, 1⟩
  | .ripemd320 => ⟨512, 32, 10 * 32, 2 * 32, 320, littleOctetBigBit, 0x80, 1⟩
  | .tiger192 => ⟨512, 64, 192, 64, 192, littleOctetBigBit, 0x01, 8⟩

/-- `merkle_damgard_construction` instantiated with a policy, an IV, a compressor, and the default
finalizer `nop_finalizer` (merkle_damgard_construction.hpp:53-54, nop_finalizer.hpp). -/
def Policy.md {σ : Type} (P : Policy) (iv : σ) (compress : σ → Bits → σ) (stateView : σ → Bits)
    (digest0 : Bits) : MD σ where
  blockBits := P.blockBits
  wordBits := P.wordBits
  lengthBits := P.lengthBits
  digestBits := P.digestBits
  endian := P.endian
  markOctet := P.markOctet
  markBits := P.markBits
  iv := iv
  compress := compress
  finalize := id
  stateView := stateView
  digest0 := digest0

/-- Input elements that are unsigned integers of `w` bits (`ValueBits` of the stream processor,
hash_value.hpp:113-117: `value_bits` of the element type); their stream view is the one `pack_to` uses
(block_stream_processor.hpp:81). -/
def wordElem (e : Endian) (w : Nat) : Elem Nat where
  valueBits := w
  view := e.view w
  length_view x := by simp [Endian.view]

end Verif
