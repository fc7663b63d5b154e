import Batteries.Data.BitVec.Lemmas
import Verif.Model.Pack
/-
Arrays of words behind a stream view.
-/
namespace Verif

/-- Word number `i` of the array of `w`-bit words whose stream view (with endianness `e`) is `b`
(docs/pack.md:26-39: the position map of an octet-aligned endianness is its own inverse). -/
def Endian.word (e : Endian) (w : Nat) (b : Bits) (i : Nat) : BitVec w :=
  BitVec.ofFnLE fun p : Fin w => b.getD (w * i + e.pos w p.1) false

/-- Stream view of an array of words. -/
def Endian.arrayView {n w : Nat} (e : Endian) (s : Vector (BitVec w) n) : Bits :=
  s.toList.flatMap fun x => e.view w x.toNat

/-- `boost::endian::endian_reverse_inplace` of a 64-bit word (keccak.hpp:66-67, 75-76). -/
def byteSwap64 (x : BitVec 64) : BitVec 64 :=
  BitVec.ofFnLE fun p : Fin 64 => x.getLsbD (8 * (7 - p.1 / 8) + p.1 % 8)

/-- Reverse the bits of every octet of a stream: the same memory seen as `…_big_bit` and as
`…_little_bit` (docs/pack.md:26-39). -/
def flipOctets (b : Bits) : Bits :=
  (List.range b.length).map fun i => b.getD (8 * (i / 8) + (7 - i % 8)) false

end Verif
