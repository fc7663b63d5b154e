import Verif.Model.Pack
/-
Model of hash/crc.hpp and hash/detail/crc/accumulator.hpp.  `boost::crc_optimal` is not in the
repository; its contract (DESIGN.md section 3) is the Rocksoft model, one bit at a time.
-/
namespace Verif.Crc

/-- Template parameters of `basic_crc`, crc.hpp:102-104; `N` is `DigestBits`. -/
structure Params (N : Nat) where
  poly : BitVec N
  init : BitVec N
  finalXor : BitVec N
  reflectIn : Bool
  reflectRem : Bool

variable {N : Nat}

/-- Contract of Boost.CRC: one bit into the register. -/
def Params.bit (P : Params N) (r : BitVec N) (b : Bool) : BitVec N :=
  if r.getMsbD 0 ^^ b then (r <<< 1) ^^^ P.poly else r <<< 1

/-- Contract of Boost.CRC, `process_byte`: the bits of the byte, most significant first, or least
significant first if `ReflectIn`. -/
def Params.byte (P : Params N) (r : BitVec N) (x : Nat) : BitVec N :=
  (List.range 8).foldl (fun r i => P.bit r (x.testBit (if P.reflectIn then i else 7 - i))) r

/-- Contract of Boost.CRC, `checksum`. -/
def Params.checksum (P : Params N) (r : BitVec N) : BitVec N :=
  (if P.reflectRem then r.reverse else r) ^^^ P.finalXor

/-- `basic_crc::digest`, crc.hpp:137-146: the checksum, packed into octets, first octet most significant
(docs/pack.md:317-346). -/
def Params.digest (P : Params N) (r : BitVec N) : List Nat :=
  explodeOne bigOctetBigBit bigOctetBigBit N 8 (P.checksum r).toNat

/-- `update_n(ValT const *p, n)`, crc.hpp:176-186, and the generic `update_n`, 166-172: `n` elements are
read from the memory `arr` starting at `p`, each converted to a byte; reading past the end of `arr` is
a fault. -/
def Params.updateN (P : Params N) (r : BitVec N) (arr : List Nat) (n : Nat) : Except Fault (BitVec N) :=
  if n ≤ arr.length then .ok (((arr.take n).map (· % 256)).foldl P.byte r) else .error .outOfRange

/-- `hash_impl::resolve_type(InputIterator p, bits)`, detail/crc/accumulator.hpp:131-136. -/
def Params.pushIterator (P : Params N) (r : BitVec N) (arr : List Nat) (bits : Nat) :
    Except Fault (BitVec N) :=
  P.updateN r arr (bits / 8)

/-- `hash_impl::resolve_type(const value_type &, bits)` and `process`, detail/crc/accumulator.hpp:
115-121, 138-140: the bit count is not used. -/
def Params.pushByte (P : Params N) (r : BitVec N) (x _bits : Nat) : BitVec N := P.byte r (x % 256)

/-- `hash_impl::resolve_type(const block_type &, bits)` and `process`, detail/crc/accumulator.hpp:
123-129, 142-144: all octets of the block, the bit count is not used. -/
def Params.pushBlock (P : Params N) (r : BitVec N) (block : List Nat) (_bits : Nat) : BitVec N :=
  (block.map (· % 256)).foldl P.byte r

/-- `crc_stream_processor::update_n`, crc.hpp:65-70: `size` is `sizeof` of the element type (the static
assertion at crc.hpp:250 makes it one); the product wraps at `2^64`. -/
def Params.streamUpdateN (P : Params N) (size : Nat) (r : BitVec N) (arr : List Nat) (n : Nat) :
    Except Fault (BitVec N) :=
  P.pushIterator r arr (n * size * 8 % 2 ^ 64)

/-- How a range reaches the stream processor, crc.hpp:73-96. -/
inductive Feed where
  /-- random access iterators or a container: `update_n` -/
  | all
  /-- any other iterators: one `update_one` per element -/
  | oneByOne

/-- `crc_stream_processor::operator()`, crc.hpp:73-96, on bytes. -/
def Params.feed (P : Params N) (r : BitVec N) (k : Feed) (xs : List Nat) : Except Fault (BitVec N) :=
  match k with
  | .all => P.streamUpdateN 1 r xs xs.length
  | .oneByOne => .ok (xs.foldl (fun r x => P.pushByte r x 0) r)

/-- Operations on a CRC accumulator. -/
inductive Op where
  | feed (k : Feed) (xs : List Nat)
  | byte (x bits : Nat)
  | block (xs : List Nat) (bits : Nat)
  | extract

/-- `result` (detail/crc/accumulator.hpp:109-112) is `const`. -/
def Op.run (P : Params N) (r : BitVec N) (out : List (List Nat)) :
    Op → Except Fault (BitVec N × List (List Nat))
  | .feed k xs => do return (← P.feed r k xs, out)
  | .byte x bits => .ok (P.pushByte r x bits, out)
  | .block xs bits => .ok (P.pushBlock r xs bits, out)
  | .extract => .ok (r, out ++ [P.digest r])

/-- A program over one accumulator. -/
def runOps (P : Params N) : BitVec N → List (List Nat) → List Op →
    Except Fault (BitVec N × List (List Nat))
  | r, out, [] => .ok (r, out)
  | r, out, op :: ops => do
    let (r, out) ← op.run P r out
    runOps P r out ops

/-- `crc32_png`, crc.hpp:259. -/
def crc32Png : Params 32 := ⟨0x04C11DB7, 0xFFFFFFFF, 0xFFFFFFFF, true, true⟩

/-- A bare `basic_crc` object: `operator()` (crc.hpp:194-216), `digest` (137-146), `end_message`
(148-152), `reset` (133-135). -/
inductive ObjOp where
  | bytes (xs : List Nat)
  | digest
  | endMessage
  | reset

def ObjOp.run (P : Params N) (r : BitVec N) (out : List (List Nat)) :
    ObjOp → BitVec N × List (List Nat)
  | .bytes xs => (xs.foldl P.byte r, out)
  | .digest => (r, out ++ [P.digest r])
  | .endMessage => (P.init, out ++ [P.digest r])
  | .reset => (P.init, out)

def runObj (P : Params N) (r : BitVec N) (out : List (List Nat)) (ops : List ObjOp) :
    BitVec N × List (List Nat) :=
  ops.foldl (fun s op => op.run P s.1 s.2) (r, out)

end Verif.Crc
