import Verif.Model.GroupHash
import Verif.Model.Output
import Verif.Model.Util
/-
Model of `expand_message_xmd` (detail/h2f/h2f_functions.hpp:60-138) and of `h2f` (h2f.hpp:66-182), with the
accumulator specialisation that drives them (accumulators/hash.hpp:231-272). `raw_stream_processor`
(detail/raw_stream_processor.hpp:56-64) hands the range on unchanged, with its end as the parameter `iterator_last`
(accumulators/parameters/iterator_last.hpp).
-/
namespace Verif

variable {σ δ : Type}

/-- Template parameters of `expand_message_xmd` (detail/h2f/h2f_functions.hpp:55-76): the hash (construction,
octet view, octets of its digest), `b_in_bytes = digest_bits / 8`, `r_in_bytes = block_bits / 8` and
`len_in_bytes`. -/
structure XmdParams (σ δ : Type) where
  C : Construction σ δ
  J : Injector
  octets : Endian
  cache0 : List Nat
  digest : δ → List Nat
  b : Nat
  len : Nat

/-- `hash<Hash>(range, acc)` with a range of octets. -/
def XmdParams.feed (P : XmdParams σ δ) (a : Acc σ) (xs : List Nat) : Except Fault (Acc σ) :=
  a.feed P.C P.J (wordElem P.octets 8) .container P.cache0 xs

/-- `ell`, detail/h2f/h2f_functions.hpp:73-74. -/
def XmdParams.ell (P : XmdParams σ δ) : Nat := P.len / P.b + (if P.len % P.b ≠ 0 then 1 else 0)

/-- `l_i_b_str`, detail/h2f/h2f_functions.hpp:71-72. -/
def XmdParams.libStr (P : XmdParams σ δ) : List Nat := [P.len / 2 ^ 8 % 2 ^ 8, P.len % 0x100]

/-- Constructor of the accumulator and `init_accumulator`, lines 84-86: `Z_pad` is an array of `r_in_bytes`
zero octets (line 75). -/
def XmdParams.init (P : XmdParams σ δ) (garbage : Bits) : Except Fault (Acc σ) :=
  P.feed (Acc.init P.C garbage) (List.replicate (P.C.blockBits / 8) 0)

/-- The four `hash<Hash>(…, acc)` calls that append `data`, the octet `i`, `dst` and its length, followed by
the extraction (lines 122-127 and 133-136 for a new accumulator; the accumulator is returned for lines
113-117). -/
def XmdParams.finish (P : XmdParams σ δ) (a : Acc σ) (data : List Nat) (i : Nat) (dst : List Nat) :
    Except Fault (Acc σ × List Nat) := do
  let a ← P.feed a data
  let a ← P.feed a [i % 2 ^ 8]
  let a ← P.feed a dst
  let a ← P.feed a [dst.length % 2 ^ 8]
  let d ← a.result P.C
  return (a, P.digest d)

/-- `strxor(b0, bi, xored_b.begin())`, line 132, on three separate arrays. -/
def xorOctets (x y : List Nat) : Except Fault (List Nat) := do
  let (mem, _) ← strxor false (fun a => BitVec.ofNat 8 ((x ++ y).getD a 0)) 0 x.length x.length y.length
    (x.length + y.length)
  return (List.range (min x.length y.length)).map fun k => (mem (x.length + y.length + k)).toNat

/-- The loop, lines 130-138, with `n` iterations left; `i` is the loop variable, `bi` the last digest,
`out` the output array.  `garbage` gives the uninitialised cache of each new accumulator. -/
def XmdParams.loop (P : XmdParams σ δ) (garbage : Nat → Bits) (dst b0 : List Nat) :
    Nat → Nat → List Nat → List Nat → Except Fault (List Nat)
  | 0, _, _, out => .ok out
  | n + 1, i, bi, out => do
    let xored ← xorOctets b0 bi
    let (_, bi) ← P.finish (Acc.init P.C (garbage i)) xored i dst
    let out ← copyLoop id bi ((i - 1) * P.b) out
    loop P garbage dst b0 n (i + 1) bi out

/-- `process(b0_acc, dst)`, lines 104-140.  `b0_acc` is a reference: the changed accumulator is returned.
`out0` is the uninitialised array `uniform_bytes` of `len_in_bytes` octets. -/
def XmdParams.process (P : XmdParams σ δ) (garbage : Nat → Bits) (out0 : List Nat) (a : Acc σ)
    (dst : List Nat) : Except Fault (Acc σ × List Nat) := do
  if 16 ≤ dst.length ∧ dst.length ≤ 255 then
    let (a, b0) ← P.finish a P.libStr 0 dst
    let (_, bi) ← P.finish (Acc.init P.C (garbage 1)) b0 1 dst
    let out ← copyLoop id bi 0 out0
    let out ← P.loop garbage dst b0 (P.ell - 1) 2 bi out
    return (a, out)
  else .error .assertion

/-- Calls on the accumulator of `h2f`/`h2c`: `update` (h2f.hpp:117-125) and extraction
(accumulators/hash.hpp:256-258), whose result is post-processed by `post`. -/
def XmdParams.run {ρ : Type} (P : XmdParams σ δ) (garbage : Nat → Bits) (out0 : List Nat) (dst : List Nat)
    (post : List Nat → Except Fault ρ) : Acc σ → List ρ → List GroupHashOp → Except Fault (Acc σ × List ρ)
  | a, out, [] => .ok (a, out)
  | a, out, .update E k cache0 xs :: ops => do
    let a ← a.feed P.C P.J E k cache0 xs
    run P garbage out0 dst post a out ops
  | a, out, .extract :: ops => do
    let (a, bytes) ← P.process garbage out0 a dst
    let g ← post bytes
    run P garbage out0 dst post a (out ++ [g]) ops

/-! ### `h2f` -/

/-- Lines 137-145 and 165-173 of h2f.hpp: the `L` octets at `off` copied to `imported_octets`; reading past
the end of `uniform_bytes` is a fault. -/
def readSlice (bytes : List Nat) (off L : Nat) : Except Fault (List Nat) :=
  if off + L ≤ bytes.length then .ok ((bytes.drop off).take L) else .error .outOfRange

/-- `pack<big_endian>(imported_octets)` into a `cpp_int` (contract: the big-endian number), and
`modular_type(tmp, modulus)`, h2f.hpp:147-149. -/
def packModular (p : Nat) (octets : List Nat) : Nat := octets.foldl (fun n b => 256 * n + b) 0 % p

/-- `process`, h2f.hpp:128-153 (`m = 1`) and 156-181 (`m = 2`), after the expansion: field element `i` is
built from `coordinates[0..m)`. -/
def h2fProcess (count m L p : Nat) (bytes : List Nat) : Except Fault (List (List Nat)) :=
  (List.range count).mapM fun i => (List.range m).mapM fun j => do
    let s ← readSlice bytes (L * (j + i * m)) L
    return packModular p s

end Verif
