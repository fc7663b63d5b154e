import Verif.Model.Policies
import Verif.Model.Words
/-
Compression functions from block ciphers (detail/davies_meyer_compressor.hpp,
detail/matyas_meyer_oseas_compressor.hpp, detail/miyaguchi_preneel_compressor.hpp), the combiner
`state_adder` (detail/state_adder.hpp), and the hashes that use them.  The block ciphers are in another
repository; `encrypt key` is a parameter.
-/
namespace Verif

/-- `state_adder::operator()`, detail/state_adder.hpp:34-42: `s1[i] += s2[i]` for `i` below the smaller
size. -/
def stateAdder {w n k : Nat} (s1 : Vector (BitVec w) n) (s2 : Vector (BitVec w) k) :
    Vector (BitVec w) n :=
  let m := if k < n then k else n
  (List.range m).foldl (fun s i => s.setIfInBounds i (s[i]?.getD 0 + s2[i]?.getD 0)) s1

variable {K S : Type}

/-- `davies_meyer_compressor::process_block`, detail/davies_meyer_compressor.hpp:58-63.  `f` is
`CombineFunction`; it changes its first argument. -/
def daviesMeyer (encrypt : K → S → S) (f : S → S → S) (state : S) (block : K) : S :=
  let newState := encrypt block state
  let state := f state newState
  state

/-- `matyas_meyer_oseas_compressor::process_block`, detail/matyas_meyer_oseas_compressor.hpp:58-69.
`conv` is `KeyConverterFunctor`, called with a zero key. -/
def matyasMeyerOseas (encrypt : K → S → S) (f : S → S → S) (zeroKey : K) (conv : K → S → K) (state : S)
    (block : S) : S :=
  let key := conv zeroKey state
  let newState := encrypt key block
  let newState := f newState block
  let state := newState
  state

/-- `miyaguchi_preneel_compressor::process_block`, detail/miyaguchi_preneel_compressor.hpp:58-69. -/
def miyaguchiPreneel (encrypt : K → S → S) (f : S → S → S) (zeroKey : K) (conv : K → S → K) (state : S)
    (block : S) : S :=
  let key := conv zeroKey state
  let newState := encrypt key block
  let state := f state newState
  let state := f state block
  state

/-- `davies_meyer_compressor<Cipher, state_adder>::process_block` on a block of 16 words (the `key_type`
of every cipher used: shacal0, shacal1, shacal2, md4, md5) given by its stream view. -/
def daviesMeyerAdd {w n : Nat} (e : Endian)
    (encrypt : Vector (BitVec w) 16 → Vector (BitVec w) n → Vector (BitVec w) n)
    (state : Vector (BitVec w) n) (b : Bits) : Vector (BitVec w) n :=
  daviesMeyer encrypt stateAdder state (Vector.ofFn fun i : Fin 16 => e.word w b i.1)

/-- `iv_generator` of sha_policy.hpp:64-70 and sha1_policy.hpp:64-71. -/
def sha1IV : Vector (BitVec 32) 5 := #v[0x67452301, 0xefcdab89, 0x98badcfe, 0x10325476, 0xc3d2e1f0]

/-- `iv_generator` of md4_policy.hpp:58-63 and md5_policy.hpp:67-73. -/
def md4IV : Vector (BitVec 32) 4 := #v[0x67452301, 0xefcdab89, 0x98badcfe, 0x10325476]

/-- `iv_generator`s of sha2_policy.hpp:81-87, 106-112, 129-137, 155-163. -/
def sha224IV : Vector (BitVec 32) 8 := #v[0xc1059ed8, 0x367cd507, 0x3070dd17, 0xf70e5939, 0xffc00b31,
  0x68581511, 0x64f98fa7, 0xbefa4fa4]
def sha256IV : Vector (BitVec 32) 8 := #v[0x6a09e667, 0xbb67ae85, 0x3c6ef372, 0xa54ff53a, 0x510e527f,
  0x9b05688c, 0x1f83d9ab, 0x5be0cd19]
def sha384IV : Vector (BitVec 64) 8 := #v[0xcbbb9d5dc1059ed8, 0x629a292a367cd507,
  0x9159015a3070dd17, 0x152fecd8f70e5939, 0x67332667ffc00b31, 0x8eb44a8768581511,
  0xdb0c2e0d64f98fa7, 0x47b5481dbefa4fa4]
def sha512IV : Vector (BitVec 64) 8 := #v[0x6a09e667f3bcc908, 0xbb67ae8584caa73b,
  0x3c6ef372fe94f82b, 0xa54ff53a5f1d36f1, 0x510e527fade682d1, 0x9b05688c2b3e6c1f,
  0x1f83d9abfb41bd6b, 0x5be0cd19137e2179]

end Verif
