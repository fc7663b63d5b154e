import Verif.Props.Modes
import Verif.Props.Ripemd
import Verif.Props.Tiger
import Verif.Props.Sponge
import Verif.Props.Blake2b
/-
Tests of the model, not proofs: the modules under Verif/Validation run the model on the data of the
repository's own test suite (`#guard` evaluates at build time and proves nothing).  They show that the
definitions the theorems are about compute what the tests of the code expect.
-/
namespace Verif.Validation

open Spec Verif.Props

/-- Hexadecimal digits of a digest, `std::to_string(digest)`. -/
def toHex (b : Bits) : String := String.ofList ((List.range (b.length / 4)).map fun i =>
  Nat.digitChar (((b.drop (4 * i)).take 4).foldl (fun a x => 2 * a + x.toNat) 0))

/-- A construction together with the view of its words. -/
structure Subject where
  {σ : Type}
  C : Construction σ Bits
  endian : Endian

/-- The calls a test makes on an accumulator. -/
inductive Call where
  | block (words : List Nat) (bits : Nat)
  | word (w bits : Nat)
  | check (hex : String)

def Subject.view (S : Subject) (w : Nat) : Bits := S.endian.view S.C.wordBits w

/-- Run a test with one reading of the unspecified bits (`J`, `garbage`). -/
def Subject.runWith (S : Subject) (J : Injector) (garbage : Bool) (calls : List Call) : Bool :=
  let rec go (a : Acc S.σ) : List Call → Bool
    | [] => true
    | .block ws n :: l =>
      let ws := ws ++ List.replicate (S.C.blockBits / S.C.wordBits - ws.length) 0
      match a.pushBlock S.C J (ws.flatMap S.view) n with
      | .ok a => go a l
      | .error _ => false
    | .word w n :: l =>
      match a.pushWord S.C J (S.view w) n with
      | .ok a => go a l
      | .error _ => false
    | .check h :: l =>
      match a.result S.C with
      | .ok d => toHex d == h && go a l
      | .error _ => false
  go (Acc.init S.C (List.replicate S.C.blockBits garbage)) calls

def Subject.run (S : Subject) (calls : List Call) : Bool :=
  S.runWith spliceInjector true calls && S.runWith clearingInjector false calls

/-- One-shot digests of strings, `hash<H>(string)`. -/
def Subject.strings (S : Subject) (v : List (String × String)) : Bool := v.all fun (m, h) =>
  match hashOnce S.C clearingInjector (wordElem S.endian 8) .container (List.replicate S.C.blockBits true)
    (List.replicate (S.C.blockBits / 8) 9) (m.toUTF8.toList.map (·.toNat)) with
  | .ok d => toHex d == h
  | .error _ => false

def mdSubject (h : MDHash) {σ : Type} (I : MDInst h σ) : Subject :=
  ⟨I.C spliceInjector, h.policy.endian⟩

def ones (n : Nat) : Bits := List.replicate n true

def md4S := mdSubject .md4 (cipherHash .md4 rfl md4IV (cipherOf Sha.md4Run) (ones 128) List.length_replicate)
def md5S := mdSubject .md5 (cipherHash .md5 rfl md4IV (cipherOf Sha.md5Run) (ones 128) List.length_replicate)
def sha0S := mdSubject .sha0 (cipherHash .sha0 rfl sha1IV (cipherOf (Sha.sha1Run 0)) (ones 160) List.length_replicate)
def sha1S := mdSubject .sha1 (cipherHash .sha1 rfl sha1IV (cipherOf (Sha.sha1Run 1)) (ones 160) List.length_replicate)
def sha224S := mdSubject .sha224 (cipherHash .sha224 rfl sha224IV (cipherOf Sha.sha256fns.run) (ones 224) List.length_replicate)
def sha256S := mdSubject .sha256 (cipherHash .sha256 rfl sha256IV (cipherOf Sha.sha256fns.run) (ones 256) List.length_replicate)
def sha384S := mdSubject .sha384 (cipherHash .sha384 rfl sha384IV (cipherOf Sha.sha512fns.run) (ones 384) List.length_replicate)
def sha512S := mdSubject .sha512 (cipherHash .sha512 rfl sha512IV (cipherOf Sha.sha512fns.run) (ones 512) List.length_replicate)
def ripemd128S := mdSubject .ripemd128 (ripemd128 (ones 128) List.length_replicate)
def ripemd160S := mdSubject .ripemd160 (ripemd160 (ones 160) List.length_replicate)
def ripemd256S := mdSubject .ripemd256 (ripemd256 (ones 256) List.length_replicate)
def ripemd320S := mdSubject .ripemd320 (ripemd320 (ones 320) List.length_replicate)
def tigerS := mdSubject .tiger192 (tiger192 3 (ones 192) List.length_replicate)
def keccakS (d : Nat) : Subject :=
  ⟨spongeConstruction .keccak keccakPermute d spliceInjector, bigOctetBigBit⟩
def sha3S (d : Nat) : Subject :=
  ⟨spongeConstruction .sha3 keccakPermute d spliceInjector, bigOctetBigBit⟩
def blake2bS (d : Nat) : Subject :=
  ⟨blake2bConstruction d spliceInjector, littleOctetBigBit⟩

end Verif.Validation
