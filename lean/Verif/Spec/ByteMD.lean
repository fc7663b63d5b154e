/-
Merkle–Damgård hashing of byte strings, as the RIPEMD, MD4/MD5, SHA and Tiger documents describe it.
Written without reference to the model.
-/
namespace Verif.Spec.ByteMD

/-- `n` as `L` octets. -/
def encode (bigEndian : Bool) (L n : Nat) : List Nat :=
  (List.range L).map fun k => n / 256 ^ (if bigEndian then L - 1 - k else k) % 256

/-- The padded message: message, marker octet, as few zero octets as possible, length in bits. -/
def pad (B L mark : Nat) (bigEndian : Bool) (bytes : List Nat) : List Nat :=
  bytes ++ [mark] ++ List.replicate ((B - (bytes.length + 1 + L) % B) % B) 0 ++
    encode bigEndian L (8 * bytes.length)

/-- The blocks of `B` octets of a byte string. -/
def blocks (B : Nat) (bytes : List Nat) : List (List Nat) :=
  (List.range (bytes.length / B)).map fun i => (bytes.drop (i * B)).take B

/-- Word `i` of a block: `w` octets, least significant first. -/
def leWord (w : Nat) (block : List Nat) (i : Nat) : BitVec (8 * w) :=
  BitVec.ofNat (8 * w) ((List.range w).foldl (fun n k => n + block.getD (w * i + k) 0 * 256 ^ k) 0)

/-- The octets of a list of words, least significant octet of each word first. -/
def leOctets (w : Nat) (words : List (BitVec (8 * w))) : List Nat :=
  words.flatMap fun x => (List.range w).map fun k => x.toNat / 256 ^ k % 256

/-- The digest of a little-endian hash with words of `w` octets, 64-octet blocks and 64-bit lengths. -/
def leDigest {τ : Type} (w mark : Nat) (iv : τ) (compress : (Nat → BitVec (8 * w)) → τ → τ)
    (words : τ → List (BitVec (8 * w))) (bytes : List Nat) : List Nat :=
  leOctets w (words ((blocks 64 (pad 64 8 mark false bytes)).foldl
    (fun s block => compress (leWord w block) s) iv))

end Verif.Spec.ByteMD
