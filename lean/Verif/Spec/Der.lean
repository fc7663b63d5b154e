/- DER encoding of the `DigestInfo` of PKCS #1 (RFC 8017, section 9.2 and appendix B.1; X.690). -/
namespace Verif.Spec.Der

/-- Tag, definite length in short form, contents (X.690, 8.1.3.4); contents of up to 127 octets. -/
def tlv (tag : Nat) (contents : List Nat) : List Nat := tag :: contents.length :: contents

/-- A subidentifier: base 128, most significant group first, high bit on all groups but the last
(X.690, 8.19.2); up to five groups. -/
def subidentifier (n : Nat) : List Nat :=
  (((List.range 5).map fun k => n / 128 ^ (4 - k)).take 4).filterMap
    (fun q => if q = 0 then none else some (128 + q % 128)) ++ [n % 128]

/-- Object identifier (X.690, 8.19): the first two arcs are combined. -/
def oid : List Nat → List Nat
  | a :: b :: rest => tlv 0x06 (subidentifier (40 * a + b) ++ rest.flatMap subidentifier)
  | _ => []

/-- `DigestInfo ::= SEQUENCE { SEQUENCE { OID, NULL }, OCTET STRING }`. -/
def digestInfo (arcs : List Nat) (digest : List Nat) : List Nat :=
  tlv 0x30 (tlv 0x30 (oid arcs ++ tlv 0x05 []) ++ tlv 0x04 digest)

/-- A prefix is right for an algorithm with digests of `d` octets. -/
def IsPrefixFor (pre : List Nat) (arcs : List Nat) (d : Nat) : Prop :=
  ∀ digest : List Nat, digest.length = d → pre ++ digest = digestInfo arcs digest

end Verif.Spec.Der
