import Verif.Proof.Sha
import Verif.Props.MerkleDamgard
/-
C27 (block-cipher compression modes), and with it C02 for the concrete SHA and MD hashes when the block
cipher of the other repository computes the rounds of the standard.
-/
namespace Verif.Props

open Spec

/-! ### The combiner and the modes -/

/-- C27: `state_adder` adds every word of the smaller size modulo `2^w` and keeps the others. -/
theorem C27_state_adder {w n k : Nat} (s1 : Vector (BitVec w) n) (s2 : Vector (BitVec w) k) (i : Nat)
    (hi : i < n) : (stateAdder s1 s2)[i].toNat =
      if h : i < k then (s1[i].toNat + s2[i].toNat) % 2 ^ w else s1[i].toNat := by
  rw [stateAdder_get s1 s2 i hi]
  by_cases h : i < k
  · simp [h]
  · simp [h]

example : stateAdder #v[0xff#8, 1, 2] #v[2#8, 3] = #v[1#8, 4, 2] := by decide +kernel

variable {w n : Nat} {K : Type}

/-- C27, Davies–Meyer: `H' = E_m(H) + H`. -/
theorem C27_davies_meyer (E : K → Vector (BitVec w) n → Vector (BitVec w) n)
    (H : Vector (BitVec w) n) (m : K) (i : Nat) (hi : i < n) :
    (daviesMeyer E stateAdder H m)[i].toNat = ((E m H)[i].toNat + H[i].toNat) % 2 ^ w := by
  unfold daviesMeyer
  rw [C27_state_adder _ _ i hi, dif_pos hi, Nat.add_comm]

/-- A toy cipher of two octets: `0xfe + 5` wraps. -/
example : (daviesMeyer (fun (_ : Unit) (H : Vector (BitVec 8) 2) => H.map (· + 1)) stateAdder #v[0xfe, 3] ())[0].toNat =
    (0xff + 0xfe) % 2 ^ 8 := by
  rw [C27_davies_meyer _ _ _ 0 (by decide)]
  decide +kernel

/-- C27, Matyas–Meyer–Oseas: `H' = E_{g(H)}(m) + m`. -/
theorem C27_matyas_meyer_oseas (E : K → Vector (BitVec w) n → Vector (BitVec w) n) (zero : K)
    (g : K → Vector (BitVec w) n → K) (H m : Vector (BitVec w) n) (i : Nat) (hi : i < n) :
    (matyasMeyerOseas E stateAdder zero g H m)[i].toNat =
      ((E (g zero H) m)[i].toNat + m[i].toNat) % 2 ^ w := by
  unfold matyasMeyerOseas
  rw [C27_state_adder _ _ i hi, dif_pos hi]

example : (matyasMeyerOseas (fun (k : Nat) (H : Vector (BitVec 8) 2) => H.map (· + BitVec.ofNat 8 k)) stateAdder 0
      (fun z H => z + H[1].toNat) #v[1, 2] #v[0xfe, 3])[0].toNat = (0 + 0xfe) % 2 ^ 8 := by
  rw [C27_matyas_meyer_oseas _ _ _ _ _ 0 (by decide)]
  decide +kernel

/-- C27, Miyaguchi–Preneel: `H' = E_{g(H)}(m) + H + m`. -/
theorem C27_miyaguchi_preneel (E : K → Vector (BitVec w) n → Vector (BitVec w) n) (zero : K)
    (g : K → Vector (BitVec w) n → K) (H m : Vector (BitVec w) n) (i : Nat) (hi : i < n) :
    (miyaguchiPreneel E stateAdder zero g H m)[i].toNat =
      ((E (g zero H) m)[i].toNat + H[i].toNat + m[i].toNat) % 2 ^ w := by
  unfold miyaguchiPreneel
  rw [C27_state_adder _ _ i hi, dif_pos hi, C27_state_adder _ _ i hi, dif_pos hi, Nat.mod_add_mod,
    Nat.add_comm H[i].toNat]

/-- A cipher that is different for every key and every block. -/
def toyCipher (key x : Vector (BitVec 8) 2) : Vector (BitVec 8) 2 :=
  #v[x[1] + key[0], x[0] ^^^ key[1]]

example : daviesMeyer toyCipher stateAdder #v[250, 9] #v[3, 0xf0] = #v[6, 19] := by decide +kernel
example : matyasMeyerOseas toyCipher stateAdder #v[0, 0] (fun _ h => #v[h[1], h[0]]) #v[250, 9]
    #v[3, 0xf0] = #v[252, 233] := by decide +kernel
example : miyaguchiPreneel toyCipher stateAdder #v[0, 0] (fun _ h => #v[h[1], h[0]]) #v[250, 9]
    #v[3, 0xf0] = #v[246, 242] := by decide +kernel

/-- The well-known fixed points of Davies–Meyer: `H` is a fixed point for block `m` exactly if the
cipher maps it to zero. -/
theorem C27_davies_meyer_fixed_points (E : K → Vector (BitVec w) n → Vector (BitVec w) n)
    (H : Vector (BitVec w) n) (m : K) :
    daviesMeyer E stateAdder H m = H ↔ E m H = Vector.replicate n 0 := by
  constructor
  · intro h
    apply Vector.ext
    intro i hi
    have := C27_davies_meyer E H m i hi
    rw [h] at this
    rw [Vector.getElem_replicate]
    apply BitVec.eq_of_toNat_eq
    have h1 := H[i].isLt
    have h2 := (E m H)[i].isLt
    show _ = (0#w).toNat
    rw [BitVec.toNat_zero]
    by_cases hlt : (E m H)[i].toNat + H[i].toNat < 2 ^ w
    · rw [Nat.mod_eq_of_lt hlt] at this; omega
    · rw [Nat.mod_eq_sub_mod (by omega), Nat.mod_eq_of_lt (by omega)] at this; omega
  · intro h
    apply Vector.ext
    intro i hi
    apply BitVec.eq_of_toNat_eq
    rw [C27_davies_meyer E H m i hi, h]
    simp

example : daviesMeyer toyCipher stateAdder #v[0xf0, 253] #v[3, 0xf0] = #v[0xf0, 253] := by
  decide +kernel

/-! ### The hashes -/

/-- The contract of a block cipher: encryption under a 16-word key computes `rounds`. -/
def Computes16 (E : Vector (BitVec w) 16 → Vector (BitVec w) n → Vector (BitVec w) n)
    (rounds : (Nat → BitVec w) → Vector (BitVec w) n → Vector (BitVec w) n) : Prop :=
  ∀ key H, E key H = rounds (fun i => key[i]?.getD 0) H

/-- Every `rounds` is computed by some cipher. -/
def cipherOf (rounds : (Nat → BitVec w) → Vector (BitVec w) n → Vector (BitVec w) n) :
    Vector (BitVec w) 16 → Vector (BitVec w) n → Vector (BitVec w) n :=
  fun key H => rounds (fun i => key[i]?.getD 0) H

theorem computes16_cipherOf (rounds : (Nat → BitVec w) → Vector (BitVec w) n → Vector (BitVec w) n) :
    Computes16 (cipherOf rounds) rounds := fun _ _ => rfl

theorem length_arrayView' (e : Endian) (s : Vector (BitVec w) n) : (e.arrayView s).length = n * w := by
  unfold Endian.arrayView
  rw [length_flatMap_const (n := w) (h := by intro x _; simp [Endian.view]), Vector.length_toList]

/-- `merkle_damgard_construction<…, davies_meyer_compressor<Cipher, state_adder>, …>` as instantiated
in sha.hpp:68-72, sha1.hpp:68-72, sha2.hpp:95-98, md4.hpp:68-72, md5.hpp:74-78. -/
def cipherHash (h : MDHash) (hw : h.policy.stateBits = n * w) (iv : Vector (BitVec w) n)
    (E : Vector (BitVec w) 16 → Vector (BitVec w) n → Vector (BitVec w) n) (d0 : Bits)
    (hd : d0.length = h.policy.digestBits) : MDInst h (Vector (BitVec w) n) where
  iv := iv
  compress := daviesMeyerAdd h.policy.endian E
  view := h.policy.endian.arrayView
  length_view s := by rw [length_arrayView', hw]
  digest0 := d0
  length_digest0 := hd

/-- The compressor on a block of 16 words. -/
theorem daviesMeyerAdd_eq (e : Endian) {E : Vector (BitVec w) 16 → Vector (BitVec w) n → Vector (BitVec w) n}
    {rounds : (Nat → BitVec w) → Vector (BitVec w) n → Vector (BitVec w) n} (hE : Computes16 E rounds)
    (v : Vector (BitVec w) n) (b : Bits) (hb : b.length = w * 16) :
    daviesMeyerAdd e E v b = Sha.plus v (rounds (e.word w b) v) := by
  unfold daviesMeyerAdd daviesMeyer
  simp only
  rw [stateAdder_eq, hE]
  congr 2
  funext i
  by_cases hi : i < 16
  · rw [Vector.getElem?_eq_getElem hi, Vector.getElem_ofFn]; rfl
  · rw [Vector.getElem?_eq_none (by omega), word_past e w b i]
    · rfl
    · rw [hb]; exact Nat.mul_le_mul_left _ (by omega)

/-- The IV tables of the repository are those of the standards. -/
theorem C53_sha_md_ivs : sha1IV = Sha.shaIV ∧ md4IV = Sha.mdIV ∧ sha224IV = Sha.iv224 ∧
    sha256IV = Sha.iv256 ∧ sha384IV = Sha.iv384 ∧ sha512IV = Sha.iv512 := by
  have h1 : ∀ i : Fin 5, sha1IV[i] = ByteMD.leWord 4 Sha.nibbles i.1 := by decide +kernel
  have h2 : ∀ i : Fin 4, md4IV[i] = ByteMD.leWord 4 Sha.nibbles i.1 := by decide +kernel
  have h3 : ∀ i : Fin 8, sha224IV[i] = (Sha.frac 64 2 (Sha.primes.getD (i.1 + 8) 0)).truncate 32 := by
    decide +kernel
  have h4 : ∀ i : Fin 8, sha256IV[i] = Sha.frac 32 2 (Sha.primes.getD i.1 0) := by decide +kernel
  have h5 : ∀ i : Fin 8, sha384IV[i] = Sha.frac 64 2 (Sha.primes.getD (i.1 + 8) 0) := by
    decide +kernel
  have h6 : ∀ i : Fin 8, sha512IV[i] = Sha.frac 64 2 (Sha.primes.getD i.1 0) := by decide +kernel
  refine ⟨?_, ?_, ?_, ?_, ?_, ?_⟩ <;> apply Vector.ext <;> intro i hi
  · exact (h1 ⟨i, hi⟩).trans (by simp [Sha.shaIV])
  · exact (h2 ⟨i, hi⟩).trans (by simp [Sha.mdIV])
  · exact (h3 ⟨i, hi⟩).trans (by simp [Sha.iv224])
  · exact (h4 ⟨i, hi⟩).trans (by simp [Sha.iv256])
  · exact (h5 ⟨i, hi⟩).trans (by simp [Sha.iv384])
  · exact (h6 ⟨i, hi⟩).trans (by simp [Sha.iv512])

section
attribute [local irreducible] Sha.sha1Run Sha.Sha2.run Sha.md4Run Sha.md5Run

variable (J : Injector) (k : RangeKind) (garbage : Bits) (cache0 bytes : List Nat)
  (hlen : bytes.length < 2 ^ 61) (hb : ∀ b ∈ bytes, b < 256)
include hlen hb

theorem be_hash (h : MDHash) (w n B L D : Nat) (hB : 0 < B) (hD : D ≤ w * n)
    (hs : (standard h).block = 8 * B ∧ (standard h).length = 8 * L ∧
      (standard h).bigEndianLength = true ∧ (standard h).digest = 8 * D) (hm : markOctetOf h = 0x80)
    (hp : h.policy.blockBits = 8 * B ∧ 8 * B = 8 * w * 16 ∧ h.policy.endian = bigOctetBigBit)
    (hw : h.policy.stateBits = n * (8 * w))
    (hg : garbage.length = 8 * B) (hc : cache0.length = B)
    (iv : Vector (BitVec (8 * w)) n)
    {E : Vector (BitVec (8 * w)) 16 → Vector (BitVec (8 * w)) n → Vector (BitVec (8 * w)) n}
    {rounds : (Nat → BitVec (8 * w)) → Vector (BitVec (8 * w)) n → Vector (BitVec (8 * w)) n}
    (hE : Computes16 E rounds) (d0 : Bits) (hd : d0.length = h.policy.digestBits) :
    hashOnce ((cipherHash h hw iv E d0 hd).C J) J (wordElem bigOctetBigBit 8) k garbage cache0 bytes =
      .ok (octetBits (Sha.beDigest w B L D iv rounds bytes)) := by
  rw [← hp.2.2, C02_byte_strings _ J garbage (by rw [hp.1]; exact hg) k cache0 bytes
    (by rw [hp.1, hc]; omega) hlen]
  refine congrArg _ ?_
  rw [← be_digest_bytes h w n B L D hB hD hs hm iv (daviesMeyerAdd h.policy.endian E) rounds ?_ bytes hb]
  · simp only [cipherHash, hp.2.2]
  · intro v b hbl
    rw [hp.2.2]
    exact daviesMeyerAdd_eq _ hE v b (by rw [hbl, hp.2.1])

theorem le_hash (h : MDHash) (hs : (standard h).block = 512 ∧ (standard h).length = 64 ∧
      (standard h).bigEndianLength = false ∧ (standard h).digest = 128) (hm : markOctetOf h = 0x80)
    (hp : h.policy.blockBits = 512 ∧ h.policy.endian = littleOctetBigBit)
    (hw : h.policy.stateBits = 4 * 32)
    (hg : garbage.length = 512) (hc : cache0.length = 64) (iv : Vector (BitVec 32) 4)
    (hiv : iv = Sha.mdIV)
    {E : Vector (BitVec 32) 16 → Vector (BitVec 32) 4 → Vector (BitVec 32) 4}
    {rounds : (Nat → BitVec 32) → Vector (BitVec 32) 4 → Vector (BitVec 32) 4}
    (hE : Computes16 E rounds) (d0 : Bits) (hd : d0.length = h.policy.digestBits) :
    hashOnce ((cipherHash h hw iv E d0 hd).C J) J (wordElem littleOctetBigBit 8) k garbage cache0 bytes =
      .ok (octetBits (Sha.mdDigest rounds bytes)) := by
  rw [← hp.2, C02_byte_strings _ J garbage (by rw [hp.1]; exact hg) k cache0 bytes
    (by rw [hp.1, hc]) hlen]
  refine congrArg _ ?_
  have e : mdDigest h iv (daviesMeyerAdd littleOctetBigBit E) littleOctetBigBit.arrayView
      (octetBits bytes) = mdDigest h iv (fun s b => Sha.plus s
        (rounds (littleOctetBigBit.word 32 b) s)) littleOctetBigBit.arrayView (octetBits bytes) := by
    unfold mdDigest
    rw [paddedMessage_bytes, hs.1, hs.2.1, hs.2.2.1, show (512 : Nat) = 8 * 64 from rfl,
      blocks_bytes 64 _ (by omega)]
    congr 2
    have key := foldl_hom_mem (fun x => x) (daviesMeyerAdd littleOctetBigBit E)
      (fun s b => Sha.plus s (rounds (littleOctetBigBit.word 32 (octetBits b)) s)) octetBits
      (ByteMD.blocks 64 (ByteMD.pad (8 * 64 / 8) (64 / 8) (markOctetOf h) false bytes)) (fun v b hb => by
        exact daviesMeyerAdd_eq _ hE v _ (by
          rw [length_bytes, length_mem_blocks hb])) iv
    rw [key, List.foldl_map]
  simp only [cipherHash, hp.2]
  rw [e, hiv]
  unfold Sha.mdDigest
  rw [← hm]
  exact le_digest_bytes h 4 4 ⟨hs.1, hs.2.1, hs.2.2.1, hs.2.2.2⟩ Sha.mdIV
    (fun s X => Sha.plus s (rounds X s)) id (fun X H => Sha.plus H (rounds X H)) Vector.toList
    (fun _ => rfl) (fun _ _ => rfl) bytes hb

variable (d0 : Bits)

/-- C02 + C27 for SHA-1: any byte string, any way of reading it, any content of uninitialised buffers:
the digest is the FIPS 180-4 digest if `shacal1` computes the 80 rounds. -/
theorem C27_sha1 {E} (hE : Computes16 E (Sha.sha1Run 1)) (hg512 : garbage.length = 512)
    (hc64 : cache0.length = 64) (hd : d0.length = 160) :
    hashOnce ((cipherHash .sha1 rfl sha1IV E d0 hd).C J) J (wordElem bigOctetBigBit 8) k garbage cache0
      bytes = .ok (octetBits (Sha.sha1 bytes)) := by
  rw [C53_sha_md_ivs.1]
  exact be_hash J k garbage cache0 bytes hlen hb .sha1 4 5 64 8 20 (by omega) (by omega)
    ⟨rfl, rfl, rfl, rfl⟩ rfl ⟨rfl, rfl, rfl⟩ rfl hg512 hc64 _ hE d0 hd

/-- The same for SHA-0 and `shacal0`. -/
theorem C27_sha0 {E} (hE : Computes16 E (Sha.sha1Run 0)) (hg512 : garbage.length = 512)
    (hc64 : cache0.length = 64) (hd : d0.length = 160) :
    hashOnce ((cipherHash .sha0 rfl sha1IV E d0 hd).C J) J (wordElem bigOctetBigBit 8) k garbage cache0
      bytes = .ok (octetBits (Sha.sha0 bytes)) := by
  rw [C53_sha_md_ivs.1]
  exact be_hash J k garbage cache0 bytes hlen hb .sha0 4 5 64 8 20 (by omega) (by omega)
    ⟨rfl, rfl, rfl, rfl⟩ rfl ⟨rfl, rfl, rfl⟩ rfl hg512 hc64 _ hE d0 hd

/-- The same for SHA-224 and `shacal2<256>`. -/
theorem C27_sha224 {E} (hE : Computes16 E Sha.sha256fns.run) (hg512 : garbage.length = 512)
    (hc64 : cache0.length = 64) (hd : d0.length = 224) :
    hashOnce ((cipherHash .sha224 rfl sha224IV E d0 hd).C J) J (wordElem bigOctetBigBit 8) k garbage
      cache0 bytes = .ok (octetBits (Sha.sha224 bytes)) := by
  rw [C53_sha_md_ivs.2.2.1]
  exact be_hash J k garbage cache0 bytes hlen hb .sha224 4 8 64 8 28 (by omega) (by omega)
    ⟨rfl, rfl, rfl, rfl⟩ rfl ⟨rfl, rfl, rfl⟩ rfl hg512 hc64 _ hE d0 hd

/-- The same for SHA-256. -/
theorem C27_sha256 {E} (hE : Computes16 E Sha.sha256fns.run) (hg512 : garbage.length = 512)
    (hc64 : cache0.length = 64) (hd : d0.length = 256) :
    hashOnce ((cipherHash .sha256 rfl sha256IV E d0 hd).C J) J (wordElem bigOctetBigBit 8) k garbage
      cache0 bytes = .ok (octetBits (Sha.sha256 bytes)) := by
  rw [C53_sha_md_ivs.2.2.2.1]
  exact be_hash J k garbage cache0 bytes hlen hb .sha256 4 8 64 8 32 (by omega) (by omega)
    ⟨rfl, rfl, rfl, rfl⟩ rfl ⟨rfl, rfl, rfl⟩ rfl hg512 hc64 _ hE d0 hd

/-- The same for SHA-384 and `shacal2<512>`. -/
theorem C27_sha384 {E} (hE : Computes16 E Sha.sha512fns.run) (hg1024 : garbage.length = 1024)
    (hc128 : cache0.length = 128) (hd : d0.length = 384) :
    hashOnce ((cipherHash .sha384 rfl sha384IV E d0 hd).C J) J (wordElem bigOctetBigBit 8) k garbage
      cache0 bytes = .ok (octetBits (Sha.sha384 bytes)) := by
  rw [C53_sha_md_ivs.2.2.2.2.1]
  exact be_hash J k garbage cache0 bytes hlen hb .sha384 8 8 128 16 48 (by omega) (by omega)
    ⟨rfl, rfl, rfl, rfl⟩ rfl ⟨rfl, rfl, rfl⟩ rfl hg1024 hc128 _ hE d0 hd

/-- The same for SHA-512. -/
theorem C27_sha512 {E} (hE : Computes16 E Sha.sha512fns.run) (hg1024 : garbage.length = 1024)
    (hc128 : cache0.length = 128) (hd : d0.length = 512) :
    hashOnce ((cipherHash .sha512 rfl sha512IV E d0 hd).C J) J (wordElem bigOctetBigBit 8) k garbage
      cache0 bytes = .ok (octetBits (Sha.sha512 bytes)) := by
  rw [C53_sha_md_ivs.2.2.2.2.2]
  exact be_hash J k garbage cache0 bytes hlen hb .sha512 8 8 128 16 64 (by omega) (by omega)
    ⟨rfl, rfl, rfl, rfl⟩ rfl ⟨rfl, rfl, rfl⟩ rfl hg1024 hc128 _ hE d0 hd

/-- The same for MD4 (RFC 1320). -/
theorem C27_md4 {E} (hE : Computes16 E Sha.md4Run) (hg512 : garbage.length = 512)
    (hc64 : cache0.length = 64) (hd : d0.length = 128) :
    hashOnce ((cipherHash .md4 rfl md4IV E d0 hd).C J) J (wordElem littleOctetBigBit 8) k garbage cache0
      bytes = .ok (octetBits (Sha.md4 bytes)) :=
  le_hash J k garbage cache0 bytes hlen hb .md4 ⟨rfl, rfl, rfl, rfl⟩ rfl ⟨rfl, rfl⟩ rfl hg512 hc64 _
    C53_sha_md_ivs.2.1 hE d0 hd

/-- The same for MD5 (RFC 1321). -/
theorem C27_md5 {E} (hE : Computes16 E Sha.md5Run) (hg512 : garbage.length = 512)
    (hc64 : cache0.length = 64) (hd : d0.length = 128) :
    hashOnce ((cipherHash .md5 rfl md4IV E d0 hd).C J) J (wordElem littleOctetBigBit 8) k garbage cache0
      bytes = .ok (octetBits (Sha.md5 bytes)) :=
  le_hash J k garbage cache0 bytes hlen hb .md5 ⟨rfl, rfl, rfl, rfl⟩ rfl ⟨rfl, rfl⟩ rfl hg512 hc64 _
    C53_sha_md_ivs.2.1 hE d0 hd

end

/-- The hypotheses hold: the cipher that computes the rounds, 200 bytes, a dirty cache. -/
example : hashOnce ((cipherHash .sha256 rfl sha256IV (cipherOf Sha.sha256fns.run)
      (List.replicate 256 true) List.length_replicate).C spliceInjector) spliceInjector
      (wordElem bigOctetBigBit 8) .container (List.replicate 512 true) (List.replicate 64 9)
      (List.range 200) = .ok (octetBits (Sha.sha256 (List.range 200))) :=
  C27_sha256 _ _ _ _ _ (by simp) (by simp; omega) _ (computes16_cipherOf _) List.length_replicate
    List.length_replicate _

/-! The published digests of `"abc"`. -/
example : Sha.sha0 [0x61, 0x62, 0x63] =
    [0x01, 0x64, 0xb8, 0xa9, 0x14, 0xcd, 0x2a, 0x5e, 0x74, 0xc4, 0xf7, 0xff, 0x08, 0x2c, 0x4d, 0x97, 0xf1, 0xed, 0xf8, 0x80] := by
  decide +kernel
example : Sha.md4 [0x61, 0x62, 0x63] =
    [0xa4, 0x48, 0x01, 0x7a, 0xaf, 0x21, 0xd8, 0x52, 0x5f, 0xc1, 0x0a, 0xe8, 0x7a, 0xa6, 0x72, 0x9d] := by
  decide +kernel
example : Sha.sha1 [0x61, 0x62, 0x63] =
    [0xa9, 0x99, 0x3e, 0x36, 0x47, 0x06, 0x81, 0x6a, 0xba, 0x3e, 0x25, 0x71, 0x78, 0x50, 0xc2, 0x6c, 0x9c, 0xd0, 0xd8, 0x9d] := by
  decide +kernel
example : Sha.sha224 [0x61, 0x62, 0x63] =
    [0x23, 0x09, 0x7d, 0x22, 0x34, 0x05, 0xd8, 0x22, 0x86, 0x42, 0xa4, 0x77, 0xbd, 0xa2, 0x55, 0xb3, 0x2a, 0xad, 0xbc, 0xe4, 0xbd, 0xa0, 0xb3, 0xf7, 0xe3, 0x6c, 0x9d, 0xa7] := by
  decide +kernel
example : Sha.sha256 [0x61, 0x62, 0x63] =
    [0xba, 0x78, 0x16, 0xbf, 0x8f, 0x01, 0xcf, 0xea, 0x41, 0x41, 0x40, 0xde, 0x5d, 0xae, 0x22, 0x23, 0xb0, 0x03, 0x61, 0xa3, 0x96, 0x17, 0x7a, 0x9c, 0xb4, 0x10, 0xff, 0x61, 0xf2, 0x00, 0x15, 0xad] := by
  decide +kernel
example : Sha.sha384 [0x61, 0x62, 0x63] =
    [0xcb, 0x00, 0x75, 0x3f, 0x45, 0xa3, 0x5e, 0x8b, 0xb5, 0xa0, 0x3d, 0x69, 0x9a, 0xc6, 0x50, 0x07, 0x27, 0x2c, 0x32, 0xab, 0x0e, 0xde, 0xd1, 0x63, 0x1a, 0x8b, 0x60, 0x5a, 0x43, 0xff, 0x5b, 0xed, 0x80, 0x86, 0x07, 0x2b, 0xa1, 0xe7, 0xcc, 0x23, 0x58, 0xba, 0xec, 0xa1, 0x34, 0xc8, 0x25, 0xa7] := by
  decide +kernel
example : Sha.sha512 [0x61, 0x62, 0x63] =
    [0xdd, 0xaf, 0x35, 0xa1, 0x93, 0x61, 0x7a, 0xba, 0xcc, 0x41, 0x73, 0x49, 0xae, 0x20, 0x41, 0x31, 0x12, 0xe6, 0xfa, 0x4e, 0x89, 0xa9, 0x7e, 0xa2, 0x0a, 0x9e, 0xee, 0xe6, 0x4b, 0x55, 0xd3, 0x9a, 0x21, 0x92, 0x99, 0x2a, 0x27, 0x4f, 0xc1, 0xa8, 0x36, 0xba, 0x3c, 0x23, 0xa3, 0xfe, 0xeb, 0xbd, 0x45, 0x4d, 0x44, 0x23, 0x64, 0x3c, 0xe8, 0x0e, 0x2a, 0x9a, 0xc9, 0x4f, 0xa5, 0x4c, 0xa4, 0x9f] := by
  decide +kernel
example : Sha.md5 [0x61, 0x62, 0x63] =
    [0x90, 0x01, 0x50, 0x98, 0x3c, 0xd2, 0x4f, 0xb0, 0xd6, 0x96, 0x3f, 0x7d, 0x28, 0xe1, 0x7f, 0x72] := by
  decide +kernel


example : hashOnce ((cipherHash .sha1 rfl sha1IV (cipherOf (Sha.sha1Run 1))
      (List.replicate 160 true) List.length_replicate).C spliceInjector) spliceInjector
      (wordElem bigOctetBigBit 8) .container (List.replicate 512 true) (List.replicate 64 9)
      (List.range 200) = .ok (octetBits (Sha.sha1 (List.range 200))) :=
  C27_sha1 _ _ _ _ _ (by simp) (by simp; omega) _ (computes16_cipherOf _) List.length_replicate
    List.length_replicate _

example : hashOnce ((cipherHash .sha0 rfl sha1IV (cipherOf (Sha.sha1Run 0))
      (List.replicate 160 true) List.length_replicate).C spliceInjector) spliceInjector
      (wordElem bigOctetBigBit 8) .container (List.replicate 512 true) (List.replicate 64 9)
      (List.range 200) = .ok (octetBits (Sha.sha0 (List.range 200))) :=
  C27_sha0 _ _ _ _ _ (by simp) (by simp; omega) _ (computes16_cipherOf _) List.length_replicate
    List.length_replicate _

example : hashOnce ((cipherHash .sha224 rfl sha224IV (cipherOf Sha.sha256fns.run)
      (List.replicate 224 true) List.length_replicate).C spliceInjector) spliceInjector
      (wordElem bigOctetBigBit 8) .container (List.replicate 512 true) (List.replicate 64 9)
      (List.range 200) = .ok (octetBits (Sha.sha224 (List.range 200))) :=
  C27_sha224 _ _ _ _ _ (by simp) (by simp; omega) _ (computes16_cipherOf _) List.length_replicate
    List.length_replicate _

example : hashOnce ((cipherHash .sha384 rfl sha384IV (cipherOf Sha.sha512fns.run)
      (List.replicate 384 true) List.length_replicate).C spliceInjector) spliceInjector
      (wordElem bigOctetBigBit 8) .container (List.replicate 1024 true) (List.replicate 128 9)
      (List.range 200) = .ok (octetBits (Sha.sha384 (List.range 200))) :=
  C27_sha384 _ _ _ _ _ (by simp) (by simp; omega) _ (computes16_cipherOf _) List.length_replicate
    List.length_replicate _

example : hashOnce ((cipherHash .sha512 rfl sha512IV (cipherOf Sha.sha512fns.run)
      (List.replicate 512 true) List.length_replicate).C spliceInjector) spliceInjector
      (wordElem bigOctetBigBit 8) .container (List.replicate 1024 true) (List.replicate 128 9)
      (List.range 200) = .ok (octetBits (Sha.sha512 (List.range 200))) :=
  C27_sha512 _ _ _ _ _ (by simp) (by simp; omega) _ (computes16_cipherOf _) List.length_replicate
    List.length_replicate _

example : hashOnce ((cipherHash .md4 rfl md4IV (cipherOf Sha.md4Run)
      (List.replicate 128 true) List.length_replicate).C spliceInjector) spliceInjector
      (wordElem littleOctetBigBit 8) .container (List.replicate 512 true) (List.replicate 64 9)
      (List.range 200) = .ok (octetBits (Sha.md4 (List.range 200))) :=
  C27_md4 _ _ _ _ _ (by simp) (by simp; omega) _ (computes16_cipherOf _) List.length_replicate
    List.length_replicate _

end Verif.Props
