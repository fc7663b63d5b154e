import Verif.Props.Modes
/-
C115: published collisions of MD4, MD5, SHA-0 and SHA-1, with every continuation of the messages.
-/
namespace Verif.Props

open Spec

/-! ### The published messages, in words -/

/-- Wang, Lai, Feng, Chen, Yu (Eurocrypt 2005): one block of MD4. -/
def md4Pair : List Nat × List Nat := ([
  0x4d7a9c83, 0x56cb927a, 0xb9d5a578, 0x57a7a5ee, 0xde748a3c, 0xdcc366b3, 0xb683a020, 0x3b2a5d9f,
  0xc69d71b3, 0xf9e99198, 0xd79f805e, 0xa63bb2e8, 0x45dd8e31, 0x97e31fe5, 0x2794bf08, 0xb9e8c3e9], [
  0x4d7a9c83, 0xd6cb927a, 0x29d5a578, 0x57a7a5ee, 0xde748a3c, 0xdcc366b3, 0xb683a020, 0x3b2a5d9f,
  0xc69d71b3, 0xf9e99198, 0xd79f805e, 0xa63bb2e8, 0x45dc8e31, 0x97e31fe5, 0x2794bf08, 0xb9e8c3e9])

/-- Wang, Feng, Lai, Yu (2004): two blocks of MD5. -/
def md5Pair : List Nat × List Nat := ([
  0x02dd31d1, 0xc4eee6c5, 0x069a3d69, 0x5cf9af98, 0x87b5ca2f, 0xab7e4612, 0x3e580440, 0x897ffbb8,
  0x0634ad55, 0x02b3f409, 0x8388e483, 0x5a417125, 0xe8255108, 0x9fc9cdf7, 0xf2bd1dd9, 0x5b3c3780,
  0x313e82d8, 0x5b8f3456, 0xd4ac6dae, 0xc619c936, 0xb4e253dd, 0xfd03da87, 0x06633902, 0xa0cd48d2,
  0x42339fe9, 0xe87e570f, 0x70b654ce, 0x1e0da880, 0xbc2198c6, 0x9383a8b6, 0x2b65f996, 0x702af76f], [
  0x02dd31d1, 0xc4eee6c5, 0x069a3d69, 0x5cf9af98, 0x07b5ca2f, 0xab7e4612, 0x3e580440, 0x897ffbb8,
  0x0634ad55, 0x02b3f409, 0x8388e483, 0x5a41f125, 0xe8255108, 0x9fc9cdf7, 0x72bd1dd9, 0x5b3c3780,
  0x313e82d8, 0x5b8f3456, 0xd4ac6dae, 0xc619c936, 0x34e253dd, 0xfd03da87, 0x06633902, 0xa0cd48d2,
  0x42339fe9, 0xe87e570f, 0x70b654ce, 0x1e0d2880, 0xbc2198c6, 0x9383a8b6, 0xab65f996, 0x702af76f])

/-- Joux, Carribault, Jalby, Lemuet (2004): four blocks of SHA-0. -/
def sha0Pair : List Nat × List Nat := ([
  0xa766a602, 0xb65cffe7, 0x73bcf258, 0x26b322b3, 0xd01b1a97, 0x2684ef53, 0x3e3b4b7f, 0x53fe3762,
  0x24c08e47, 0xe959b2bc, 0x3b519880, 0xb9286568, 0x247d110f, 0x70f5c5e2, 0xb4590ca3, 0xf55f52fe,
  0xeffd4c8f, 0xe68de835, 0x329e603c, 0xc51e7f02, 0x545410d1, 0x671d108d, 0xf5a4000d, 0xcf20a439,
  0x4949d72c, 0xd14fbb03, 0x45cf3a29, 0x5dcda89f, 0x998f8755, 0x2c9a58b1, 0xbdc38483, 0x5e477185,
  0xf96e68be, 0xbb0025d2, 0xd2b69edf, 0x21724198, 0xf688b41d, 0xeb9b4913, 0xfbe696b5, 0x457ab399,
  0x21e1d759, 0x1f89de84, 0x57e8613c, 0x6c9e3b24, 0x2879d4d8, 0x783b2d9c, 0xa9935ea5, 0x26a729c0,
  0x6edfc501, 0x37e69330, 0xbe976012, 0xcc5dfe1c, 0x14c4c68b, 0xd1db3ecb, 0x24438a59, 0xa09b5db4,
  0x35563e0d, 0x8bdf572f, 0x77b53065, 0xcef31f32, 0xdc9dbaa0, 0x4146261e, 0x9994bd5c, 0xd0758e3d], [
  0xa766a602, 0xb65cffe7, 0x73bcf258, 0x26b322b1, 0xd01b1ad7, 0x2684ef51, 0xbe3b4b7f, 0xd3fe3762,
  0xa4c08e45, 0xe959b2fc, 0x3b519880, 0x39286528, 0xa47d110d, 0x70f5c5e0, 0x34590ce3, 0x755f52fc,
  0x6ffd4c8d, 0x668de875, 0x329e603e, 0x451e7f02, 0xd45410d1, 0xe71d108d, 0xf5a4000d, 0xcf20a439,
  0x4949d72c, 0xd14fbb01, 0x45cf3a69, 0x5dcda89d, 0x198f8755, 0xac9a58b1, 0x3dc38481, 0x5e4771c5,
  0x796e68fe, 0xbb0025d0, 0x52b69edd, 0xa17241d8, 0x7688b41f, 0x6b9b4911, 0x7be696f5, 0xc57ab399,
  0xa1e1d719, 0x9f89de86, 0x57e8613c, 0xec9e3b26, 0xa879d498, 0x783b2d9e, 0x29935ea7, 0xa6a72980,
  0x6edfc503, 0x37e69330, 0x3e976010, 0x4c5dfe5c, 0x14c4c689, 0x51db3ecb, 0xa4438a59, 0x209b5db4,
  0x35563e0d, 0x8bdf572f, 0x77b53065, 0xcef31f30, 0xdc9dbae0, 0x4146261c, 0x1994bd5c, 0x50758e3d])

/-- Stevens, Bursztein, Karpman, Albertini, Markov (Crypto 2017): the three blocks of the common prefix. -/
def sha1Prefix : List Nat := [
  0x25504446, 0x2d312e33, 0x0a25e2e3, 0xcfd30a0a, 0x0a312030, 0x206f626a, 0x0a3c3c2f, 0x57696474,
  0x68203220, 0x3020522f, 0x48656967, 0x68742033, 0x20302052, 0x2f547970, 0x65203420, 0x3020522f,
  0x53756274, 0x79706520, 0x35203020, 0x522f4669, 0x6c746572, 0x20362030, 0x20522f43, 0x6f6c6f72,
  0x53706163, 0x65203720, 0x3020522f, 0x4c656e67, 0x74682038, 0x20302052, 0x2f426974, 0x73506572,
  0x436f6d70, 0x6f6e656e, 0x7420383e, 0x3e0a7374, 0x7265616d, 0x0affd8ff, 0xfe002453, 0x48412d31,
  0x20697320, 0x64656164, 0x21212121, 0x21852fec, 0x09233975, 0x9c39b1a1, 0xc63c4c97, 0xe1fffe01]

/-- The two blocks of SHA-1 after the prefix. -/
def sha1Pair : List Nat × List Nat := ([
  0x7f46dc93, 0xa6b67e01, 0x3b029aaa, 0x1db2560b, 0x45ca67d6, 0x88c7f84b, 0x8c4c791f, 0xe02b3df6,
  0x14f86db1, 0x690901c5, 0x6b45c153, 0x0afedfb7, 0x6038e972, 0x722fe7ad, 0x728f0e49, 0x04e046c2,
  0x30570fe9, 0xd41398ab, 0xe12ef5bc, 0x942be335, 0x42a4802d, 0x98b5d70f, 0x2a332ec3, 0x7fac3514,
  0xe74ddc0f, 0x2cc1a874, 0xcd0c7830, 0x5a215664, 0x61309789, 0x606bd0bf, 0x3f98cda8, 0x044629a1], [
  0x7346dc91, 0x66b67e11, 0x8f029ab6, 0x21b2560f, 0xf9ca67cc, 0xa8c7f85b, 0xa84c7903, 0x0c2b3de2,
  0x18f86db3, 0xa90901d5, 0xdf45c14f, 0x26fedfb3, 0xdc38e96a, 0xc22fe7bd, 0x728f0e45, 0xbce046d2,
  0x3c570feb, 0x141398bb, 0x552ef5a0, 0xa82be331, 0xfea48037, 0xb8b5d71f, 0x0e332edf, 0x93ac3500,
  0xeb4ddc0d, 0xecc1a864, 0x790c782c, 0x76215660, 0xdd309791, 0xd06bd0af, 0x3f98cda4, 0xbc4629b1])

def beMessage (ws : List Nat) : List Nat := Sha.beOctets 4 (ws.map fun x => BitVec.ofNat 32 x)
def leMessage (ws : List Nat) : List Nat := ByteMD.leOctets 4 (ws.map fun x => BitVec.ofNat 32 x)

/-! ### Collisions of whole blocks extend -/

theorem byteBlocks_append {B : Nat} (hB : 0 < B) {x y : List Nat} (h : B ∣ x.length) :
    ByteMD.blocks B (x ++ y) = ByteMD.blocks B x ++ ByteMD.blocks B y := by
  obtain ⟨k, hk⟩ := h
  unfold ByteMD.blocks
  have e1 : x.length / B = k := by rw [hk, Nat.mul_div_cancel_left _ hB]
  have e2 : (x ++ y).length / B = k + y.length / B := by
    rw [List.length_append, hk, Nat.mul_add_div hB]
  rw [e1, e2, List.range_add, List.map_append, List.map_map]
  congr 1
  · refine List.map_congr_left fun i hi => ?_
    have hi := List.mem_range.1 hi
    have : (i + 1) * B ≤ x.length := by rw [hk, Nat.mul_comm B]; exact Nat.mul_le_mul_right _ hi
    rw [Nat.add_mul, Nat.one_mul] at this
    rw [List.drop_append_of_le_length (by omega), List.take_append_of_le_length (by rw [List.length_drop]; omega)]
  · refine List.map_congr_left fun i _ => ?_
    rw [Function.comp, List.drop_append, List.drop_eq_nil_of_le (by rw [hk, Nat.add_mul, Nat.mul_comm B]; omega), List.nil_append,
      show (k + i) * B - x.length = i * B by rw [hk, Nat.add_mul, Nat.mul_comm B]; omega]

theorem pad_append (B L mark : Nat) (big : Bool) (x y : List Nat) :
    ByteMD.pad B L mark big (x ++ y) = x ++ (y ++ ([mark] ++ (List.replicate ((B - ((x ++ y).length + 1 + L) % B) % B) 0 ++
      ByteMD.encode big L (8 * (x ++ y).length)))) := by
  unfold ByteMD.pad
  simp only [List.append_assoc]

/-- Two messages of whole blocks that lead to the same chaining value. -/
theorem fold_extends {σ : Type} (f : σ → List Nat → σ) (iv : σ) {B L mark : Nat} {big : Bool} (hB : 0 < B) {m m' : List Nat}
    (hl : m.length = m'.length) (hm : B ∣ m.length) (h : (ByteMD.blocks B m).foldl f iv = (ByteMD.blocks B m').foldl f iv)
    (s : List Nat) :
    (ByteMD.blocks B (ByteMD.pad B L mark big (m ++ s))).foldl f iv = (ByteMD.blocks B (ByteMD.pad B L mark big (m' ++ s))).foldl f iv := by
  rw [pad_append, pad_append, byteBlocks_append hB hm, byteBlocks_append (x := m') hB (hl ▸ hm), List.foldl_append, List.foldl_append, h,
    List.length_append, List.length_append, hl]

/-! ### The four pairs -/

/-- Two different octet strings of `n` octets such that the digests agree whatever follows. -/
def CollidesAlways (H : List Nat → List Nat) (n : Nat) (m m' : List Nat) : Prop :=
  m ≠ m' ∧ m.length = n ∧ m'.length = n ∧ (∀ b ∈ m, b < 256) ∧ (∀ b ∈ m', b < 256) ∧ ∀ s, H (m ++ s) = H (m' ++ s)

theorem collides_le (rounds : (Nat → BitVec 32) → Vector (BitVec 32) 4 → Vector (BitVec 32) 4) {n : Nat} {m m' : List Nat} (hn : 64 ∣ n)
    (h : (m ≠ m' ∧ m.length = n ∧ m'.length = n ∧ (∀ b ∈ m, b < 256) ∧ ∀ b ∈ m', b < 256) ∧
      ((ByteMD.blocks 64 m).foldl (fun s block => Sha.plus s (rounds (ByteMD.leWord 4 block) s)) Sha.mdIV).toList =
        ((ByteMD.blocks 64 m').foldl (fun s block => Sha.plus s (rounds (ByteMD.leWord 4 block) s)) Sha.mdIV).toList) :
    CollidesAlways (Sha.mdDigest rounds) n m m' := by
  obtain ⟨⟨h1, h2, h3, h4, h5⟩, h6⟩ := h
  refine ⟨h1, h2, h3, h4, h5, fun s => ?_⟩
  unfold Sha.mdDigest ByteMD.leDigest
  rw [fold_extends _ Sha.mdIV (by decide) (h2.trans h3.symm) (h2 ▸ hn) (Vector.toList_inj.1 h6)]

theorem collides_be {rot n : Nat} {m m' : List Nat} (hn : 64 ∣ n)
    (h : (m ≠ m' ∧ m.length = n ∧ m'.length = n ∧ (∀ b ∈ m, b < 256) ∧ ∀ b ∈ m', b < 256) ∧
      ((ByteMD.blocks 64 m).foldl (fun s block => Sha.plus s (Sha.sha1Run rot (Sha.beWord 4 block) s)) Sha.shaIV).toList =
        ((ByteMD.blocks 64 m').foldl (fun s block => Sha.plus s (Sha.sha1Run rot (Sha.beWord 4 block) s)) Sha.shaIV).toList) :
    CollidesAlways (Sha.beDigest 4 64 8 20 Sha.shaIV (Sha.sha1Run rot)) n m m' := by
  obtain ⟨⟨h1, h2, h3, h4, h5⟩, h6⟩ := h
  refine ⟨h1, h2, h3, h4, h5, fun s => ?_⟩
  unfold Sha.beDigest
  rw [fold_extends _ Sha.shaIV (by decide) (h2.trans h3.symm) (h2 ▸ hn) (Vector.toList_inj.1 h6)]

/-- C115: the four functions of the standards. -/
theorem C115_md4 : CollidesAlways Sha.md4 64 (leMessage md4Pair.1) (leMessage md4Pair.2) :=
  collides_le _ (by decide) (by decide +kernel)

theorem C115_md5 : CollidesAlways Sha.md5 128 (leMessage md5Pair.1) (leMessage md5Pair.2) :=
  collides_le _ (by decide) (by decide +kernel)

theorem C115_sha0 : CollidesAlways Sha.sha0 256 (beMessage sha0Pair.1) (beMessage sha0Pair.2) :=
  collides_be (by decide) (by decide +kernel)

theorem C115_sha1 : CollidesAlways Sha.sha1 320 (beMessage (sha1Prefix ++ sha1Pair.1)) (beMessage (sha1Prefix ++ sha1Pair.2)) :=
  collides_be (by decide) (by decide +kernel)

/-! ### The hashes of the library -/

/-- Two different octet strings of `n` octets such that the hash of the library gives the same digest for both of them, whatever
octets follow and however the two messages are fed. -/
def AlwaysCollide {h : MDHash} {σ : Type} (I : MDInst h σ) (n : Nat) (m m' : List Nat) : Prop :=
  m ≠ m' ∧ m.length = n ∧ m'.length = n ∧ (∀ b ∈ m, b < 256) ∧ (∀ b ∈ m', b < 256) ∧
    ∀ (s : List Nat), (∀ b ∈ s, b < 256) → n + s.length < 2 ^ 61 →
      ∀ (J J' : Injector) (garbage garbage' : Bits), garbage.length = h.policy.blockBits → garbage'.length = h.policy.blockBits →
        ∀ ops ops' : List Op, (∀ op ∈ ops, op.WellTyped h.policy.blockBits) → (∀ op ∈ ops', op.WellTyped h.policy.blockBits) →
          Op.extract ∉ ops → Op.extract ∉ ops' → streamOf h.policy.blockBits ops = octetBits (m ++ s) →
          streamOf h.policy.blockBits ops' = octetBits (m' ++ s) →
          ∃ d, (do let (a, _) ← runOps (I.C J) J (Acc.init (I.C J) garbage) [] ops
                   a.result (I.C J)) = .ok d ∧
            (do let (a, _) ← runOps (I.C J') J' (Acc.init (I.C J') garbage') [] ops'
                a.result (I.C J')) = .ok d

theorem alwaysCollide {h : MDHash} {σ : Type} (I : MDInst h σ) {H : List Nat → List Nat}
    (hH : ∀ (J : Injector) (garbage : Bits) (cache0 bytes : List Nat), bytes.length < 2 ^ 61 → (∀ b ∈ bytes, b < 256) →
      garbage.length = h.policy.blockBits → cache0.length = h.policy.blockBits / 8 →
      hashOnce (I.C J) J (wordElem h.policy.endian 8) .container garbage cache0 bytes = .ok (octetBits (H bytes)))
    {n : Nat} {m m' : List Nat} (hc : CollidesAlways H n m m') : AlwaysCollide I n m m' := by
  obtain ⟨h1, h2, h3, h4, h5, h6⟩ := hc
  refine ⟨h1, h2, h3, h4, h5, fun s hs hlen J J' garbage garbage' hg hg' ops ops' hwt hwt' hne hne' hst hst' => ?_⟩
  have key : ∀ (x : List Nat), x.length = n → (∀ b ∈ x, b < 256) → ∀ (J : Injector) (garbage : Bits),
      garbage.length = h.policy.blockBits → ∀ ops : List Op, (∀ op ∈ ops, op.WellTyped h.policy.blockBits) → Op.extract ∉ ops →
      streamOf h.policy.blockBits ops = octetBits (x ++ s) →
      (do let (a, _) ← runOps (I.C J) J (Acc.init (I.C J) garbage) [] ops
          a.result (I.C J)) = .ok (octetBits (H (x ++ s))) := by
    intro x hx hxb J garbage hg ops hwt hne hst
    have hl : (x ++ s).length < 2 ^ 61 := by rw [List.length_append, hx]; exact hlen
    have hb : ∀ b ∈ x ++ s, b < 256 := fun b hb => (List.mem_append.1 hb).elim (hxb b) (hs b)
    have hE : (Op.feed (wordElem h.policy.endian 8) .container (List.replicate (h.policy.blockBits / 8) 0) (x ++ s)).WellTyped
        h.policy.blockBits := ⟨by simp [wordElem], (policy_sizes h).2.2.2.2.1, List.length_replicate⟩
    obtain ⟨d, e1, e2⟩ := C01_incremental_eq_oneshot I J garbage garbage hg hg ops hwt hne _ _ _ _ hE (by rw [view_octet h, hst]) (by
      rw [view_octet h]
      exact goodMsg_of_bytes h (by rw [length_octetBits]; exact ⟨(x ++ s).length, by omega⟩) (by rw [length_octetBits]; omega))
    rw [hH J garbage _ _ hl hb hg List.length_replicate] at e2
    rw [e1, e2]
  exact ⟨_, key m h2 h4 J garbage hg ops hwt hne hst, by rw [key m' h3 h5 J' garbage' hg' ops' hwt' hne' hst', h6 s]⟩

section
attribute [local irreducible] Sha.sha1Run Sha.md4Run Sha.md5Run

variable (d0 : Bits)

/-- **C115.** MD4 of the library is not collision resistant if the block cipher computes the rounds of RFC 1320. -/
theorem C115_code_md4 {E} (hE : Computes16 E Sha.md4Run) (hd : d0.length = 128) :
    AlwaysCollide (cipherHash .md4 rfl md4IV E d0 hd) 64 (leMessage md4Pair.1) (leMessage md4Pair.2) :=
  alwaysCollide (h := .md4) _ (fun J garbage cache0 bytes h1 h2 h3 h4 => C27_md4 J .container garbage cache0 bytes h1 h2 d0 hE h3 h4 hd) C115_md4

/-- **C115.** MD5 of the library is not collision resistant if the block cipher computes the rounds of RFC 1321. -/
theorem C115_code_md5 {E} (hE : Computes16 E Sha.md5Run) (hd : d0.length = 128) :
    AlwaysCollide (cipherHash .md5 rfl md4IV E d0 hd) 128 (leMessage md5Pair.1) (leMessage md5Pair.2) :=
  alwaysCollide (h := .md5) _ (fun J garbage cache0 bytes h1 h2 h3 h4 => C27_md5 J .container garbage cache0 bytes h1 h2 d0 hE h3 h4 hd) C115_md5

/-- **C115.** SHA-0 of the library is not collision resistant if the block cipher computes the rounds of FIPS 180. -/
theorem C115_code_sha0 {E} (hE : Computes16 E (Sha.sha1Run 0)) (hd : d0.length = 160) :
    AlwaysCollide (cipherHash .sha0 rfl sha1IV E d0 hd) 256 (beMessage sha0Pair.1) (beMessage sha0Pair.2) :=
  alwaysCollide (h := .sha0) _ (fun J garbage cache0 bytes h1 h2 h3 h4 => C27_sha0 J .container garbage cache0 bytes h1 h2 d0 hE h3 h4 hd) C115_sha0

/-- **C115.** SHA-1 of the library is not collision resistant if the block cipher computes the rounds of FIPS 180-4. -/
theorem C115_code_sha1 {E} (hE : Computes16 E (Sha.sha1Run 1)) (hd : d0.length = 160) :
    AlwaysCollide (cipherHash .sha1 rfl sha1IV E d0 hd) 320 (beMessage (sha1Prefix ++ sha1Pair.1)) (beMessage (sha1Prefix ++ sha1Pair.2)) :=
  alwaysCollide (h := .sha1) _ (fun J garbage cache0 bytes h1 h2 h3 h4 => C27_sha1 J .container garbage cache0 bytes h1 h2 d0 hE h3 h4 hd) C115_sha1

end

/-! The hypotheses can be met: ciphers that compute the rounds. -/

example : AlwaysCollide (cipherHash .md4 rfl md4IV (cipherOf Sha.md4Run) (List.replicate 128 false) List.length_replicate) 64
    (leMessage md4Pair.1) (leMessage md4Pair.2) :=
  C115_code_md4 _ (computes16_cipherOf _) _

example : AlwaysCollide (cipherHash .md5 rfl md4IV (cipherOf Sha.md5Run) (List.replicate 128 false) List.length_replicate) 128
    (leMessage md5Pair.1) (leMessage md5Pair.2) :=
  C115_code_md5 _ (computes16_cipherOf _) _

example : AlwaysCollide (cipherHash .sha0 rfl sha1IV (cipherOf (Sha.sha1Run 0)) (List.replicate 160 false) List.length_replicate) 256
    (beMessage sha0Pair.1) (beMessage sha0Pair.2) :=
  C115_code_sha0 _ (computes16_cipherOf _) _

example : AlwaysCollide (cipherHash .sha1 rfl sha1IV (cipherOf (Sha.sha1Run 1)) (List.replicate 160 false) List.length_replicate) 320
    (beMessage (sha1Prefix ++ sha1Pair.1)) (beMessage (sha1Prefix ++ sha1Pair.2)) :=
  C115_code_sha1 _ (computes16_cipherOf _) _

end Verif.Props
