import Verif.Proof.PackStream
import Verif.Props.Modes
import Verif.Props.MerkleDamgard2
/- C85: length extension of the Merkle–Damgård hashes. -/
namespace Verif.Props

open Spec

variable {σ : Type} {h : MDHash}

/-- What the padding of hash `h` puts behind a message of `n` bits. -/
def padTail (h : MDHash) (n : Nat) : List Bool :=
  (standard h).marker ++
    List.replicate (fillTo (standard h).block (n + (standard h).marker.length + (standard h).length)) false ++
    (standard h).encode n

theorem paddedMessage_tail (h : MDHash) (m : Bits) : paddedMessage h m = m ++ padTail h m.length := by
  unfold paddedMessage mdPad padTail
  simp only [List.append_assoc]

/-- Going on from the chaining value `st` that was reached after `n` bits: the data `s` and the padding for `n` more
bits than `s` has. -/
def resume (h : MDHash) (compress : σ → List Bool → σ) (view : σ → List Bool) (st : σ) (n : Nat) (s : List Bool) :
    List Bool :=
  (view ((blocks (standard h).block (s ++ padTail h (n + s.length))).foldl compress st)).take (standard h).digest

theorem mdDigest_extension (iv : σ) (compress : σ → Bits → σ) (view : σ → Bits) (m s : Bits) :
    mdDigest h iv compress view (m ++ padTail h m.length ++ s) =
      resume h compress view ((blocks (standard h).block (paddedMessage h m)).foldl compress iv)
        (m ++ padTail h m.length).length s := by
  have hB : 0 < (standard h).block := by cases h <;> decide
  have hd : (standard h).block ∣ (paddedMessage h m).length := by
    rw [length_paddedMessage]; exact fillTo_spec hB _
  unfold mdDigest resume
  rw [paddedMessage_tail h (m ++ padTail h m.length ++ s), List.length_append (bs := s),
    ← paddedMessage_tail, List.append_assoc, blocks_append hB hd, List.foldl_append]

/-- C85: length extension.  Let the digest of `h` be the whole chaining value and `unview` read it back.  If one program
feeds a message `m` and another one `m`, its padding and any `s`, the second digest is `resume` applied to the first
digest, the length of `m` and `s`: it needs neither `m` nor the initial value. -/
theorem C85_extension (I : MDInst h σ) (J : Injector) (hfull : (standard h).digest = h.policy.stateBits)
    (unview : Bits → σ) (hun : ∀ st, unview (I.view st) = st)
    (garbage garbage' : Bits) (hgb : garbage.length = h.policy.blockBits) (hgb' : garbage'.length = h.policy.blockBits)
    (ops ops' : List Op) (hwt : ∀ op ∈ ops, op.WellTyped h.policy.blockBits)
    (hwt' : ∀ op ∈ ops', op.WellTyped h.policy.blockBits) (hx : GoodExtracts h.policy.blockBits (GoodMsg h) [] ops) (hx' : GoodExtracts h.policy.blockBits (GoodMsg h) [] ops')
    (hg : GoodMsg h (streamOf h.policy.blockBits ops)) (hg' : GoodMsg h (streamOf h.policy.blockBits ops'))
    (n : Nat) (hn : (streamOf h.policy.blockBits ops).length = n) (s : Bits)
    (hext : streamOf h.policy.blockBits ops' = streamOf h.policy.blockBits ops ++ padTail h n ++ s) :
    ∃ d, (do let (a, _) ← runOps (I.C J) J (Acc.init (I.C J) garbage) [] ops
             a.result (I.C J)) = .ok d ∧
      (do let (a, _) ← runOps (I.C J) J (Acc.init (I.C J) garbage') [] ops'
          a.result (I.C J)) = .ok (resume h I.compress I.view (unview d) (n + (padTail h n).length) s) := by
  subst hn
  obtain ⟨a, e, r⟩ := I.runOps J ops hwt (I.init J garbage hgb) hx []
  obtain ⟨a', e', r'⟩ := I.runOps J ops' hwt' (I.init J garbage' hgb') hx' []
  rw [List.nil_append] at r r'
  rw [e, e']
  refine ⟨_, I.computes J a _ r hg, (I.computes J a' _ r' hg').trans (congrArg _ ?_)⟩
  unfold MDInst.spec
  rw [hext, mdDigest_extension, List.length_append]
  congr 1
  unfold mdDigest
  rw [List.take_of_length_le (Nat.le_of_eq ((I.length_view _).trans hfull.symm)), hun]

/-- A value as a number, most significant bit first. -/
def readBig (b : Bits) : Nat := b.foldl (fun n x => 2 * n + x.toNat) 0

theorem readBig_bigEndian (L n : Nat) (hn : n < 2 ^ L) : readBig (bigEndian L n) = n := by
  have key : ∀ L n a, ((List.range L).map fun i => n.testBit (L - 1 - i)).foldl (fun n x => 2 * n + x.toNat) a =
      a * 2 ^ L + n % 2 ^ L := by
    intro L
    induction L with
    | zero => intro n a; simp [Nat.mod_one]
    | succ L ih =>
      intro n a
      rw [List.range_succ, List.map_append, List.foldl_append]
      have e : ((List.range L).map fun i => n.testBit (L + 1 - 1 - i)) =
          (List.range L).map fun i => (n / 2).testBit (L - 1 - i) := by
        apply List.map_congr_left
        intro i hi
        have hi : i < L := List.mem_range.1 hi
        rw [show L + 1 - 1 - i = (L - 1 - i) + 1 by omega, Nat.testBit_succ]
      rw [e, ih]
      simp only [List.map_cons, List.map_nil, List.foldl_cons, List.foldl_nil, Nat.add_sub_cancel, Nat.sub_self,
        Nat.testBit_zero]
      have h1 : n % 2 ^ (L + 1) = 2 * (n / 2 % 2 ^ L) + n % 2 := by
        rw [Nat.pow_succ', Nat.mod_mul]; omega
      rw [h1, Nat.pow_succ']
      have : (decide (n % 2 = 1)).toNat = n % 2 := by
        rcases Nat.mod_two_eq_zero_or_one n with h | h <;> simp [h]
      rw [this, Nat.mul_add, Nat.mul_left_comm, Nat.add_assoc]
  unfold readBig bigEndian
  rw [key, Nat.zero_mul, Nat.zero_add, Nat.mod_eq_of_lt hn]

/-- A toy hash with 256-bit states that are read back: the whole message matters. -/
def toyFin : MDInst .sha256 (Fin (2 ^ 256)) where
  iv := 5
  compress s b := ⟨toyCompress s.1 b % 2 ^ 256, Nat.mod_lt _ (by decide)⟩
  view s := bigEndian 256 s.1
  length_view := by simp [bigEndian, MDHash.policy]
  digest0 := List.replicate 256 true
  length_digest0 := List.length_replicate

/-- "abc" extended by "d": the 61 octets of padding are `80 00 … 18`. -/
example : ∃ d, (do
      let (a, _) ← runOps (toyFin.C spliceInjector) spliceInjector
        (Acc.init (toyFin.C spliceInjector) (List.replicate 512 true)) [] [feedBytes bigOctetBigBit [97, 98, 99]]
      a.result (toyFin.C spliceInjector)) = .ok d ∧
    (do
      let (a, _) ← runOps (toyFin.C spliceInjector) spliceInjector
        (Acc.init (toyFin.C spliceInjector) (List.replicate 512 false)) []
        [feedBytes bigOctetBigBit [97, 98, 99], feedBytes bigOctetBigBit ([0x80] ++ List.replicate 59 0 ++ [24]),
          feedBytes bigOctetBigBit [100]]
      a.result (toyFin.C spliceInjector)) = .ok (resume .sha256 toyFin.compress toyFin.view
        ⟨readBig d % 2 ^ 256, Nat.mod_lt _ (by decide)⟩ (24 + 488) (bigEndian 8 100)) := by
  have wt : ∀ (bss : List (List Nat)) (op : Op), op ∈ bss.map (feedBytes bigOctetBigBit) → op.WellTyped 512 := by
    intro bss op hop
    obtain ⟨bs, _, rfl⟩ := List.mem_map.1 hop
    exact feedBytes_wellTyped _ _
  have hp : (padTail .sha256 24).length = 488 := by decide +kernel
  rw [← hp]
  exact C85_extension toyFin spliceInjector rfl (fun d => ⟨readBig d % 2 ^ 256, Nat.mod_lt _ (by decide)⟩)
    (by
      intro st
      apply Fin.eq_of_val_eq
      show readBig (bigEndian 256 st.1) % 2 ^ 256 = st.1
      rw [readBig_bigEndian 256 _ st.2, Nat.mod_eq_of_lt st.2])
    (List.replicate 512 true) (List.replicate 512 false) List.length_replicate List.length_replicate
    [feedBytes bigOctetBigBit [97, 98, 99]]
    [feedBytes bigOctetBigBit [97, 98, 99], feedBytes bigOctetBigBit ([0x80] ++ List.replicate 59 0 ++ [24]),
      feedBytes bigOctetBigBit [100]]
    (wt [[97, 98, 99]]) (wt [[97, 98, 99], [0x80] ++ List.replicate 59 0 ++ [24], [100]])
    trivial trivial
    (goodMsg_of_bytes _ (by decide +kernel) (by decide +kernel))
    (goodMsg_of_bytes _ (by decide +kernel) (by decide +kernel)) 24 (by decide +kernel) (bigEndian 8 100)
    (by decide +kernel)

/-- The words of an array are read back from its view. -/
theorem word_arrayView (e : Endian) {w n : Nat} (h8 : 8 ∣ w) (v : Vector (BitVec w) n) :
    Vector.ofFn (fun i : Fin n => e.word w (e.arrayView v) i) = v := by
  apply Vector.ext
  intro i hi
  rw [Vector.getElem_ofFn]
  apply BitVec.eq_of_getLsbD_eq
  intro p hp
  have hq := e.pos_lt h8 hp
  unfold Endian.word Endian.arrayView
  rw [BitVec.getLsbD_ofFnLE, dif_pos hp, List.getD_eq_getElem?_getD,
    getElem?_flatMap_const _ w (by omega) _ (by simp [Endian.view])]
  simp only
  rw [Nat.mul_add_div (by omega), Nat.div_eq_of_lt hq, Nat.add_zero, Nat.mul_add_mod, Nat.mod_eq_of_lt hq,
    Vector.getElem?_toList, Vector.getElem?_eq_getElem hi]
  simp [Endian.view, hq, e.pos_pos h8 hp, BitVec.getLsbD]

/-- C85 for the library's Davies–Meyer hashes with the whole chaining value as digest (SHA-0, SHA-1, SHA-256, SHA-512, MD4,
MD5), any block cipher: who knows the digest and the length of a message knows the digests of its extensions. -/
theorem C85_cipher_hash {w n : Nat} (h8 : 8 ∣ w) (hw : h.policy.stateBits = n * w)
    (hfull : (standard h).digest = h.policy.stateBits) (iv : Vector (BitVec w) n)
    (E : Vector (BitVec w) 16 → Vector (BitVec w) n → Vector (BitVec w) n) (d0 : Bits)
    (hd : d0.length = h.policy.digestBits) (J : Injector)
    (garbage garbage' : Bits) (hgb : garbage.length = h.policy.blockBits) (hgb' : garbage'.length = h.policy.blockBits)
    (ops ops' : List Op) (hwt : ∀ op ∈ ops, op.WellTyped h.policy.blockBits)
    (hwt' : ∀ op ∈ ops', op.WellTyped h.policy.blockBits) (hx : GoodExtracts h.policy.blockBits (GoodMsg h) [] ops) (hx' : GoodExtracts h.policy.blockBits (GoodMsg h) [] ops')
    (hg : GoodMsg h (streamOf h.policy.blockBits ops)) (hg' : GoodMsg h (streamOf h.policy.blockBits ops'))
    (k : Nat) (hk : (streamOf h.policy.blockBits ops).length = k) (s : Bits)
    (hext : streamOf h.policy.blockBits ops' = streamOf h.policy.blockBits ops ++ padTail h k ++ s) :
    ∃ d, (do let (a, _) ← runOps ((cipherHash h hw iv E d0 hd).C J) J
                (Acc.init ((cipherHash h hw iv E d0 hd).C J) garbage) [] ops
             a.result ((cipherHash h hw iv E d0 hd).C J)) = .ok d ∧
      (do let (a, _) ← runOps ((cipherHash h hw iv E d0 hd).C J) J
            (Acc.init ((cipherHash h hw iv E d0 hd).C J) garbage') [] ops'
          a.result ((cipherHash h hw iv E d0 hd).C J)) =
        .ok (resume h (daviesMeyerAdd h.policy.endian E) h.policy.endian.arrayView
          (Vector.ofFn fun i : Fin n => h.policy.endian.word w d i) (k + (padTail h k).length) s) :=
  C85_extension (cipherHash h hw iv E d0 hd) J hfull (fun d => Vector.ofFn fun i : Fin n => h.policy.endian.word w d i)
    (word_arrayView h.policy.endian h8) garbage garbage' hgb hgb' ops ops' hwt hwt' hx hx' hg hg' k hk s hext

/-- SHA-1 with the cipher of the rounds: the empty message, its padding and "d". -/
example := fun garbage garbage' hgb hgb' =>
  C85_cipher_hash (h := .sha1) (w := 32) (n := 5) (by decide) rfl rfl sha1IV (cipherOf (Sha.sha1Run 1))
    (List.replicate 160 true) List.length_replicate spliceInjector garbage garbage' hgb hgb' []
    [feedBytes bigOctetBigBit ([0x80] ++ List.replicate 63 0), feedBytes bigOctetBigBit [100]]
    (by simp) (by intro op hop; simp at hop; rcases hop with rfl | rfl <;> exact feedBytes_wellTyped _ _)
    trivial trivial
    (goodMsg_of_bytes _ (by decide +kernel) (by decide +kernel))
    (goodMsg_of_bytes _ (by decide +kernel) (by decide +kernel)) 0 (by decide +kernel) (bigEndian 8 100)
    (by decide +kernel)

/-- C85: collisions extend.  Two messages of equal length with the same digest keep the same digest when their padding
and the same data are appended. -/
theorem C85_collision_extends (I : MDInst h σ) (hfull : (standard h).digest = h.policy.stateBits)
    (hinj : Function.Injective I.view) (m m' s : Bits) (hl : m.length = m'.length)
    (hcoll : mdDigest h I.iv I.compress I.view m = mdDigest h I.iv I.compress I.view m') :
    mdDigest h I.iv I.compress I.view (m ++ padTail h m.length ++ s) =
      mdDigest h I.iv I.compress I.view (m' ++ padTail h m'.length ++ s) := by
  rw [mdDigest_extension, mdDigest_extension, List.length_append, List.length_append, hl]
  congr 1
  unfold mdDigest at hcoll
  rw [List.take_of_length_le (Nat.le_of_eq ((I.length_view _).trans hfull.symm)),
    List.take_of_length_le (Nat.le_of_eq ((I.length_view _).trans hfull.symm))] at hcoll
  exact hinj hcoll

/-- Two colliding messages of the constant compression function. -/
example : mdDigest .sha256 weak.iv weak.compress weak.view ([true] ++ padTail .sha256 1 ++ [false, true]) =
    mdDigest .sha256 weak.iv weak.compress weak.view ([false] ++ padTail .sha256 1 ++ [false, true]) :=
  C85_collision_extends weak rfl
    (by
      intro x y hxy
      apply Fin.eq_of_val_eq
      apply Nat.eq_of_testBit_eq
      intro i
      by_cases hi : i < 256
      · exact List.map_inj_left.1 hxy i (List.mem_range.2 hi)
      · have hp : (256 : Nat) ≤ 2 ^ i :=
          Nat.le_trans (by decide : 256 ≤ 2 ^ 256) (Nat.pow_le_pow_right (by omega) (by omega))
        rw [Nat.testBit_lt_two_pow (Nat.lt_of_lt_of_le x.isLt hp),
          Nat.testBit_lt_two_pow (Nat.lt_of_lt_of_le y.isLt hp)])
    [true] [false] [false, true] rfl (by decide +kernel)

/-- A compression function that shows the first bit of the message in the low bits of the state only. -/
def hidden : MDInst .sha224 Nat where
  iv := 0
  compress s b := if s = 0 then (b.headD false).toNat + 1 else s * 2 ^ 40
  view := bigEndian 256
  length_view := by simp [bigEndian, MDHash.policy]
  digest0 := List.replicate 224 true
  length_digest0 := List.length_replicate

/-- C85: not so for the truncated hash SHA-224: there are a compression function and two messages of equal length with one
digest whose extensions have two. -/
theorem C85_truncated_false : ∃ m m' s : Bits, m.length = m'.length ∧
    mdDigest .sha224 hidden.iv hidden.compress hidden.view m =
      mdDigest .sha224 hidden.iv hidden.compress hidden.view m' ∧
    mdDigest .sha224 hidden.iv hidden.compress hidden.view (m ++ padTail .sha224 m.length ++ s) ≠
      mdDigest .sha224 hidden.iv hidden.compress hidden.view (m' ++ padTail .sha224 m'.length ++ s) :=
  ⟨bigEndian 8 0, bigEndian 8 255, [], by decide +kernel, by decide +kernel, by decide +kernel⟩

end Verif.Props
