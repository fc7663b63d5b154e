import Verif.Props.XmdUniform
import Verif.Proof.ChainIndiffCount
import Verif.Proof.OracleChange
/-
C112: expand_message_xmd and hash_to_field with a random hash function are indifferentiable from random functions.
-/
namespace Verif.Props

open Spec Spec.Oracle Spec.Ideal Oracle Verif.Ideal

section
variable {b s k : Nat} {c : Fin k → XmdCall} {S : Finset (List Nat)}

theorem chance_all {Ω : Type} [Fintype Ω] [Nonempty Ω] {p : Ω → Prop} (h : ∀ w, p w) : chance p = 1 := by
  classical
  unfold chance
  rw [Finset.filter_true_of_mem fun w _ => h w, Finset.card_univ]
  exact div_self (Nat.cast_ne_zero.2 Fintype.card_ne_zero)

/-! ### expand_message_xmd as a chain -/

/-- What is hashed for block `i + 1`. -/
def xmdNext (hS : ∀ j, Covers S b s (c j)) (j : Fin k) (i : Nat) (d : Digest b) : S :=
  if h : octets d ++ i2osp (i + 1) 1 ++ dstPrime (c j).dst ∈ S then ⟨_, h⟩ else ⟨_, (hS j).1⟩

theorem xmdNext_val (hS : ∀ j, Covers S b s (c j)) {j : Fin k} {i : Nat} (hi : i < (c j).ell) (d : Digest b) :
    (xmdNext hS j i d).1 = octets d ++ i2osp (i + 1) 1 ++ dstPrime (c j).dst := by
  unfold xmdNext
  rw [dif_pos ((hS j).2 d (i + 1) (by omega) (by omega))]

/-- The construction. -/
def xmdChain (hc : Function.Injective c) (ha : ∀ j, Allowed b (c j)) (hb : 0 < b) (hS : ∀ j, Covers S b s (c j)) :
    Chain S (Digest b) (Fin k) where
  ell j := (c j).ell
  first j := ⟨_, (hS j).1⟩
  next := xmdNext hS
  mix := dxor
  first_injective := by
    intro j j' h
    obtain ⟨h1, h2, h3⟩ := C79_msg_prime_injective s (ha j).1 (ha j').1 (ha j).2.2 (ha j').2.2 (congrArg Subtype.val h)
    have h3 := Nat.eq_of_mul_eq_mul_left hb h3
    apply hc
    cases hj : c j
    cases hj' : c j'
    simp only [hj, hj'] at h1 h2 h3
    rw [h1, h2, h3]
  mix_injective e := dxor_right_injective e
  first_ne := by
    intro j j' i d hi h
    have h := congrArg Subtype.val h
    rw [xmdNext_val hS hi] at h
    have h255 := (ha j').2.1
    obtain ⟨h1, -⟩ := append_dstPrime_inj (ha j).1 (ha j').1 h
    rw [i2osp_octet (by omega), i2osp_octet (by omega)] at h1
    have := (List.append_inj' h1 rfl).2
    simp at this
  next_inj := by
    intro j j' i i' d d' hi hi' h
    have h := congrArg Subtype.val h
    rw [xmdNext_val hS hi, xmdNext_val hS hi'] at h
    have h255 := (ha j).2.1
    have h255' := (ha j').2.1
    obtain ⟨h1, -⟩ := append_dstPrime_inj (ha j).1 (ha j').1 h
    rw [i2osp_octet (by omega), i2osp_octet (by omega)] at h1
    obtain ⟨h2, h3⟩ := List.append_inj' h1 rfl
    exact ⟨by simpa using h3, octets_injective h2⟩

/-- It computes expand_message_xmd. -/
theorem xmdChain_expand (hc : Function.Injective c) (ha : ∀ j, Allowed b (c j)) (hb : 0 < b) (hS : ∀ j, Covers S b s (c j))
    (H : Hash S b) (j : Fin k) :
    expandMessageXmd H.apply b s (c j).msg (c j).dst (b * (c j).ell) =
      (List.ofFn fun i : Fin (c j).ell => octets ((xmdChain hc ha hb hS).realOut H j i)).flatten := by
  let C := xmdChain hc ha hb hS
  let v : Outputs b fun _ : Fin 1 => c j := fun _ => C.realOut H j
  have hap : ∀ x (hx : x ∈ S), H.apply x = octets (H ⟨x, hx⟩) := fun x hx => dif_pos hx
  have hblk : ∀ i, i < (c j).ell → outBlock (fun _ : Fin 1 => c j) v 0 i = C.realBlk H j i := fun i hi => dif_pos hi
  refine outputs_of_answers (c := fun _ : Fin 1 => c j) (s := s) (S := S) (fun _ => hS j) hb v (fun _ => H (C.first j)) H ?_ 0
  rintro ⟨t, ⟨i, hi⟩⟩
  obtain rfl : t = 0 := Subsingleton.elim _ _
  rcases i with _ | i
  · exact hap _ (hS j).1
  · have hi' : i < (c j).ell := Nat.lt_of_succ_lt_succ hi
    have hn : ∀ d : Digest b, H.apply (octets d ++ i2osp (i + 1) 1 ++ dstPrime (c j).dst) = octets (H (xmdNext hS j i d)) := by
      intro d
      rw [← xmdNext_val hS hi' d]
      exact hap _ (xmdNext hS j i d).2
    show H.apply (octets (chained (fun _ : Fin 1 => c j) v (fun _ => H (C.first j)) 0 i) ++ _ ++ _) = octets (outBlock (fun _ : Fin 1 => c j) v 0 i)
    rw [hn, hblk i hi']
    rcases i with _ | i
    · rfl
    · show octets (H (xmdNext hS j (i + 1) (dxor _ (outBlock (fun _ : Fin 1 => c j) v 0 i)))) = _
      rw [hblk i (by omega)]
      rfl

/-! ### Outputs as strings and as field elements -/

theorem exists_join {b n : Nat} (v : Fin n → Digest b) : ∃ d : OctetString (b * n), d.toList = (List.ofFn fun i => octets (v i)).flatten := by
  refine eq_octets (n := b * n) (List.ofFn fun i => octets (v i)).flatten ?_ fun x hx => ?_
  · rw [List.length_flatten, List.map_ofFn, show (List.length ∘ fun i => octets (v i)) = fun _ => b from funext fun i => length_octets _,
      List.ofFn_const, List.sum_replicate, smul_eq_mul, Nat.mul_comm]
  · obtain ⟨l, hl, hx⟩ := List.mem_flatten.1 hx
    obtain ⟨i, rfl⟩ := List.mem_ofFn.1 hl
    exact octets_lt _ x hx

/-- The blocks of an output as one string. -/
noncomputable def joinBlocks {b n : Nat} (v : Fin n → Digest b) : OctetString (b * n) := (exists_join v).choose

theorem octets_joinBlocks {b n : Nat} (v : Fin n → Digest b) : (joinBlocks v).toList = (List.ofFn fun i => octets (v i)).flatten :=
  (exists_join v).choose_spec

theorem joinBlocks_bijective {b n : Nat} : Function.Bijective (joinBlocks (b := b) (n := n)) := by
  rw [Fintype.bijective_iff_surjective_and_card]
  refine ⟨fun d => ?_, ?_⟩
  · obtain ⟨v, hv⟩ := octets_mul d
    exact ⟨v, octets_injective ((octets_joinBlocks v).trans hv.symm)⟩
  · show Fintype.card (Fin n → Digest b) = Fintype.card (Digest (b * n))
    rw [Fintype.card_fun, card_digest, card_digest, Fintype.card_fin, pow_mul]

/-- The field elements of a string. -/
def fieldOf {n : Nat} (count m L P : Nat) (hP : 0 < P) (d : OctetString n) : Fin count → Fin m → Fin P := fun i k =>
  ⟨os2ip ((d.toList.drop (L * (k + i * m))).take L) % P, Nat.mod_lt _ hP⟩

theorem elements_fieldOf {n : Nat} (count m L P : Nat) (hP : 0 < P) (d : OctetString n) :
    elements (fieldOf count m L P hP d) = hashToField count m L P d.toList := by
  unfold hashToField elements
  refine List.ext_getElem (by simp) fun i h1 h2 => ?_
  refine List.ext_getElem (by simp) fun k h3 h4 => ?_
  simp only [List.getElem_map, List.getElem_range, List.getElem_ofFn]
  rfl

theorem elements_injective {count m P : Nat} : Function.Injective (elements (count := count) (m := m) (p := P)) := by
  intro u u' h
  funext i k
  have h1 := List.ofFn_injective h
  have h2 := List.ofFn_injective (congrFun h1 i)
  exact Fin.ext (congrFun h2 k)

theorem fieldOf_surjective {count m L P : Nat} (hP : 0 < P) (hPL : P ≤ 256 ^ L) :
    Function.Surjective (fieldOf (n := count * m * L) count m L P hP) := by
  intro u
  have hw : ∀ i k, ∃ w : OctetString L, os2ip w.toList = (u i k).1 := by
    intro i k
    obtain ⟨w, hw⟩ := (os2ip_bijective L).2 ⟨(u i k).1, lt_of_lt_of_le (u i k).2 hPL⟩
    exact ⟨w, congrArg Fin.val hw⟩
  choose w hw using hw
  obtain ⟨d, hd⟩ := exists_slices w
  refine ⟨d, ?_⟩
  funext i k
  apply Fin.ext
  show os2ip (((octets d).drop (L * (k + i * m))).take L) % P = _
  rw [← hd]
  exact (congrArg (· % P) (hw i k)).trans (Nat.mod_eq_of_lt (u i k).2)

open Classical in
/-- The field elements of a uniform string are nearly uniform. -/
theorem fieldOf_close {c : XmdCall} (ha : Allowed b c) (hb : 0 < b) (hS : Covers S b s c) {count m L P : Nat} (hlen : b * c.ell = count * m * L)
    (hP : 0 < P) (hPL : P ≤ 256 ^ L) (p : (Fin count → Fin m → Fin P) → Prop) :
    |(chance fun d : OctetString (b * c.ell) => p (fieldOf count m L P hP d)) - chance p| ≤ (count * m : ℚ) * P / 256 ^ L := by
  let p' : List (List Nat) → Prop := fun l => ∃ u, elements u = l ∧ p u
  have hp' : ∀ u, p' (elements u) ↔ p u := fun u => ⟨fun ⟨u', h, hu⟩ => elements_injective h ▸ hu, fun hu => ⟨u, rfl, hu⟩⟩
  have hinj : Function.Injective fun _ : Fin 1 => c := fun i j _ => Subsingleton.elim i j
  have h1 := C97_joint (s := s) (c := fun _ : Fin 1 => c) hinj (fun _ => ha) (ell := c.ell) (fun _ => le_rfl) hb (fun _ => hS)
    fun w => p' (hashToField count m L P (w 0))
  have h2 := C97_hash_to_field (s := s) (c := fun _ : Fin 1 => c) hinj (fun _ => ha) (ell := c.ell) (fun _ => le_rfl) hb (fun _ => hS)
    (fun _ => hlen) hP hPL fun w => p' (w 0)
  have h0 : ((1 : Nat) * ((1 : Nat) - 1) / 2 : ℚ) * c.ell / 256 ^ b = 0 := by simp
  rw [h0] at h1
  rw [h0, zero_add, Nat.cast_one, one_mul] at h2
  have h1 := sub_eq_zero.1 (abs_nonpos_iff.1 h1)
  rw [h1] at h2
  have e1 : (chance fun d : OctetString (b * c.ell) => p (fieldOf count m L P hP d)) =
      chance fun u : Fin 1 → OctetString (b * c.ell) => p' (hashToField count m L P (u 0).toList) := by
    rw [← chance_equiv (Equiv.funUnique (Fin 1) (OctetString (b * c.ell)))]
    congr 1
    funext u
    rw [← elements_fieldOf count m L P hP]
    exact propext (hp' _).symm
  have e2 : chance p = chance fun u : Fin 1 → Fin count → Fin m → Fin P => p' (elements (u 0)) := by
    rw [← chance_equiv (Equiv.funUnique (Fin 1) (Fin count → Fin m → Fin P))]
    congr 1
    funext u
    exact propext (hp' _).symm
  rw [e1, e2]
  unfold chance
  unfold Oracle.prob at h2
  convert h2

/-! ### The theorems -/

variable {Q : Type*} {A : Type}

/-- The blocks of an output of the chain as one string. -/
noncomputable def xmdJoin (hc : Function.Injective c) (ha : ∀ j, Allowed b (c j)) (hb : 0 < b) (hS : ∀ j, Covers S b s (c j)) (j : Fin k)
    (v : Fin ((xmdChain hc ha hb hS).ell j) → Digest b) : OctetString (b * (c j).ell) := joinBlocks v

theorem xmdJoin_bijective (hc : Function.Injective c) (ha : ∀ j, Allowed b (c j)) (hb : 0 < b) (hS : ∀ j, Covers S b s (c j)) (j : Fin k) :
    Function.Bijective (xmdJoin hc ha hb hS j) := joinBlocks_bijective

theorem xmdJoin_realOut (hc : Function.Injective c) (ha : ∀ j, Allowed b (c j)) (hb : 0 < b) (hS : ∀ j, Covers S b s (c j)) (H : Hash S b)
    (j : Fin k) : (xmdJoin hc ha hb hS j ((xmdChain hc ha hb hS).realOut H j)).toList =
      expandMessageXmd H.apply b s (c j).msg (c j).dst (b * (c j).ell) :=
  (octets_joinBlocks _).trans (xmdChain_expand hc ha hb hS H j).symm

/-- The simulator of the hash function in a world with a random function to strings. -/
noncomputable def xmdSimulator (hc : Function.Injective c) (ha : ∀ j, Allowed b (c j)) (hb : 0 < b) (hS : ∀ j, Covers S b s (c j)) :
    HashSimulator (Fin k) (fun j => OctetString (b * (c j).ell)) S (Digest b) :=
  through (xmdJoin hc ha hb hS) (xmdChain hc ha hb hS).simulator

/-- The simulator of the hash function in a world with a random function to field elements. -/
noncomputable def fieldSimulator (hc : Function.Injective c) (ha : ∀ j, Allowed b (c j)) (hb : 0 < b) (hS : ∀ j, Covers S b s (c j))
    (count m L P : Nat) (hP : 0 < P) : HashSimulator (Fin k) (fun _ => Fin count → Fin m → Fin P) S (Digest b) :=
  through (fun _ => fieldOf count m L P hP) (xmdSimulator hc ha hb hS)

/-- C112: expand_message_xmd with a random hash function is indifferentiable from a random function. -/
theorem C112_simulated (hc : Function.Injective c) (ha : ∀ j, Allowed b (c j)) {ell : Nat} (hL : ∀ j, (c j).ell ≤ ell) (h0 : 0 < ell)
    (hb : 0 < b) (hS : ∀ j, Covers S b s (c j)) (msg : Q → Fin k) (wrap : Q → List Nat → A) (P : Caller Q A S (Digest b)) (N : Nat)
    (hP : P.AtMost N) :
    |(chance fun H : Hash S b => P.real (fun q =>
        wrap q (expandMessageXmd H.apply b s (c (msg q)).msg (c (msg q)).dst (b * (c (msg q)).ell))) H = true) -
      P.idealChance msg (fun q d => wrap q d.toList) (xmdSimulator hc ha hb hS)| ≤ (N * (N - 1) / 2 : ℚ) * ell / 256 ^ b := by
  have h1 := (xmdChain hc ha hb hS).indifferentiable msg (fun q v => wrap q (xmdJoin hc ha hb hS _ v).toList) hL h0 P N hP
  have h2 := change (xmdJoin hc ha hb hS) msg (fun q d => wrap q d.toList) (fun j => (xmdJoin_bijective hc ha hb hS j).2)
    (δ := 0) le_rfl (fun j p => by
      have := chance_equiv (Equiv.ofBijective _ (xmdJoin_bijective hc ha hb hS j)) p
      rw [← this, Equiv.coe_ofBijective, sub_self, abs_zero])
    (xmdChain hc ha hb hS).simulator ⟨fun _ _ => 0⟩ P N hP
  rw [mul_zero] at h2
  have h2 := sub_eq_zero.1 (abs_nonpos_iff.1 h2)
  simp only [xmdJoin_realOut] at h1
  rw [card_digest, Nat.cast_pow, Nat.cast_ofNat, chance_inst _ inferInstance _, idealChance_inst _ inferInstance _ _ _ _, h2] at h1
  exact h1

/-- C112 for hash_to_field. -/
theorem C112_field_simulated (hc : Function.Injective c) (ha : ∀ j, Allowed b (c j)) {ell : Nat} (hL : ∀ j, (c j).ell ≤ ell) (h0 : 0 < ell)
    (hb : 0 < b) (hS : ∀ j, Covers S b s (c j)) {count m L p : Nat} (hlen : ∀ j, b * (c j).ell = count * m * L) (hp : 0 < p)
    (hpL : p ≤ 256 ^ L) (msg : Q → Fin k) (wrap : Q → List (List Nat) → A) (P : Caller Q A S (Digest b)) (N : Nat) (hP : P.AtMost N) :
    |(chance fun H : Hash S b => P.real (fun q => wrap q (hashToField count m L p
        (expandMessageXmd H.apply b s (c (msg q)).msg (c (msg q)).dst (b * (c (msg q)).ell)))) H = true) -
      P.idealChance msg (fun q u => wrap q (elements u)) (fieldSimulator hc ha hb hS count m L p hp)| ≤
      (N * (N - 1) / 2 : ℚ) * ell / 256 ^ b + N * ((count * m : ℚ) * p / 256 ^ L) := by
  have h1 := C112_simulated hc ha hL h0 hb hS msg (fun q l => wrap q (hashToField count m L p l)) P N hP
  have h2 := change (fun j => fieldOf (n := b * (c j).ell) count m L p hp) msg (fun q u => wrap q (elements u))
    (fun j => by rw [hlen j]; exact fieldOf_surjective hp hpL) (δ := (count * m : ℚ) * p / 256 ^ L) (by positivity)
    (fun j r => by
      have := fieldOf_close (ha j) hb (hS j) (hlen j) hp hpL r
      convert this)
    (xmdSimulator hc ha hb hS) ⟨(fun j u => ⟨((xmdJoin_bijective hc ha hb hS j).2 u).choose, ((xmdJoin_bijective hc ha hb hS j).2 u).choose_spec⟩, fun _ _ => 0)⟩ P N hP
  simp only [elements_fieldOf] at h2
  refine le_trans (abs_sub_le _ _ _) (add_le_add h1 ?_)
  exact h2

/-! ### Existence of simulators -/

/-- **C112.** expand_message_xmd with a random hash function is indifferentiable from a random function: some simulator answers the
queries to the hash function such that no distinguisher with `N` calls of either kind sees a difference above
`N(N-1)/2 · ell / 256^b`. -/
theorem C112_indifferentiable (hc : Function.Injective c) (ha : ∀ j, Allowed b (c j)) {ell : Nat} (hL : ∀ j, (c j).ell ≤ ell)
    (h0 : 0 < ell) (hb : 0 < b) (hS : ∀ j, Covers S b s (c j)) :
    ∃ Sim : HashSimulator (Fin k) (fun j => OctetString (b * (c j).ell)) S (Digest b),
      ∀ (P : Caller (Fin k) (List Nat) S (Digest b)) (N : Nat), P.AtMost N →
        |(chance fun H : Hash S b => P.real (fun j => expandMessageXmd H.apply b s (c j).msg (c j).dst (b * (c j).ell)) H = true) -
          P.idealChance id (fun _ d => d.toList) Sim| ≤ (N * (N - 1) / 2 : ℚ) * ell / 256 ^ b :=
  ⟨xmdSimulator hc ha hb hS, C112_simulated hc ha hL h0 hb hS id fun _ l => l⟩

/-- **C112, hash_to_field.** hash_to_field over it is indifferentiable from a random function to the field. -/
theorem C112_hash_to_field (hc : Function.Injective c) (ha : ∀ j, Allowed b (c j)) {ell : Nat} (hL : ∀ j, (c j).ell ≤ ell)
    (h0 : 0 < ell) (hb : 0 < b) (hS : ∀ j, Covers S b s (c j)) {count m L p : Nat} (hlen : ∀ j, b * (c j).ell = count * m * L)
    (hp : 0 < p) (hpL : p ≤ 256 ^ L) :
    ∃ Sim : HashSimulator (Fin k) (fun _ => Fin count → Fin m → Fin p) S (Digest b),
      ∀ (P : Caller (Fin k) (List (List Nat)) S (Digest b)) (N : Nat), P.AtMost N →
        |(chance fun H : Hash S b => P.real (fun j => hashToField count m L p
            (expandMessageXmd H.apply b s (c j).msg (c j).dst (b * (c j).ell))) H = true) -
          P.idealChance id (fun _ u => elements u) Sim| ≤
          (N * (N - 1) / 2 : ℚ) * ell / 256 ^ b + N * ((count * m : ℚ) * p / 256 ^ L) :=
  ⟨fieldSimulator hc ha hb hS count m L p hp, C112_field_simulated hc ha hL h0 hb hS hlen hp hpL id fun _ l => l⟩

/-! ### The code -/

/-- **C112, the code.** The calls of the distinguisher are calls of the accumulator: a message, fed by some operations, is extracted
once. -/
theorem C112_code {σ δ ρ : Type} {limit : Nat} {Par : Hash S b → Nat → XmdParams σ δ} {Good : Hash S b → Bits → Prop}
    {Hf : Hash S b → Bits → δ} (R : RandomHash S b s limit Par Good Hf) (hc : Function.Injective c) (ha : ∀ j, Allowed b (c j))
    {ell : Nat} (hL : ∀ j, (c j).ell ≤ ell) (h0 : 0 < ell) (hell : ∀ j, 0 < (c j).ell) (hdst : ∀ j, 16 ≤ (c j).dst.length) (hb : 0 < b)
    (hS : ∀ j, Covers S b s (c j)) (post : Fin k → List Nat → Except Fault ρ) (F : Fin k → List Nat → ρ)
    (hpost : ∀ j (bytes : List Nat), bytes.length = b * (c j).ell → post j bytes = .ok (F j bytes))
    (garbage : Nat → Bits) (hg : ∀ i, (garbage i).length = 8 * s) (out0 : Fin k → List Nat) (hout : ∀ j, (out0 j).length = b * (c j).ell) :
    ∃ out : Hash S b → (Σ j, Fed s limit b (c j)) → ρ,
      (∀ H q, ∃ a a', (Par H (b * (c q.1).ell)).init (garbage 0) = .ok a ∧
        (Par H (b * (c q.1).ell)).run garbage (out0 q.1) (c q.1).dst (post q.1) a [] (q.2.ops ++ [.extract]) = .ok (a', [out H q])) ∧
      ∃ Sim : HashSimulator (Fin k) (fun j => OctetString (b * (c j).ell)) S (Digest b),
        ∀ (P : Caller (Σ j, Fed s limit b (c j)) ρ S (Digest b)) (N : Nat), P.AtMost N →
          |(chance fun H : Hash S b => P.real (out H) H = true) - P.idealChance (fun q => q.1) (fun q d => F q.1 d.toList) Sim| ≤
            (N * (N - 1) / 2 : ℚ) * ell / 256 ^ b := by
  refine ⟨fun H q => F q.1 (expandMessageXmd H.apply b s (c q.1).msg (c q.1).dst (b * (c q.1).ell)), fun H q => ?_,
    xmdSimulator hc ha hb hS, fun P N hP => ?_⟩
  · exact random_run R (ha q.1) (hell q.1) (hdst q.1) hb (hS q.1) (post q.1) (F q.1) (hpost q.1) q.2 garbage hg (out0 q.1) (hout q.1) H
  · exact C112_simulated hc ha hL h0 hb hS (fun q : Σ j, Fed s limit b (c j) => q.1) (fun q => F q.1) P N hP

/-- **C112, the code of `h2f`.** -/
theorem C112_code_field {σ δ : Type} {limit : Nat} {Par : Hash S b → Nat → XmdParams σ δ} {Good : Hash S b → Bits → Prop}
    {Hf : Hash S b → Bits → δ} (R : RandomHash S b s limit Par Good Hf) (hc : Function.Injective c) (ha : ∀ j, Allowed b (c j))
    {ell : Nat} (hL : ∀ j, (c j).ell ≤ ell) (h0 : 0 < ell) (hell : ∀ j, 0 < (c j).ell) (hdst : ∀ j, 16 ≤ (c j).dst.length) (hb : 0 < b)
    (hS : ∀ j, Covers S b s (c j)) {count m L p : Nat} (hlen : ∀ j, b * (c j).ell = count * m * L) (hp : 0 < p) (hpL : p ≤ 256 ^ L)
    (garbage : Nat → Bits) (hg : ∀ i, (garbage i).length = 8 * s) (out0 : Fin k → List Nat) (hout : ∀ j, (out0 j).length = b * (c j).ell) :
    ∃ out : Hash S b → (Σ j, Fed s limit b (c j)) → List (List Nat),
      (∀ H q, ∃ a a', (Par H (b * (c q.1).ell)).init (garbage 0) = .ok a ∧
        (Par H (b * (c q.1).ell)).run garbage (out0 q.1) (c q.1).dst (h2fProcess count m L p) a [] (q.2.ops ++ [.extract]) =
          .ok (a', [out H q])) ∧
      ∃ Sim : HashSimulator (Fin k) (fun _ => Fin count → Fin m → Fin p) S (Digest b),
        ∀ (P : Caller (Σ j, Fed s limit b (c j)) (List (List Nat)) S (Digest b)) (N : Nat), P.AtMost N →
          |(chance fun H : Hash S b => P.real (out H) H = true) - P.idealChance (fun q => q.1) (fun _ u => elements u) Sim| ≤
            (N * (N - 1) / 2 : ℚ) * ell / 256 ^ b + N * ((count * m : ℚ) * p / 256 ^ L) := by
  refine ⟨fun H q => hashToField count m L p (expandMessageXmd H.apply b s (c q.1).msg (c q.1).dst (b * (c q.1).ell)), fun H q => ?_,
    fieldSimulator hc ha hb hS count m L p hp, fun P N hP => ?_⟩
  · exact random_run R (ha q.1) (hell q.1) (hdst q.1) hb (hS q.1) _ _ (fun bytes hb => C40_hash_to_field count m L p bytes (hb.trans (hlen q.1)))
      q.2 garbage hg (out0 q.1) (hout q.1) H
  · exact C112_field_simulated hc ha hL h0 hb hS hlen hp hpL (fun q : Σ j, Fed s limit b (c j) => q.1) (fun _ l => l) P N hP

end

/-- **C112, the suites of the library** (digests of 32 octets, `count` elements with `m` coordinates modulo the prime of BLS12-381):
`N(N-1) · count·m / 2^256 + N · count·m / 2^131`. -/
theorem C112_bls12381 {s k : Nat} {c : Fin k → XmdCall} {S : Finset (List Nat)} (hc : Function.Injective c)
    (ha : ∀ j, Allowed 32 (c j)) (hS : ∀ j, Covers S 32 s (c j)) {count m : Nat} (hcm : 0 < count * m)
    (hlen : ∀ j, (c j).ell = 2 * (count * m)) :
    ∃ Sim : HashSimulator (Fin k) (fun _ => Fin count → Fin m → Fin bls12381P) S (Digest 32),
      ∀ (P : Caller (Fin k) (List (List Nat)) S (Digest 32)) (N : Nat), P.AtMost N →
        |(chance fun H : Hash S 32 => P.real (fun j => hashToField count m 64 bls12381P
            (expandMessageXmd H.apply 32 s (c j).msg (c j).dst (32 * (c j).ell))) H = true) -
          P.idealChance id (fun _ u => elements u) Sim| ≤
          (N * (N - 1) : ℚ) * (count * m) / 2 ^ 256 + (N * (count * m) : ℚ) / 2 ^ 131 := by
  have hP : (bls12381P : ℚ) ≤ 2 ^ 381 := by
    have : bls12381P ≤ 2 ^ 381 := by decide
    exact_mod_cast this
  obtain ⟨Sim, h⟩ := C112_hash_to_field hc ha (ell := 2 * (count * m)) (fun j => le_of_eq (hlen j)) (by omega) (by omega) hS
    (count := count) (m := m) (L := 64) (p := bls12381P) (fun j => by rw [hlen j]; ring) (by decide) (by decide +kernel)
  refine ⟨Sim, fun P N hN => le_trans (h P N hN) (add_le_add (le_of_eq ?_) ?_)⟩
  · rw [show (256 : ℚ) ^ 32 = 2 ^ 256 by norm_num]
    push_cast
    ring
  · rw [show (256 : ℚ) ^ 64 = 2 ^ 381 * 2 ^ 131 by rw [← pow_add, show (256 : ℚ) = 2 ^ 8 by norm_num, ← pow_mul], ← mul_div_assoc,
      div_le_div_iff₀ (by positivity) (by positivity)]
    have h0 : (0 : ℚ) ≤ N * (count * m) := by positivity
    calc (N * ((count * m) * bls12381P) : ℚ) * 2 ^ 131 ≤ (N * ((count * m) * 2 ^ 381)) * 2 ^ 131 := by gcongr
      _ = _ := by ring

/-! ### Examples -/

/-- Three calls, outputs of 256 octets, 1000 questions. -/
example : ∃ Sim : HashSimulator (Fin 3) (fun j => OctetString (32 * (threeCalls j).ell)) (callStrings 32 64 threeCalls) (Digest 32),
    ∀ P : Caller (Fin 3) (List Nat) (callStrings 32 64 threeCalls) (Digest 32), P.AtMost 1000 →
      |(chance fun H : Hash (callStrings 32 64 threeCalls) 32 => P.real (fun j =>
          expandMessageXmd H.apply 32 64 (threeCalls j).msg (threeCalls j).dst (32 * (threeCalls j).ell)) H = true) -
        P.idealChance id (fun _ d => d.toList) Sim| ≤ 3996000 / 256 ^ 32 := by
  obtain ⟨Sim, h⟩ := C112_indifferentiable threeCalls_injective threeCalls_allowed (ell := 8) (by decide) (by omega) (by omega)
    (covers_callStrings 32 64 threeCalls)
  refine ⟨Sim, fun P hP => le_trans (h P 1000 hP) (le_of_eq ?_)⟩
  norm_num

/-- The suite BLS12381G2. -/
example : ∃ Sim : HashSimulator (Fin 3) (fun _ => Fin 2 → Fin 2 → Fin bls12381P) (callStrings 32 64 threeCalls) (Digest 32),
    ∀ (P : Caller (Fin 3) (List (List Nat)) (callStrings 32 64 threeCalls) (Digest 32)) (N : Nat), P.AtMost N →
      |(chance fun H : Hash (callStrings 32 64 threeCalls) 32 => P.real (fun j => hashToField 2 2 64 bls12381P
          (expandMessageXmd H.apply 32 64 (threeCalls j).msg (threeCalls j).dst (32 * (threeCalls j).ell))) H = true) -
        P.idealChance id (fun _ u => elements u) Sim| ≤ (N * (N - 1) : ℚ) * (2 * 2) / 2 ^ 256 + (N * (2 * 2) : ℚ) / 2 ^ 131 :=
  C112_bls12381 threeCalls_injective threeCalls_allowed (covers_callStrings 32 64 threeCalls) (count := 2) (m := 2) (by decide) (by decide)

/-- A toy field: four octets modulo 5 from a hash with digests of two octets. -/
example : ∃ Sim : HashSimulator (Fin 1) (fun _ => Fin 1 → Fin 2 → Fin 5) (callStrings 2 4 fun _ : Fin 1 => ⟨[7], [8], 2⟩) (Digest 2),
    ∀ (P : Caller (Fin 1) (List (List Nat)) (callStrings 2 4 fun _ : Fin 1 => ⟨[7], [8], 2⟩) (Digest 2)) (N : Nat), P.AtMost N →
      |(chance fun H : Hash (callStrings 2 4 fun _ : Fin 1 => ⟨[7], [8], 2⟩) 2 => P.real (fun _ => hashToField 1 2 2 5
          (expandMessageXmd H.apply 2 4 [7] [8] (2 * 2))) H = true) -
        P.idealChance id (fun _ u => elements u) Sim| ≤
        (N * (N - 1) / 2 : ℚ) * (2 : Nat) / 256 ^ 2 + N * (((1 : Nat) * (2 : Nat) : ℚ) * (5 : Nat) / 256 ^ 2) :=
  C112_hash_to_field (c := fun _ : Fin 1 => ⟨[7], [8], 2⟩) (fun i j _ => Subsingleton.elim i j) (fun _ => by unfold Allowed; decide)
    (ell := 2) (fun _ => le_rfl) (by decide) (by decide) (covers_callStrings 2 4 _) (fun _ => rfl) (by decide) (by decide)

/-- One call with one block of output. -/
def oneCall : Fin 1 → XmdCall := fun _ => ⟨[7], [8], 1⟩

theorem oneCall_allowed (j : Fin 1) : Allowed 2 (oneCall j) := by
  revert j
  unfold Allowed
  decide

/-- The distinguisher that computes the output itself and compares. -/
def comparer {S : Finset (List Nat)} (hS : Covers S 2 4 (oneCall 0)) : Caller (Fin 1) (List Nat) S (Digest 2) :=
  .call 0 fun out => .hash ⟨_, hS.1⟩ fun β => .hash ⟨_, hS.2 β 1 (by decide) (by decide)⟩ fun d => .done (decide (octets d = out))

theorem comparer_real {S : Finset (List Nat)} (hS : Covers S 2 4 (oneCall 0)) (H : Hash S 2) :
    (comparer hS).real (fun j => expandMessageXmd H.apply 2 4 (oneCall j).msg (oneCall j).dst (2 * (oneCall j).ell)) H = true := by
  have hap : ∀ x (hx : x ∈ S), octets (H ⟨x, hx⟩) = H.apply x := fun x hx => by unfold Hash.apply; rw [dif_pos hx]
  refine decide_eq_true ?_
  rw [hap, hap]
  have : (H.apply (H.apply (msgPrime 4 [7] [8] 2) ++ i2osp 1 1 ++ dstPrime [8])).length = 2 := (apply_octets H _).1
  show _ = List.take 2 (([H.apply (H.apply (msgPrime 4 [7] [8] 2) ++ i2osp 1 1 ++ dstPrime [8])] : List (List Nat)).flatten)
  rw [List.flatten_singleton, List.take_of_length_le this.le]
  rfl

/-- It always accepts in the real world, so with the simulator it accepts with a probability of at least `1 - 3/65536`. -/
example : ∃ Sim : HashSimulator (Fin 1) (fun j => OctetString (2 * (oneCall j).ell)) (callStrings 2 4 oneCall) (Digest 2),
    1 - 3 / 65536 ≤ (comparer (covers_callStrings 2 4 oneCall 0)).idealChance id (fun _ d => d.toList) Sim := by
  obtain ⟨Sim, h⟩ := C112_indifferentiable (c := oneCall) (fun i j _ => Subsingleton.elim i j) oneCall_allowed
    (ell := 1) (fun _ => le_rfl) (by omega) (by omega) (covers_callStrings 2 4 oneCall)
  refine ⟨Sim, ?_⟩
  have h1 := h (comparer (covers_callStrings 2 4 oneCall 0)) 3 (fun _ _ _ => trivial)
  rw [chance_all (comparer_real (covers_callStrings 2 4 oneCall 0))] at h1
  have := (abs_le.1 h1).2
  norm_num at this ⊢
  linarith

/-- The accumulator around a random function: all ways to feed the three messages. -/
example : ∃ out : Hash (callStrings 32 64 threeCalls) 32 → (Σ j, Fed 64 (2 ^ 60) 32 (threeCalls j)) → List (List Nat),
    (∀ H q, ∃ a a', (collectingXmd H (32 * (threeCalls q.1).ell)).init (List.replicate 512 false) = .ok a ∧
      (collectingXmd H (32 * (threeCalls q.1).ell)).run (fun _ => List.replicate 512 false) (List.replicate (32 * (threeCalls q.1).ell) 0)
        (threeCalls q.1).dst (h2fProcess 2 2 64 bls12381P) a [] (q.2.ops ++ [.extract]) = .ok (a', [out H q])) ∧
    ∃ Sim : HashSimulator (Fin 3) (fun _ => Fin 2 → Fin 2 → Fin bls12381P) (callStrings 32 64 threeCalls) (Digest 32),
      ∀ (P : Caller (Σ j, Fed 64 (2 ^ 60) 32 (threeCalls j)) (List (List Nat)) (callStrings 32 64 threeCalls) (Digest 32)) (N : Nat),
        P.AtMost N → |(chance fun H : Hash (callStrings 32 64 threeCalls) 32 => P.real (out H) H = true) -
          P.idealChance (fun q => q.1) (fun _ u => elements u) Sim| ≤
          (N * (N - 1) / 2 : ℚ) * (8 : Nat) / 256 ^ 32 + N * (((2 : Nat) * (2 : Nat) : ℚ) * bls12381P / 256 ^ 64) :=
  C112_code_field (collectingXmd_random threeCalls_strings) threeCalls_injective threeCalls_allowed (by decide) (by omega) (by decide)
    (by decide) (by omega) (covers_callStrings 32 64 threeCalls) (by decide) (by decide) (by decide +kernel) _
    (fun _ => List.length_replicate) (fun j => List.replicate (32 * (threeCalls j).ell) 0) fun _ => List.length_replicate

/-- There are calls: each message in one range. -/
example : Nonempty (Σ j, Fed 64 (2 ^ 60) 32 (threeCalls j)) := ⟨⟨0, feedWhole _ (by decide)⟩⟩

/-- The same without post-processing. -/
example : ∃ out : Hash (callStrings 32 64 threeCalls) 32 → (Σ j, Fed 64 (2 ^ 60) 32 (threeCalls j)) → List Nat,
    (∀ H q, ∃ a a', (collectingXmd H (32 * (threeCalls q.1).ell)).init (List.replicate 512 false) = .ok a ∧
      (collectingXmd H (32 * (threeCalls q.1).ell)).run (fun _ => List.replicate 512 false) (List.replicate (32 * (threeCalls q.1).ell) 0)
        (threeCalls q.1).dst (fun bytes => .ok bytes) a [] (q.2.ops ++ [.extract]) = .ok (a', [out H q])) ∧
    ∃ Sim : HashSimulator (Fin 3) (fun j => OctetString (32 * (threeCalls j).ell)) (callStrings 32 64 threeCalls) (Digest 32),
      ∀ (P : Caller (Σ j, Fed 64 (2 ^ 60) 32 (threeCalls j)) (List Nat) (callStrings 32 64 threeCalls) (Digest 32)) (N : Nat),
        P.AtMost N → |(chance fun H : Hash (callStrings 32 64 threeCalls) 32 => P.real (out H) H = true) -
          P.idealChance (fun q => q.1) (fun _ d => d.toList) Sim| ≤ (N * (N - 1) / 2 : ℚ) * (8 : Nat) / 256 ^ 32 :=
  C112_code (collectingXmd_random threeCalls_strings) threeCalls_injective threeCalls_allowed (by decide) (by omega) (by decide)
    (by decide) (by omega) (covers_callStrings 32 64 threeCalls) (fun _ bytes => .ok bytes) (fun _ bytes => bytes) (fun _ _ _ => rfl) _
    (fun _ => List.length_replicate) (fun j => List.replicate (32 * (threeCalls j).ell) 0) fun _ => List.length_replicate

end Verif.Props
