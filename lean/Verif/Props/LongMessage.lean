import Verif.Proof.FreshKeys
import Verif.Props.BirthdayPoseidon
import Verif.Props.SecondPreimage
import Verif.Props.Multicollision
import Verif.Props.PrefixMac
/-
C121: the bound of C113 for the Merkle-Damgård hashes is attained: second preimages of long messages over a random cipher, with
fixed points of the compression function.
-/
namespace Verif.Props

open Spec Spec.Ideal Verif.Ideal

section attack
variable {K X : Type} {a b l c : Nat}

/-! ### The queries -/

/-- Decrypt `y` under the keys. -/
def askFixed (k : Fin a → K) (y : X) : Attacker K X (Fin a → X) :=
  askBack (List.ofFn fun i => (k i, y)) fun z i => z.getD i y

theorem atMost_askFixed (k : Fin a → K) (y : X) : (askFixed k y).AtMost a := by
  have := atMost_askBack (List.ofFn fun i => (k i, y)) fun z (i : Fin a) => z.getD i y
  rwa [List.length_ofFn] at this

theorem result_askFixed (E : Cipher K X) (k : Fin a → K) (y : X) : (askFixed k y).result E = fun i => (E (k i)).symm y := by
  unfold askFixed
  rw [result_askBack]
  funext i
  rw [List.getD_eq_getElem?_getD, List.getElem?_map, List.getElem?_ofFn]
  simp

/-- The chaining values along a list of keys. -/
def trail (add : X → X → X) (E : Cipher K X) : List K → X → List X
  | [], _ => []
  | k :: ks, v => add v (E k v) :: trail add E ks (add v (E k v))

/-- The attacker that computes them. -/
def askTrail (add : X → X → X) : List K → X → Attacker K X (List X)
  | [], _ => .done []
  | k :: ks, v => .ask .enc k v fun y => andThen (askTrail add ks (add v y)) fun t => .done (add v y :: t)

theorem atMost_askTrail (add : X → X → X) (ks : List K) (v : X) : (askTrail add ks v).AtMost ks.length := by
  induction ks generalizing v with
  | nil => trivial
  | cons k ks ih => exact fun y => atMost_andThen (l := 0) (ih _) fun t => trivial

theorem result_askTrail (add : X → X → X) (E : Cipher K X) (ks : List K) (v : X) : (askTrail add ks v).result E = trail add E ks v := by
  induction ks generalizing v with
  | nil => rfl
  | cons k ks ih =>
    show (andThen (askTrail add ks (add v (E k v))) fun t => .done (add v (E k v) :: t)).result E = _
    rw [result_andThen, ih]
    rfl

/-- The chaining value after `s` keys. -/
def trailAt (add : X → X → X) (E : Cipher K X) (k : Fin l → K) (iv : X) (s : Nat) : X :=
  ((List.ofFn k).take s).foldl (fun v k => add v (E k v)) iv

theorem getElem_trail (add : X → X → X) (E : Cipher K X) (ks : List K) (v : X) (s : Nat) (hs : s < ks.length) :
    (trail add E ks v)[s]? = some ((ks.take (s + 1)).foldl (fun v k => add v (E k v)) v) := by
  induction ks generalizing v s with
  | nil => cases hs
  | cons k ks ih =>
    rcases s with _ | s
    · rfl
    · exact ih _ s (by simpa using hs)

theorem trailAt_succ (add : X → X → X) (E : Cipher K X) (k : Fin l → K) (iv : X) (s : Fin l) :
    trailAt add E k iv (s + 1) = add (trailAt add E k iv s) (E (k s) (trailAt add E k iv s)) := by
  unfold trailAt
  rw [List.take_succ, List.foldl_append, List.getElem?_ofFn, dif_pos s.2]
  rfl

/-- All the keys: for the first block, for the fixed points, for the given message and for the link. -/
abbrev Slot (a b l c : Nat) := (Fin b ⊕ Fin a) ⊕ (Fin (l + 1) ⊕ Fin c)

variable [DecidableEq X]

/-- A fixed point that a first block leads to. -/
def meeting (x : Fin a → X) (y : Fin b → X) : Option (Fin a × Fin b) := pickMeet (fun i j => some (i, j)) none x y

theorem meeting_spec (x : Fin a → X) (y : Fin b → X) (he : ∃ i j, x i = y j) : ∃ i j, x i = y j ∧ meeting x y = some (i, j) :=
  pickMeet_spec _ _ x y he

/-- The chaining value there. -/
def meetingPoint (iv : X) (x : Fin a → X) (y : Fin b → X) : X := (meeting x y).elim iv fun p => x p.1

/-- Fixed points, first blocks, the chaining values of the given message, and the values that the links lead to from the fixed point
found.  The result is built from the fixed point, the first block, the place in the message and the link. -/
def longAttack {R : Type _} (add : X → X → X) (zero iv : X) (k : Slot a b l c → K) (build : Fin a → Fin b → Fin l → Fin c → R) (none : R) :
    Attacker K X R :=
  andThen (askFixed (fun i => k (.inl (.inr i))) zero) fun x =>
  andThen (askFamily (fun j => k (.inl (.inl j))) (fun _ => iv) (fun _ => add iv) id) fun y =>
  andThen (askTrail add (List.ofFn fun s => k (.inr (.inl s))) iv) fun t =>
  askFamily (fun u => k (.inr (.inr u))) (fun _ => meetingPoint iv x y) (fun _ => add (meetingPoint iv x y)) fun z =>
    match meeting x y with
    | some p => pickMeet (build p.1 p.2) none (fun s : Fin l => t.getD (s + 1) iv) z
    | .none => none

theorem atMost_longAttack {R : Type _} (add : X → X → X) (zero iv : X) (k : Slot a b l c → K) (build : Fin a → Fin b → Fin l → Fin c → R)
    (none : R) : (longAttack add zero iv k build none).AtMost (a + (b + ((l + 1) + c))) := by
  refine atMost_andThen (atMost_askFixed _ _) fun x => atMost_andThen (atMost_askFamily _ _ _ _) fun y => ?_
  have := atMost_askTrail add (List.ofFn fun s => k (.inr (.inl s))) iv
  rw [List.length_ofFn] at this
  exact atMost_andThen this fun t => atMost_askFamily _ _ _ _

/-- What the queries give. -/
def values (add : X → X → X) (zero iv : X) (k : Slot a b l c → K) (E : Cipher K X) : Slot a b l c → X :=
  let x : Fin a → X := fun i => (E (k (.inl (.inr i)))).symm zero
  let y : Fin b → X := fun j => add iv (E (k (.inl (.inl j))) iv)
  Sum.elim (Sum.elim y x) (Sum.elim (fun s => trailAt add E (fun s => k (.inr (.inl s))) iv (s + 1))
    fun u => add (meetingPoint iv x y) (E (k (.inr (.inr u))) (meetingPoint iv x y)))

theorem result_longAttack {R : Type _} (add : X → X → X) (zero iv : X) (k : Slot a b l c → K) (build : Fin a → Fin b → Fin l → Fin c → R)
    (none : R) (E : Cipher K X) : (longAttack add zero iv k build none).result E =
      let v := values add zero iv k E
      match meeting (fun i => v (.inl (.inr i))) fun j => v (.inl (.inl j)) with
      | some p => pickMeet (build p.1 p.2) none (fun s : Fin l => v (.inr (.inl s.succ))) fun u => v (.inr (.inr u))
      | .none => none := by
  unfold longAttack
  rw [result_andThen, result_askFixed, result_andThen, result_askFamily, result_andThen, result_askTrail, result_askFamily]
  have : (fun s : Fin l => (trail add E (List.ofFn fun s => k (.inr (.inl s))) iv).getD (s + 1) iv) =
      fun s : Fin l => trailAt add E (fun s => k (.inr (.inl s))) iv (s.succ + 1) := by
    funext s
    rw [List.getD_eq_getElem?_getD, getElem_trail _ _ _ _ _ (by rw [List.length_ofFn]; omega)]
    rfl
  simp only [this]
  rfl

/-! ### Their distribution -/

variable [Fintype K] [DecidableEq K] [Fintype X]

/-- The values are uniform and independent. -/
theorem prob_values_attack (add sub : X → X → X) (hadd : ∀ x y z, add x y = z ↔ y = sub z x) (zero iv : X) (k : Slot a b l c → K)
    (hk : Function.Injective k) (P : (Slot a b l c → X) → Prop) :
    prob (fun E : Cipher K X => P (values add zero iv k E)) = chance P := by
  haveI : Nonempty X := ⟨iv⟩
  let pts : (Slot a b l c → X) → Slot a b l c → X := fun v =>
    Sum.elim (Sum.elim (fun _ => iv) fun i => v (.inl (.inr i)))
      (Sum.elim (fun s => (Fin.cons iv fun s => v (.inr (.inl s)) : Fin (l + 2) → X) s.castSucc)
        fun _ => meetingPoint iv (fun i => v (.inl (.inr i))) fun j => v (.inl (.inl j)))
  let vals : (Slot a b l c → X) → Slot a b l c → X := fun v =>
    Sum.elim (Sum.elim (fun j => sub (v (.inl (.inl j))) iv) fun _ => zero)
      (Sum.elim (fun s => sub (v (.inr (.inl s))) (pts v (.inr (.inl s)))) fun u => sub (v (.inr (.inr u))) (pts v (.inr (.inr u))))
  refine prob_fresh k hk pts vals _ (fun E v => ⟨fun H => ?_, fun H => ?_⟩) P
  · have hx : ∀ i, v (.inl (.inr i)) = (E (k (.inl (.inr i)))).symm zero := fun i => (Equiv.eq_symm_apply _).2 (H (.inl (.inr i)))
    have hy : ∀ j, v (.inl (.inl j)) = add iv (E (k (.inl (.inl j))) iv) := fun j => ((hadd _ _ _).2 (H (.inl (.inl j)))).symm
    have hh : ∀ s : Fin (l + 2), (Fin.cons iv fun s => v (.inr (.inl s)) : Fin (l + 2) → X) s =
        trailAt add E (fun s => k (.inr (.inl s))) iv s := by
      intro s
      induction s using Fin.induction with
      | zero => rfl
      | succ s ih =>
        have := (hadd _ _ _).2 (H (.inr (.inl s)))
        rw [Fin.cons_succ, Fin.val_succ, trailAt_succ, ← this]
        show add ((Fin.cons iv fun s => v (.inr (.inl s)) : Fin (l + 2) → X) s.castSucc) (E _
          ((Fin.cons iv fun s => v (.inr (.inl s)) : Fin (l + 2) → X) s.castSucc)) = _
        rw [ih]
        rfl
    funext i
    rcases i with (j | i) | (s | u)
    · exact hy j
    · exact hx i
    · have := hh s.succ
      rwa [Fin.cons_succ] at this
    · have := ((hadd _ _ _).2 (H (.inr (.inr u)))).symm
      rw [this]
      show add (meetingPoint iv (fun i => v (.inl (.inr i))) fun j => v (.inl (.inl j)))
        (E _ (meetingPoint iv (fun i => v (.inl (.inr i))) fun j => v (.inl (.inl j)))) = _
      simp only [hx, hy]
      rfl
  · subst H
    rintro ((j | i) | (s | u))
    · exact (hadd _ _ _).1 rfl
    · exact Equiv.apply_symm_apply _ _
    · refine (hadd _ _ _).1 ?_
      have hh : ∀ s : Fin (l + 2), (Fin.cons iv fun s => values add zero iv k E (.inr (.inl s)) : Fin (l + 2) → X) s =
          trailAt add E (fun s => k (.inr (.inl s))) iv s := by
        intro s
        refine Fin.cases rfl (fun s => ?_) s
        rw [Fin.cons_succ]
        rfl
      show add ((Fin.cons iv fun s => values add zero iv k E (.inr (.inl s)) : Fin (l + 2) → X) s.castSucc) (E (k (.inr (.inl s)))
        ((Fin.cons iv fun s => values add zero iv k E (.inr (.inl s)) : Fin (l + 2) → X) s.castSucc)) = _
      rw [hh]
      exact (trailAt_succ add E (fun s => k (.inr (.inl s))) iv s).symm
    · exact (hadd _ _ _).1 rfl

/-- A fixed point is reached, and a link leads from there to the message. -/
def Linked (v : Slot a b l c → X) : Prop :=
  (∃ i j, v (.inl (.inr i)) = v (.inl (.inl j))) ∧ ∃ s : Fin l, ∃ u, v (.inr (.inl s.succ)) = v (.inr (.inr u))

theorem chance_linked [Nonempty X] (a b l c : Nat) (hl : l * (l - 1) ≤ 2 * Fintype.card X) :
    (1 - (b * (b - 1) : ℚ) / (2 * Fintype.card X)) * (a * b / (a * b + Fintype.card X)) *
        ((1 - (l * (l - 1) : ℚ) / (2 * Fintype.card X)) * (c * l / (c * l + Fintype.card X))) ≤
      chance (Linked (X := X) (a := a) (b := b) (l := l) (c := c)) := by
  have hN : (0 : ℚ) < Fintype.card X := by exact_mod_cast Fintype.card_pos
  let e : (Slot a b l c → X) ≃ ((Fin b → X) × (Fin a → X)) × (X × ((Fin l → X) × (Fin c → X))) :=
    (Equiv.sumArrowEquivProdArrow _ _ X).trans (Equiv.prodCongr (Equiv.sumArrowEquivProdArrow _ _ X)
      (((Equiv.sumArrowEquivProdArrow _ _ X).trans (Equiv.prodCongr (Fin.consEquiv fun _ => X).symm (Equiv.refl _))).trans
        (Equiv.prodAssoc _ _ _)))
  have h1 := chance_equiv e fun w => (∃ i j, w.1.2 i = w.1.1 j) ∧ ∃ u s, w.2.2.2 u = w.2.2.1 s
  have h2 : (fun v : Slot a b l c → X => (∃ i j, (e v).1.2 i = (e v).1.1 j) ∧ ∃ u s, (e v).2.2.2 u = (e v).2.2.1 s) = Linked := by
    funext v
    apply propext
    refine and_congr Iff.rfl ⟨?_, ?_⟩
    · rintro ⟨u, s, h⟩
      exact ⟨s, u, h.symm⟩
    · rintro ⟨s, u, h⟩
      exact ⟨u, s, h.symm⟩
  rw [h2] at h1
  rw [h1, chance_and (fun w : (Fin b → X) × (Fin a → X) => ∃ i j, w.2 i = w.1 j)
    fun w : X × ((Fin l → X) × (Fin c → X)) => ∃ u s, w.2.2 u = w.2.1 s,
    chance_dummy fun w : (Fin l → X) × (Fin c → X) => ∃ u s, w.2 u = w.1 s]
  refine mul_le_mul (chance_meet a b) (chance_meet c l) (mul_nonneg ?_ (by positivity)) ?_
  · rw [sub_nonneg, div_le_one (by linarith)]
    rcases Nat.eq_zero_or_pos l with rfl | hl0
    · simp
    · have : ((l * (l - 1) : Nat) : ℚ) ≤ (2 * Fintype.card X : Nat) := by exact_mod_cast hl
      push_cast [Nat.cast_sub hl0] at this
      exact this
  · unfold chance
    positivity

end attack

/-! ### The hashes -/

section md
variable {w n : Nat}

/-- Word by word difference. -/
def stateSub (z x : Vector (BitVec w) n) : Vector (BitVec w) n := Vector.ofFn fun i => z[i] - x[i]

theorem stateAdder_sub (x y z : Vector (BitVec w) n) : stateAdder x y = z ↔ y = stateSub z x := by
  constructor
  · rintro rfl
    apply Vector.ext
    intro i hi
    rw [stateSub, Vector.getElem_ofFn]
    simp only [Fin.getElem_fin]
    rw [stateAdder_get _ _ i hi, dif_pos hi, BitVec.add_comm, BitVec.add_sub_cancel]
  · rintro rfl
    apply Vector.ext
    intro i hi
    rw [stateAdder_get _ _ i hi, dif_pos hi, stateSub, Vector.getElem_ofFn]
    simp only [Fin.getElem_fin]
    rw [BitVec.add_comm, BitVec.sub_add_cancel]

theorem stateAdder_zero (x : Vector (BitVec w) n) : stateAdder x (Vector.replicate n 0) = x := by
  apply Vector.ext
  intro i hi
  rw [stateAdder_get _ _ i hi, dif_pos hi, Vector.getElem_replicate]
  exact BitVec.add_zero _

theorem callsFor_length (h : MDHash) {m m' : Bits} (hl : m.length = m'.length) : callsFor h m = callsFor h m' := by
  unfold callsFor blocks
  rw [paddedMessage_tail, paddedMessage_tail, List.length_map, List.length_map, List.length_range, List.length_range, List.length_append,
    List.length_append, hl]

/-- The blocks of the attack: first blocks, fixed points, the given message, links. -/
structure LongBlocks (h : MDHash) (a b l c : Nat) where
  block : Slot a b l c → Bits
  length : ∀ i, (block i).length = (standard h).block
  injective : Function.Injective block

variable {h : MDHash} {a b l c : Nat}

/-- The blocks of the given message. -/
def LongBlocks.given (B : LongBlocks h a b l c) : List Bits := List.ofFn fun s => B.block (.inr (.inl s))

/-- The message that the attacker builds: the first block `j`, the fixed point `i` as often as necessary, the link `u`, and the given
message after `s + 2` blocks. -/
def LongBlocks.forged (B : LongBlocks h a b l c) (r : Bits) (i : Fin a) (j : Fin b) (s : Fin l) (u : Fin c) : Bits :=
  B.block (.inl (.inl j)) ++ (List.replicate s (B.block (.inl (.inr i)))).flatten ++ B.block (.inr (.inr u)) ++
    ((B.given.drop (s + 2)).flatten ++ r)

/-- The attacker. -/
def longPreimage (B : LongBlocks h a b l c) (iv : Vector (BitVec w) n) (r : Bits) :
    Attacker (Vector (BitVec w) 16) (Vector (BitVec w) n) (List Op) :=
  longAttack stateAdder (Vector.replicate n 0) iv (fun i => keyOf h w (B.block i))
    (fun i j s u => feedBits h.policy.blockBits (B.forged r i j s u)) []

/-- **C121, the attack.** Let a message begin with `l + 1` different blocks.  The attacker that decrypts zero under `a` keys, hashes
`b` first blocks and the given message, and tries `c` links asks `a + b + l + 1 + c` queries and wins the game of
`C113_merkle_damgard`, with a message as long as the given one, with at least this probability. -/
theorem C121_attack (h8 : 8 ∣ w) (hw : h.policy.stateBits = n * w) (hb : (standard h).block = 16 * w)
    (iv : Vector (BitVec w) n) (d0 : Bits) (hd : d0.length = h.policy.digestBits) (J : Injector) (B : LongBlocks h a b l c) (r : Bits)
    (ops : List Op) (hwt : ∀ op ∈ ops, op.WellTyped h.policy.blockBits) (hx : GoodExtracts h.policy.blockBits (GoodMsg h) [] ops)
    (hops : streamOf h.policy.blockBits ops = B.given.flatten ++ r) (hg : GoodMsg h (B.given.flatten ++ r))
    (hshort : (B.given.flatten ++ r).length < 2 ^ 64) :
    (longPreimage B iv r).AtMost (a + (b + ((l + 1) + c))) ∧
    (1 - (b * (b - 1) : ℚ) / (2 * 2 ^ (n * w))) * (a * b / (a * b + 2 ^ (n * w))) *
        ((1 - (l * (l - 1) : ℚ) / (2 * 2 ^ (n * w))) * (c * l / (c * l + 2 ^ (n * w)))) ≤
      prob (fun E => Colliding (cipherHash h hw iv (fun k => E k) d0 hd) J ops ((longPreimage B iv r).result E) ∧
        (streamOf h.policy.blockBits ((longPreimage B iv r).result E)).length = (streamOf h.policy.blockBits ops).length ∧
        callsFor h (streamOf h.policy.blockBits ((longPreimage B iv r).result E)) = callsFor h (streamOf h.policy.blockBits ops)) := by
  have hB : 0 < (standard h).block := by cases h <;> decide
  have hPB : 0 < h.policy.blockBits := by cases h <;> decide
  have hgiven : B.given.flatten.length = (l + 1) * (standard h).block := by
    rw [List.length_flatten, List.sum_eq_card_nsmul _ (standard h).block, List.length_map, LongBlocks.given, List.length_ofFn, smul_eq_mul]
    intro x hx
    obtain ⟨y, hy, rfl⟩ := List.mem_map.1 hx
    obtain ⟨s, rfl⟩ := List.mem_ofFn.1 hy
    exact B.length _
  refine ⟨atMost_longAttack _ _ _ _ _ _, ?_⟩
  have hk : Function.Injective fun i => keyOf h w (B.block i) := fun i j e =>
    B.injective (keyOf_injective h h8 (by rw [← hb]; exact B.length i) (by rw [← hb]; exact B.length j) e)
  have hl : l * (l - 1) ≤ 2 * Fintype.card (Vector (BitVec w) n) := by
    rw [card_words, ← hw]
    have h1 : l < 2 ^ 64 := by
      rw [List.length_append, hgiven] at hshort
      have : l + 1 ≤ (l + 1) * (standard h).block := Nat.le_mul_of_pos_right _ hB
      omega
    have h2 : 2 ^ 128 ≤ 2 ^ h.policy.stateBits := Nat.pow_le_pow_right (by norm_num) (by cases h <;> decide)
    have h3 : l * (l - 1) ≤ 2 ^ 64 * 2 ^ 64 := Nat.mul_le_mul (by omega) (by omega)
    have h4 : (2 : Nat) ^ 64 * 2 ^ 64 = 2 ^ 128 := by rw [← pow_add]
    omega
  have key := prob_values_attack stateAdder stateSub stateAdder_sub (Vector.replicate n 0) iv (fun i => keyOf h w (B.block i)) hk Linked
  have low := chance_linked (X := Vector (BitVec w) n) a b l c hl
  rw [← key, card_words] at low
  push_cast at low
  refine le_trans low (prob_mono fun E hE => ?_)
  have hres := result_longAttack stateAdder (Vector.replicate n 0) iv (fun i => keyOf h w (B.block i))
    (fun i j s u => feedBits h.policy.blockBits (B.forged r i j s u)) [] E
  obtain ⟨i, j, hij, hm⟩ := meeting_spec _ _ hE.1
  dsimp only at hres
  rw [hm] at hres
  dsimp only at hres
  obtain ⟨s, u, hsu, hp⟩ := pickMeet_spec (fun s u => feedBits h.policy.blockBits (B.forged r i j s u)) []
    (fun s : Fin l => values stateAdder (Vector.replicate n 0) iv (fun i => keyOf h w (B.block i)) E (.inr (.inl s.succ)))
    (fun u => values stateAdder (Vector.replicate n 0) iv (fun i => keyOf h w (B.block i)) E (.inr (.inr u))) hE.2
  rw [hp] at hres
  change (longPreimage B iv r).result E = _ at hres
  rw [hres]
  obtain ⟨f1, f2, f3⟩ := feedBits_spec hPB (B.forged r i j s u)
  have hst : stateAdder iv (E (keyOf h w (B.block (.inl (.inl j)))) iv) = (E (keyOf h w (B.block (.inl (.inr i))))).symm (Vector.replicate n 0) :=
    hij.symm
  generalize hstd : (E (keyOf h w (B.block (.inl (.inr i))))).symm (Vector.replicate n 0) = st at hst
  have hfix : stateAdder st (E (keyOf h w (B.block (.inl (.inr i)))) st) = st := by
    rw [← hstd, Equiv.apply_symm_apply, stateAdder_zero]
  have hmp : meetingPoint iv (fun i => values stateAdder (Vector.replicate n 0) iv (fun i => keyOf h w (B.block i)) E (.inl (.inr i)))
      (fun j => values stateAdder (Vector.replicate n 0) iv (fun i => keyOf h w (B.block i)) E (.inl (.inl j))) = st := by
    unfold meetingPoint
    rw [hm]
    exact hstd
  have hlink : stateAdder st (E (keyOf h w (B.block (.inr (.inr u)))) st) =
      (B.given.take (s + 2)).foldl (daviesMeyerAdd h.policy.endian fun k => E k) iv := by
    rw [← hmp]
    refine Eq.trans hsu.symm ?_
    show ((List.ofFn fun s => keyOf h w (B.block (.inr (.inl s)))).take (s + 2)).foldl (fun v k => stateAdder v (E k v)) iv = _
    have : (List.ofFn fun s => keyOf h w (B.block (.inr (.inl s)))) = B.given.map (keyOf h w) := by
      rw [LongBlocks.given, List.map_ofFn]
      rfl
    rw [this, ← List.map_take, List.foldl_map]
    rfl
  have hmem : ∀ x ∈ B.given, x.length = (standard h).block := by
    intro x hx
    obtain ⟨s, rfl⟩ := List.mem_ofFn.1 hx
    exact B.length _
  have hpl : (B.given.take (s + 2)).flatten.length = (s + 2) * (standard h).block := by
    rw [List.length_flatten, List.sum_eq_card_nsmul _ (standard h).block, List.length_map, List.length_take, LongBlocks.given,
      List.length_ofFn, smul_eq_mul, Nat.min_eq_left (by omega)]
    intro x hx
    obtain ⟨y, hy, rfl⟩ := List.mem_map.1 hx
    exact hmem y (List.mem_of_mem_take hy)
  have hpb : blocks (standard h).block (B.given.take (s + 2)).flatten = B.given.take (s + 2) :=
    blocks_flatten hB _ fun x hx => hmem x (List.mem_of_mem_take hx)
  have hsplit : B.given.flatten ++ r = (B.given.take (s + 2)).flatten ++ ((B.given.drop (s + 2)).flatten ++ r) := by
    rw [← List.append_assoc, ← List.flatten_append, List.take_append_drop]
  have hcount : ((B.given.take (s + 2)).flatten.length - (B.block (.inl (.inl j))).length) / (standard h).block - 1 = s := by
    rw [hpl, B.length, show (s.1 + 2) * (standard h).block - (standard h).block = (s + 1) * (standard h).block by
      rw [show s.1 + 2 = (s + 1) + 1 from rfl, Nat.succ_mul (s.1 + 1)]; omega, Nat.mul_div_cancel _ hB]
    rfl
  have hlong := C100_long_message (cipherHash h hw iv (fun k => E k) d0 hd) J (B.block (.inl (.inl j))) (B.block (.inl (.inr i)))
    (B.block (.inr (.inr u))) (B.given.take (s + 2)).flatten ((B.given.drop (s + 2)).flatten ++ r) st
    (by rw [B.length]) (B.length _) (B.length _) (by rw [hpl]; exact Nat.dvd_mul_left _ _)
    (by rw [hpl, B.length]; nlinarith)
    (by rw [blocks_one hB (B.length _)]; exact hst) hfix (by rw [hpb]; exact hlink)
    (List.replicate h.policy.blockBits false) (List.replicate h.policy.blockBits false) List.length_replicate List.length_replicate
    ops (feedBits h.policy.blockBits (B.forged r i j s u)) hwt f2 hx (goodExtracts_of_no_extract _ _ _ f3 _) (by rw [hops, hsplit])
    (by rw [f1, hcount]; rfl) (by rw [← hsplit]; exact hg)
  obtain ⟨hlen, d, e1, e2⟩ := hlong
  refine ⟨⟨?_, ?_, ?_, ?_, ?_, ?_⟩, hlen, callsFor_length h hlen⟩
  · intro op ho
    rcases List.mem_append.1 ho with ho | ho
    · exact hwt op ho
    · exact f2 op ho
  · exact ⟨hx, goodExtracts_of_no_extract _ _ _ f3 _⟩
  · refine ⟨by rw [hops]; exact hg, ?_⟩
    unfold GoodMsg at hg ⊢
    rw [hlen, hops]
    exact hg
  · rw [hlen, hops]
    exact ⟨hshort, hshort⟩
  · rw [hops, f1]
    intro e
    have h1 : (B.given.flatten ++ r).take (standard h).block = B.block (.inr (.inl 0)) := by
      rw [LongBlocks.given, List.ofFn_succ, List.flatten_cons, List.append_assoc, List.take_left' (B.length _)]
    have h2 : (B.forged r i j s u).take (standard h).block = B.block (.inl (.inl j)) := by
      rw [LongBlocks.forged, List.append_assoc, List.append_assoc, List.take_left' (B.length _)]
    rw [e, h2] at h1
    exact absurd (B.injective h1) (by simp)
  · exact ⟨_, _, List.length_replicate, List.length_replicate, e1.trans e2.symm⟩

/-- Blocks for the attack on a given message. -/
theorem longBlocks_exists (h : MDHash) (a b c : Nat) (m : Fin (l + 1) → Bits) (hm : ∀ s, (m s).length = (standard h).block)
    (hi : Function.Injective m) (hcard : a + b + c + (l + 1) ≤ 2 ^ (standard h).block) :
    ∃ B : LongBlocks h a b l c, B.given = List.ofFn m := by
  classical
  let m' : Fin (l + 1) → Fin (standard h).block → Bool := fun s => bitsAt (m s) 0 (standard h).block
  have hm' : ∀ s, List.ofFn (m' s) = m s := fun s => by
    show List.ofFn (bitsAt (m s) 0 (standard h).block) = _
    rw [ofFn_bitsAt (by rw [hm]; omega), List.drop_zero, ← hm s, List.take_length]
  have hinj : Function.Injective m' := fun s t e => hi (by rw [← hm' s, ← hm' t, e])
  have hc : Fintype.card ((Fin b ⊕ Fin a) ⊕ Fin c) ≤ Fintype.card { x // x ∉ Set.range m' } := by
    have h1 : Fintype.card { x // x ∉ Set.range m' } = 2 ^ (standard h).block - (l + 1) := by
      rw [Fintype.card_subtype_compl, card_strings]
      congr 1
      rw [← Fintype.card_congr (Equiv.ofInjective m' hinj), Fintype.card_fin]
    rw [h1, Fintype.card_sum, Fintype.card_sum, Fintype.card_fin, Fintype.card_fin, Fintype.card_fin]
    omega
  obtain ⟨f⟩ := Function.Embedding.nonempty_of_card_le hc
  refine ⟨⟨Sum.elim (fun i => List.ofFn (f (.inl i)).1) (Sum.elim m fun u => List.ofFn (f (.inr u)).1), ?_, ?_⟩, rfl⟩
  · rintro (i | s | u)
    · exact List.length_ofFn
    · exact hm s
    · exact List.length_ofFn
  · have hno : ∀ i s, List.ofFn (f i).1 ≠ m s := fun i s e =>
      (f i).2 ⟨s, List.ofFn_injective (by rw [hm' s, e])⟩
    have hff : ∀ i j, List.ofFn (f i).1 = List.ofFn (f j).1 → i = j := fun i j e =>
      f.injective (Subtype.ext (List.ofFn_injective e))
    rintro (i | s | u) (i' | s' | u') e
    · exact congrArg _ (Sum.inl_injective (hff _ _ e))
    · exact absurd e (hno _ _)
    · exact absurd (hff _ _ e) (by simp)
    · exact absurd e.symm (hno _ _)
    · exact congrArg _ (congrArg _ (hi e))
    · exact absurd e.symm (hno _ _)
    · exact absurd (hff _ _ e) (by simp)
    · exact absurd e (hno _ _)
    · exact congrArg _ (congrArg _ (Sum.inr_injective (hff _ _ e)))

/-- **C121, every message.** For a message that begins with `l + 1` different blocks and numbers `a`, `b`, `c` of queries there is an
attacker that wins the game of `C113_merkle_damgard` with at least this probability. -/
theorem C121_exists (h8 : 8 ∣ w) (hw : h.policy.stateBits = n * w) (hb : (standard h).block = 16 * w)
    (iv : Vector (BitVec w) n) (d0 : Bits) (hd : d0.length = h.policy.digestBits) (J : Injector) (a b c : Nat)
    (m : Fin (l + 1) → Bits) (hm : ∀ s, (m s).length = (standard h).block) (hi : Function.Injective m) (r : Bits)
    (hcard : a + b + c + (l + 1) ≤ 2 ^ (standard h).block)
    (ops : List Op) (hwt : ∀ op ∈ ops, op.WellTyped h.policy.blockBits) (hx : GoodExtracts h.policy.blockBits (GoodMsg h) [] ops)
    (hops : streamOf h.policy.blockBits ops = (List.ofFn m).flatten ++ r) (hg : GoodMsg h ((List.ofFn m).flatten ++ r))
    (hshort : ((List.ofFn m).flatten ++ r).length < 2 ^ 64) :
    ∃ A : Attacker (Vector (BitVec w) 16) (Vector (BitVec w) n) (List Op), A.AtMost (a + (b + ((l + 1) + c))) ∧
      (1 - (b * (b - 1) : ℚ) / (2 * 2 ^ (n * w))) * (a * b / (a * b + 2 ^ (n * w))) *
          ((1 - (l * (l - 1) : ℚ) / (2 * 2 ^ (n * w))) * (c * l / (c * l + 2 ^ (n * w)))) ≤
        prob (fun E => Colliding (cipherHash h hw iv (fun k => E k) d0 hd) J ops (A.result E) ∧
          (streamOf h.policy.blockBits (A.result E)).length = (streamOf h.policy.blockBits ops).length ∧
          callsFor h (streamOf h.policy.blockBits (A.result E)) = callsFor h (streamOf h.policy.blockBits ops)) := by
  obtain ⟨B, hB⟩ := longBlocks_exists h a b c m hm hi hcard
  rw [← hB] at hops hg hshort
  exact ⟨_, C121_attack h8 hw hb iv d0 hd J B r ops hwt hx hops hg hshort⟩

end md

theorem long_num {L M N c : ℚ} (hL : 1 ≤ L) (hN : N = M * M) (hcl : c * L = N) (hM : 0 < M) (hbig : 18 * (L * L) ≤ 2 * N) :
    1 / 9 ≤ (1 - M * (M - 1) / (2 * N)) * (M * M / (M * M + N)) * ((1 - L * (L - 1) / (2 * N)) * (c * L / (c * L + N))) := by
  have hN0 : 0 < N := by rw [hN]; positivity
  have h1 : M * M / (M * M + N) = 1 / 2 := by
    rw [← hN, ← two_mul, div_eq_div_iff (by linarith) (by norm_num)]
    ring
  have h2 : c * L / (c * L + N) = 1 / 2 := by
    rw [hcl, ← two_mul, div_eq_div_iff (by linarith) (by norm_num)]
    ring
  have h3 : 1 / 2 ≤ 1 - M * (M - 1) / (2 * N) := by
    rw [le_sub_comm, div_le_iff₀ (by linarith)]
    nlinarith
  have h4 : 17 / 18 ≤ 1 - L * (L - 1) / (2 * N) := by
    rw [le_sub_comm, div_le_iff₀ (by linarith)]
    nlinarith
  rw [h1, h2]
  nlinarith

set_option maxRecDepth 4000 in
set_option exponentiation.threshold 600 in
/-- **C121, SHA-256.** For every message that begins with `2^54 + 1` different blocks there is an attacker that asks at most `2^203`
queries to a random cipher and finds another message of the same length and the same digest with probability at least `1/9`;
without the long message about `2^256` queries are necessary. -/
theorem C121_tight (iv : Vector (BitVec 32) 8) (d0 : Bits) (hd : d0.length = 256) (J : Injector)
    (m : Fin (2 ^ 54 + 1) → Bits) (hm : ∀ s, (m s).length = 512) (hi : Function.Injective m) (r : Bits)
    (ops : List Op) (hwt : ∀ op ∈ ops, op.WellTyped 512) (hx : GoodExtracts 512 (GoodMsg .sha256) [] ops)
    (hops : streamOf 512 ops = (List.ofFn m).flatten ++ r) (hshort : ((List.ofFn m).flatten ++ r).length < 2 ^ 64) :
    ∃ A : Attacker (Vector (BitVec 32) 16) (Vector (BitVec 32) 8) (List Op), A.AtMost (2 ^ 203) ∧
      (1 / 9 : ℚ) ≤ prob (fun E => Colliding (cipherHash .sha256 rfl iv (fun k => E k) d0 hd) J ops (A.result E) ∧
          (streamOf 512 (A.result E)).length = (streamOf 512 ops).length) := by
  have hg : GoodMsg .sha256 ((List.ofFn m).flatten ++ r) := by
    refine ⟨one_dvd _, Or.inr ?_, Or.inr hshort⟩
    rw [Nat.mod_eq_of_lt hshort]
    have h0 : ((List.ofFn m).flatten).length ≥ 512 := by
      rw [List.ofFn_succ, List.flatten_cons, List.length_append, hm]
      omega
    rw [List.length_append]
    omega
  obtain ⟨A, h1, h2⟩ := C121_exists (w := 32) (n := 8) (h := .sha256) (by decide) rfl rfl iv d0 hd J (2 ^ 128) (2 ^ 128) (2 ^ 202) m hm hi r
    (show 2 ^ 128 + 2 ^ 128 + 2 ^ 202 + (2 ^ 54 + 1) ≤ 2 ^ 512 by norm_num) ops hwt hx hops hg hshort
  refine ⟨A, atMost_mono h1 (by norm_num), le_trans ?_ (le_trans h2 (prob_mono fun E hE => ⟨hE.1, hE.2.1⟩))⟩
  have := long_num (L := 2 ^ 54) (M := 2 ^ 128) (N := 2 ^ 256) (c := 2 ^ 202) (by norm_num) (by norm_num) (by norm_num) (by norm_num)
    (by norm_num)
  push_cast
  exact this

/-! ### Instances -/

/-- The number `k` as a block. -/
def numberBlock (k : Nat) : Bits := List.ofFn fun i : Fin 512 => k.testBit i

theorem numberBlock_injective {k k' : Nat} (hk : k < 2 ^ 60) (hk' : k' < 2 ^ 60) (e : numberBlock k = numberBlock k') : k = k' := by
  apply Nat.eq_of_testBit_eq
  intro i
  by_cases hi : i < 512
  · exact congrFun (List.ofFn_injective e) ⟨i, hi⟩
  · rw [Nat.testBit_lt_two_pow (lt_of_lt_of_le hk (Nat.pow_le_pow_right (by norm_num) (by omega))),
      Nat.testBit_lt_two_pow (lt_of_lt_of_le hk' (Nat.pow_le_pow_right (by norm_num) (by omega)))]

/-- Five blocks: `0` first, `1` for the fixed point, the message `2`, `3`, and the link `4`. -/
def fiveBlocks : LongBlocks .sha256 1 1 1 1 where
  block
    | .inl (.inl _) => numberBlock 0
    | .inl (.inr _) => numberBlock 1
    | .inr (.inl s) => numberBlock (2 + s)
    | .inr (.inr _) => numberBlock 4
  length := by rintro ((_ | _) | (_ | _)) <;> exact List.length_ofFn
  injective := by
    rintro ((i | i) | (i | i)) ((j | j) | (j | j)) e <;>
      have := numberBlock_injective (by omega) (by omega) e <;>
      first
      | omega
      | exact congrArg (Sum.inl ∘ Sum.inl) (Fin.ext (by omega))
      | exact congrArg (Sum.inl ∘ Sum.inr) (Fin.ext (by omega))
      | exact congrArg (Sum.inr ∘ Sum.inl) (Fin.ext (by omega))
      | exact congrArg (Sum.inr ∘ Sum.inr) (Fin.ext (by omega))

theorem fiveBlocks_length : (fiveBlocks.given.flatten ++ [true]).length = 1025 := by
  rw [LongBlocks.given, List.ofFn_succ, List.ofFn_succ, List.ofFn_zero, List.length_append, List.flatten_cons, List.flatten_cons,
    List.flatten_nil, List.length_append, List.length_append, fiveBlocks.length, fiveBlocks.length]
  rfl

/-- One query of each kind against a message of 1025 bits. -/
example (J : Injector) := C121_attack (w := 32) (n := 8) (by decide) rfl rfl sha256IV (List.replicate 256 true) List.length_replicate J
  fiveBlocks [true] (feedBits 512 (fiveBlocks.given.flatten ++ [true])) (feedBits_spec (by decide) _).2.1
  (goodExtracts_of_no_extract _ _ _ (feedBits_spec (by decide) _).2.2 _) (feedBits_spec (by decide) _).1
  ⟨one_dvd _, Or.inr (by rw [fiveBlocks_length]; norm_num), Or.inr (by rw [fiveBlocks_length]; norm_num)⟩
  (by rw [fiveBlocks_length]; norm_num)

/-- A thousand queries of each kind. -/
example (J : Injector) := C121_exists (w := 32) (n := 8) (l := 1) (h := .sha256) (by decide) rfl rfl sha256IV (List.replicate 256 true)
  List.length_replicate J 1000 1000 1000 (fun s => fiveBlocks.block (.inr (.inl s))) (fun _ => fiveBlocks.length _)
  (fun s t e => Sum.inl_injective (Sum.inr_injective (fiveBlocks.injective e))) [true]
  (le_trans (by norm_num) (show 2 ^ 12 ≤ 2 ^ 512 from Nat.pow_le_pow_right (by norm_num) (by norm_num)))
  (feedBits 512 (fiveBlocks.given.flatten ++ [true])) (feedBits_spec (by decide) _).2.1
  (goodExtracts_of_no_extract _ _ _ (feedBits_spec (by decide) _).2.2 _) (feedBits_spec (by decide) _).1
  ⟨one_dvd _, Or.inr (by erw [fiveBlocks_length]; norm_num), Or.inr (by erw [fiveBlocks_length]; norm_num)⟩
  (by erw [fiveBlocks_length]; norm_num)

theorem length_numbers (l : Nat) : ((List.ofFn fun s : Fin l => numberBlock s).flatten).length = l * 512 := by
  rw [List.length_flatten, List.sum_eq_card_nsmul _ 512, List.length_map, List.length_ofFn, smul_eq_mul]
  intro x hx
  obtain ⟨y, hy, rfl⟩ := List.mem_map.1 hx
  obtain ⟨s, rfl⟩ := List.mem_ofFn.1 hy
  exact List.length_ofFn

/-- The message of the blocks `0`, `1`, …, `2^54`. -/
example (J : Injector) := C121_tight sha256IV (List.replicate 256 true) List.length_replicate J (fun s => numberBlock s)
  (fun _ => List.length_ofFn)
  (fun s t e => Fin.ext (numberBlock_injective (lt_of_lt_of_le s.2 (by norm_num)) (lt_of_lt_of_le t.2 (by norm_num)) e)) []
  (feedBits 512 ((List.ofFn fun s : Fin (2 ^ 54 + 1) => numberBlock s).flatten ++ [])) (feedBits_spec (by decide) _).2.1
  (goodExtracts_of_no_extract _ _ _ (feedBits_spec (by decide) _).2.2 _) (feedBits_spec (by decide) _).1
  (by rw [List.append_nil, length_numbers]; norm_num)

end Verif.Props
