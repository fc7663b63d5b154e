import Verif.Model.History
/-
The `bits_count` feature (accumulators/bits_count.hpp:45-68) next to the hash feature in one
accumulator set.
-/
namespace Verif

variable {σ δ A : Type}

/-- `bits_count_impl::operator()`, accumulators/bits_count.hpp:52-55, 62-65: `cnt += bits`, where `bits`
is the argument of the push (0 if it is absent); `cnt` is a `std::size_t`. -/
def bitsCountPush (cnt bits : Nat) : Nat := wrap64 (cnt + bits)

/-- A push into an accumulator set with both features: each feature sees the same argument pack. -/
def countedPush (C : Construction σ δ) (J : Injector) : Push (Acc σ × Nat) := fun s value bits => do
  let a ← s.1.pushBlock C J value bits
  return (a, bitsCountPush s.2 bits)

/-- The effect of one operation on an accumulator set. -/
def Op.update (push : Push A) (B : Nat) (a : A) : Op → Except Fault A
  | .feed E k cache0 xs => feedSet push B E k cache0 a xs
  | .block value bits => push a value bits
  | .extract => .ok a

/-- The effect of a program on an accumulator set. -/
def runUpdates (push : Push A) (B : Nat) : A → List Op → Except Fault A
  | a, [] => .ok a
  | a, op :: ops => do
    let a ← op.update push B a
    runUpdates push B a ops

end Verif
