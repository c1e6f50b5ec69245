import Mathlib.Data.Rat.Floor

/-!
# Specification of random streams

Independent of the model.
-/

namespace Verif.Rand

variable {S : Type}

/-- `n` successive single draws: the final state and the values in order. -/
def draws (next : S → Option (S × ℚ)) : Nat → S → Option (S × List ℚ)
  | 0, s => some (s, [])
  | n + 1, s => do
    let (s, v) ← next s
    let (s, vs) ← draws next n s
    some (s, v :: vs)

/-- The subtractive lagged recurrence with lags `a` and `b`, started from the table `init`:
value number `n` is `frac (value (n-a) - value (n-b))`, where value number `-k` is `init k`. -/
def lagged (a b : Nat) (init : Nat → ℚ) (n : Nat) : ℚ :=
  let val (lag : Nat) : ℚ :=
    if _h : 0 < lag ∧ lag ≤ n then lagged a b init (n - lag) else init (lag - n)
  Int.fract (val a - val b)
termination_by n
decreasing_by omega

/-- The value number `n` for any integer `n`: a value of the stream, or an entry of the table. -/
def laggedZ (a b : Nat) (init : Nat → ℚ) (n : Int) : ℚ :=
  if 0 ≤ n then lagged a b init n.toNat else init (-n).toNat

end Verif.Rand
