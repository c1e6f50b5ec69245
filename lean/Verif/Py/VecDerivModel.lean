import Verif.Go.Slice
import Mathlib.Algebra.Order.Ring.Rat

/-!
# Model of `vector_deriv` of `render/scripts/deriv.py`
-/

set_option autoImplicit false

namespace Verif.Py

open Verif.Go

/-- `xs[i]` of a NumPy array: a negative index counts from the end. render/scripts/deriv.py 21-33. -/
def pyRd {α : Type} (xs : List α) (i : Int) : Option α := rd xs (if i < 0 then i + xs.length else i)

/-- `xs[i] = v` of a NumPy array. render/scripts/deriv.py 21-33. -/
def pyWr {α : Type} (xs : List α) (i : Int) (v : α) : Option (List α) := wr xs (if i < 0 then i + xs.length else i) v

/-- `np.roll(ys, k)`: entry `i` is entry `i - k`, around the end. render/scripts/deriv.py 19-25. -/
def roll (ys : List ℚ) (k : Int) : List ℚ :=
  (List.range ys.length).map fun (i : Nat) => ys.getD (((i : Int) - k) % ys.length).toNat 0

/-- Lines 19-22 of render/scripts/deriv.py; division by zero, a warning in NumPy, gives 0 here. -/
def vecDeriv2 (xs ys : List ℚ) : Option (List ℚ) := do
  let d := List.zipWith (· / ·) (List.zipWith (· - ·) (roll ys 1) (roll ys (-1)))
    (List.zipWith (· - ·) (roll xs 1) (roll xs (-1)))
  let d ← pyWr d 0 ((-3 * (← pyRd ys 0) + 4 * (← pyRd ys 1) - (← pyRd ys 2)) / ((← pyRd xs 2) - (← pyRd xs 0)))
  pyWr d (-1) (-(-3 * (← pyRd ys (-1)) + 4 * (← pyRd ys (-2)) - (← pyRd ys (-3))) / ((← pyRd xs (-1)) - (← pyRd xs (-3))))

/-- The numerator of lines 24-26 of render/scripts/deriv.py at index `i`. -/
def num4 (ys : List ℚ) : List ℚ :=
  List.zipWith (· + ·) (List.zipWith (· - ·) (List.zipWith (fun a b => -a + 8 * b) (roll ys 2) (roll ys 1))
    ((roll ys (-1)).map (8 * ·))) (roll ys (-2))

/-- Lines 24-34 of render/scripts/deriv.py. -/
def vecDeriv4 (xs ys : List ℚ) : Option (List ℚ) := do
  let d := List.zipWith (· / ·) (num4 ys) ((List.zipWith (· - ·) (roll xs 2) (roll xs (-2))).map (3 * ·))
  let d ← pyWr d 0 ((-3 * (← pyRd ys 4) + 16 * (← pyRd ys 3) - 36 * (← pyRd ys 2) + 48 * (← pyRd ys 1) -
    25 * (← pyRd ys 0)) / (3 * ((← pyRd xs 4) - (← pyRd xs 0))))
  let d ← pyWr d (-2) ((-3 * (← pyRd ys (-1)) - 10 * (← pyRd ys (-2)) + 18 * (← pyRd ys (-3)) - 6 * (← pyRd ys (-4)) +
    (← pyRd ys (-5))) / (3 * ((← pyRd xs (-5)) - (← pyRd xs (-1)))))
  let d ← pyWr d 1 ((-3 * (← pyRd ys 0) - 10 * (← pyRd ys 1) + 18 * (← pyRd ys 2) - 6 * (← pyRd ys 3) +
    (← pyRd ys 4)) / (3 * ((← pyRd xs 4) - (← pyRd xs 0))))
  pyWr d (-1) ((-3 * (← pyRd ys (-5)) + 16 * (← pyRd ys (-4)) - 36 * (← pyRd ys (-3)) + 48 * (← pyRd ys (-2)) -
    25 * (← pyRd ys (-1))) / (3 * ((← pyRd xs (-5)) - (← pyRd xs (-1)))))

/-- `vector_deriv`, render/scripts/deriv.py 5-38. `none` is an exception. -/
def vectorDeriv (xs ys : List ℚ) (order : Int) : Option (List ℚ) :=
  if xs.length ≠ ys.length then none
  else if order = 2 then vecDeriv2 xs ys
  else if order = 4 then vecDeriv4 xs ys
  else none

end Verif.Py
