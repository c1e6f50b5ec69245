import Verif.Go.Slice

/-!
# Model of `render/scripts/prime_spacing.py`
-/

set_option autoImplicit false

namespace Verif.Py

/-- The inner loop of `append_prime`, render/scripts/prime_spacing.py 16-21: `true` if it appends `p`, `false` if it breaks
or runs out of primes. -/
def scan (p : Nat) : List Nat → Bool
  | [] => false
  | pp :: ps => if pp * pp > p then true else if p % pp = 0 then false else scan p ps

/-- The outer loop, render/scripts/prime_spacing.py 14-21, with a bound on its turns; `none` if it is still running. -/
def searchPrime (ps : List Nat) : Nat → Nat → Option Nat
  | 0, _ => none
  | fuel + 1, p => if scan (p + 2) ps then some (p + 2) else searchPrime ps fuel (p + 2)

/-- `append_prime`, render/scripts/prime_spacing.py 11-21. `none`: an empty list, or still running. -/
def appendPrime (fuel : Nat) (ps : List Nat) : Option (List Nat) :=
  match ps.getLast? with
  | none => none
  | some p => (searchPrime ps fuel p).map fun q => ps ++ [q]

/-- Lines 9 and 23-24 of render/scripts/prime_spacing.py: `count` calls on `[2, 3]`. -/
def primeList (fuel : Nat) : Nat → Option (List Nat)
  | 0 => some [2, 3]
  | count + 1 => (primeList fuel count).bind (appendPrime fuel)

/-- The coordinates of entry `i` of the flattened grid of width `w`, lines 26-31: `np.meshgrid` varies the second array along
the first axis, so `ys` is the slowest. -/
def gridPt (w i : Nat) : Nat × Nat × Nat := ((i / w) % w, i / (w * w), i % w)

/-- One leg, render/scripts/prime_spacing.py 40-42: the squared distance from 0 along one axis, around the box. -/
def leg (w x : Int) : Int := min (x ^ 2) ((w - x) ^ 2)

/-- Line 44: the sum for one point; the legs, squares already, are squared again. -/
def legSum (w i : Nat) : Int :=
  let (x, y, z) := gridPt w i
  leg w x ^ 2 + leg w y ^ 2 + leg w z ^ 2

/-- Lines 37-45 of render/scripts/prime_spacing.py for one prime: the smallest sum over the multiples of `p` below `w³`, 0
left out. `none`: `min` of nothing raises. The square root of line 50 is not taken here. -/
def spacing (w p : Nat) : Option Int :=
  (((List.range (w * w * w)).filter fun i => i % p = 0).tail.map (legSum w)).min?

end Verif.Py
