import Verif.Go.Loops
import Verif.Go.Slice
import Mathlib.Data.Rat.Defs

/-!
# Model of `nan_split` of the profile scripts

`render/scripts/profile.py`. An array of floats is a list of `Option ℚ` in which `none` is NaN.
-/

set_option autoImplicit false

namespace Verif.Py

open Verif.Go

/-- A float that may be NaN. `np.isnan` is `Option.isNone`. render/scripts/profile.py 97. -/
abbrev F := Option ℚ

/-- `np.array(xs[lo: hi])`, render/scripts/profile.py 100-101 and 108-109. -/
def slice {α : Type} (xs : List α) (lo hi : Int) : List α := (xs.take hi.toNat).drop lo.toNat

/-- The variables of `nan_split`, render/scripts/profile.py 92-94; the two lists of groups are one list of pairs. -/
structure Split where
  groups : List (List F × List F)
  start : Int
  prev : Bool

/-- One turn of the loop, render/scripts/profile.py 96-106; `nan x y` is the condition of line 97. -/
def splitTurn (nan : F → F → Bool) (xs ys : List F) (i : Int) (s : Split) : Option Split := do
  let y ← rd ys i
  let x ← rd xs i
  if nan x y then
    if s.prev = false ∧ i ≠ s.start then
      some { s with groups := s.groups ++ [(slice xs s.start i, slice ys s.start i)], prev := true }
    else some { s with prev := true }
  else
    if s.prev then some { s with start := i, prev := false } else some { s with prev := false }

/-- `nan_split`, render/scripts/profile.py 88-110; with another condition also render/scripts/plot_profile.py 77-98
and render/scripts/plot_savgol_profile.py 77-98. -/
def nanSplitWith (nan : F → F → Bool) (xs ys : List F) : Option (List (List F × List F)) := do
  let s ← forRange 0 xs.length (splitTurn nan xs ys) ⟨[], 0, false⟩
  some (if s.prev then s.groups
    else s.groups ++ [(slice xs s.start xs.length, slice ys s.start ys.length)])

/-- The condition of render/scripts/profile.py 97. -/
def nanEither (x y : F) : Bool := y.isNone || x.isNone

/-- The condition of render/scripts/plot_profile.py 86 and render/scripts/plot_savgol_profile.py 86. -/
def nanSecond (_ y : F) : Bool := y.isNone

/-- `nan_split` of render/scripts/profile.py 88-110. -/
def nanSplit (xs ys : List F) : Option (List (List F × List F)) := nanSplitWith nanEither xs ys

end Verif.Py
