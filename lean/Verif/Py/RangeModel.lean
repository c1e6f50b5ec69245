import Verif.Py.SmoothModel

/-!
# Model of the splashback radii found with several windows

`find_splashback`, `splashback_range` and the choices of a caustic of `render/scripts/plot_profile.py` and
`render/scripts/plot_savgol_profile.py`. SciPy's `savgol_filter` is a parameter (`Savgol`).
-/

set_option autoImplicit false

namespace Verif.Py

open Verif.Go

/-- `find_splashback`, render/scripts/plot_savgol_profile.py 114-118 (with `lim` -5) and render/scripts/plot_profile.py 126-134
(with `lim` 0). The result `some none` is `np.nan`, `none` is an exception. The choice of the point, lines 101-111 and 113-123,
is `rSpIdx`. A single radius is a division by zero, here the quotient is 0. -/
def findSplashback (sg : Savgol) (lim : ℚ) (rs rhos : List ℚ) (window : Nat) : Option (Option ℚ) := do
  let sm ← sg.smooth rhos window
  let dr := ((← pyRd rs (-1)) - (← pyRd rs 0)) / ((rs.length : ℚ) - 1)
  let ds ← sg.deriv rhos window dr
  let k ← rSpIdx lim rs.length sm ds
  if k = -1 then some none else (rs[k.toNat]?).map some

/-- The loop of `splashback_range`, render/scripts/plot_savgol_profile.py 124-129 and render/scripts/plot_profile.py 138-143:
`find` is the call in line 127, `n` the number of radii and `ks` the numbers left of the `xrange`. -/
def rangeLoop (find : Nat → Option (Option ℚ)) (n : Nat) : List Nat → List ℚ → Option (List ℚ)
  | [], out => some out
  | k :: ks, out =>
    if k * 2 + 1 ≥ n then some out
    else
      match find (k * 2 + 1) with
      | none => none
      | some none => some out
      | some (some r) => rangeLoop find n ks (out ++ [r])

/-- `xrange(2, range_max//2)`, render/scripts/plot_savgol_profile.py 124 and render/scripts/plot_profile.py 138. -/
def rangeKs (rangeMax : Nat) : List Nat := List.range' 2 (rangeMax / 2 - 2)

/-- `splashback_range`, render/scripts/plot_savgol_profile.py 120-130. `lg` and `pw` are `np.log10` and `10**`, here functions of
rationals. -/
def savgolRange (lg pw : ℚ → ℚ) (sg : Savgol) (rs rhos : List ℚ) (rangeMax : Nat) : Option (List ℚ) := do
  let r0 ← pyRd rs 0
  let rs' := if r0 ≤ 0 then rs.drop 1 else rs
  let rhos' := if r0 ≤ 0 then rhos.drop 1 else rhos
  let out ← rangeLoop (findSplashback sg (-5) (rs'.map lg) (rhos'.map lg)) (rs'.map lg).length (rangeKs rangeMax) []
  some (out.map pw)

/-- `splashback_range`, render/scripts/plot_profile.py 136-144. Line 141 takes the number returned by `find_splashback` apart
into two, which is an exception (`TypeError`) whatever the number. -/
def profileRange (sg : Savgol) (rs rhos : List ℚ) (rangeMax : Nat) : Option (List ℚ) :=
  rangeLoop (fun w => (findSplashback sg 0 rs rhos w).bind fun _ => none) rs.length (rangeKs rangeMax) []

/-- `lr_range, deriv_range = splashback_range(mids, vals)`, render/scripts/plot_profile.py 258: an exception unless the array has
two entries. -/
def plotRange (sg : Savgol) (mids vals : List ℚ) : Option (ℚ × ℚ) :=
  match profileRange sg mids vals 101 with
  | some [a, b] => some (a, b)
  | _ => none

/-- `[rs[i]], [derivs[i]], [rhos[i]]`, render/scripts/plot_profile.py 104 and 111. -/
def causticAt (rs rhos ds : List ℚ) (i : Nat) : Option (List (ℚ × ℚ × ℚ)) := do
  some [(← rs[i]?, ← ds[i]?, ← rhos[i]?)]

/-- `naive_caustic_min`, render/scripts/plot_profile.py 101-104. The three lists returned are one list of triples. -/
def naiveCausticMin (rs rhos ds : List ℚ) : Option (List (ℚ × ℚ × ℚ)) :=
  match argmin (fun i => ds.getD i 0) (List.range ds.length) with
  | none => none
  | some m => if m = 0 ∨ (m : Int) = (rs.length : Int) - 1 then some [] else causticAt rs rhos ds m

/-- `local_caustic_min`, render/scripts/plot_profile.py 106-111. -/
def localCausticMin (rs rhos ds : List ℚ) : Option (List (ℚ × ℚ × ℚ)) :=
  let idxs := (argrelmin ds).filter fun (i : Nat) => i ≠ 0 ∧ (i : Int) ≠ (rs.length : Int) - 1
  match argmin (fun i => ds.getD i 0) idxs with
  | none => some []
  | some m => causticAt rs rhos ds m

/-- The choice of lines 225-236 of render/scripts/plot_profile.py by the name in line 166. There is no function
`low_local_caustic_min` (an exception, `NameError`); for any other name the lists of the segment before are kept, `prev`. -/
def chooseCaustic (kind : String) (prev : List (ℚ × ℚ × ℚ)) (rs rhos ds : List ℚ) : Option (List (ℚ × ℚ × ℚ)) :=
  if kind = "naive" then naiveCausticMin rs rhos ds
  else if kind = "local" then localCausticMin rs rhos ds
  else if kind = "low_local" then none
  else some prev

end Verif.Py
