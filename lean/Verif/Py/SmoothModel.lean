import Verif.Py.VecDerivModel
import Verif.Py.RspModel

/-!
# Model of smoothed profiles

`SmoothedProfile` and `MultiSmoothedProfile` of `render/scripts/profile.py`. SciPy's `savgol_filter` is a parameter. Radii and
densities are kept as logarithms; taking `10**` of them, lines 311-312, is left out.
-/

set_option autoImplicit false

namespace Verif.Py

open Verif.Go

/-- `signal.savgol_filter(ys, window, 4)` and `signal.savgol_filter(ys, window, 4, deriv=1, delta=delta)`;
render/scripts/profile.py 306-310. `none` is an exception. -/
structure Savgol where
  smooth : List ℚ → Nat → Option (List ℚ)
  deriv : List ℚ → Nat → ℚ → Option (List ℚ)

/-- A smoothed segment: the logarithms of its radii and densities, and its slopes. render/scripts/profile.py 311-313. -/
structure SmSeg where
  lrs : List ℚ
  lrhos : List ℚ
  lderivs : List ℚ

/-- One turn of the loop of `SmoothedProfile.__init__`, render/scripts/profile.py 304-313. -/
def smoothTurn (sg : Savgol) (window : Nat) (segs : List SmSeg) (g : List ℚ × List ℚ) : Option (List SmSeg) :=
  if g.1.length ≤ window then some segs
  else do
    let rhos ← sg.smooth g.2 window
    let dlr := ((← pyRd g.1 (-1)) - (← pyRd g.1 0)) / g.1.length
    let ld ← sg.deriv g.2 window dlr
    some (segs ++ [⟨g.1, rhos, ld⟩])

/-- `SmoothedProfile.__init__`, render/scripts/profile.py 301-318: the segments. -/
def smoothedProfile (sg : Savgol) (window : Nat) (groups : List (List ℚ × List ℚ)) : Option (List SmSeg) :=
  groups.foldlM (smoothTurn sg window) []

/-- The loop of `_multi_smooth`, render/scripts/profile.py 343-353, over the windows left. `rsp w` is the splashback radius of
the segment smoothed with window `w`: `none` if there is none or the segment is too short. Gives the windows and radii
gathered, and whether it came to line 350. A radius of 0 is a division by zero, here the quotient is 0. -/
def multiLoop (rsp : Nat → Option ℚ) : List Nat → Option ℚ → List (Nat × ℚ) → List (Nat × ℚ) × Bool
  | [], _, profs => (profs, false)
  | w :: ws, prev, profs =>
    match rsp w with
    | none => (profs, false)
    | some r =>
      match prev with
      | none => multiLoop rsp ws (some r) (profs ++ [(w, r)])
      | some p => if |r - p| / r > 1 / 10 then (profs, true) else multiLoop rsp ws (some r) (profs ++ [(w, r)])

/-- `xrange(5, max_window, 2)`, render/scripts/profile.py 343. -/
def windows (maxWindow : Nat) : List Nat := (List.range ((maxWindow - 5 + 1) / 2)).map fun i => 5 + 2 * i

/-- `_multi_smooth`, render/scripts/profile.py 339-361: the windows and radii, and whether the segment is valid. `none` is an
exception: the maximum of the differences of a single radius (line 359). -/
def multiSmooth (rsp : Nat → Option ℚ) (sgWindow maxWindow : Nat) : Option (List (Nat × ℚ) × Bool) :=
  let r := multiLoop rsp (windows maxWindow) none []
  if r.2 then some (r.1, false)
  else if (r.1.length : Int) ≤ ((sgWindow : Int) - 5) / 2 then some (r.1, false)
  else if r.1.length ≤ 1 then none
  else some (r.1, true)

/-- `r_sp` of a `MultiSmoothedProfile` for a valid segment, render/scripts/profile.py 366-367: the radius of the profile at
`_prof_idx` (line 330). -/
def multiRsp (profs : List (Nat × ℚ)) (sgWindow : Nat) : Option ℚ := (pyRd profs (((sgWindow : Int) - 5) / 2)).map Prod.snd

end Verif.Py
