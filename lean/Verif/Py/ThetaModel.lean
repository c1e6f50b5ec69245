import Verif.Py.VecDerivModel
import Verif.Fp.RandModel

/-!
# Model of the angular bins of the plotting scripts

`bin_by_thetas` of `render/scripts/mcarlo.py`, `render/scripts/kde.py` and `render/scripts/2d_kde.py`. `rnd` is the rounding
of the machine: the identity for exact arithmetic, `f64` for floats. `w` is the full circle.
-/

set_option autoImplicit false

namespace Verif.Py

open Verif.Go

/-- `2 * np.pi` as a float. render/scripts/mcarlo.py 59. -/
def twoPi : ℚ := 884279719003555 / 2 ^ 47

/-- `x % w` of floats for `w > 0`: `fmod`, which is exact, and `+ w` if the result is negative.
render/scripts/mcarlo.py 62. -/
def pyMod (rnd : ℚ → ℚ) (x w : ℚ) : ℚ :=
  let r := x - w * (if 0 ≤ x then ⌊x / w⌋ else ⌈x / w⌉)
  if r < 0 then rnd (r + w) else r

/-- `int((theta % width) / dtheta)`, render/scripts/mcarlo.py 60 and 62; the quotient is not negative, `int` rounds down. -/
def thetaIdx (rnd : ℚ → ℚ) (w : ℚ) (bins : Nat) (θ : ℚ) : Int := ⌊rnd (pyMod rnd θ w / rnd (w / bins))⌋

/-- One turn of the loop, render/scripts/mcarlo.py 61-63. `none` is an `IndexError`. -/
def thetaTurn (rnd : ℚ → ℚ) (w : ℚ) (bins : Nat) (ptBins : List (List ℚ)) (p : ℚ × ℚ) : Option (List (List ℚ)) := do
  let idx := thetaIdx rnd w bins p.2
  let b ← pyRd ptBins idx
  pyWr ptBins idx (b ++ [p.1])

/-- `bin_by_thetas`, render/scripts/mcarlo.py 57-65, render/scripts/kde.py 13-21 and render/scripts/2d_kde.py 13-21; the
radii of each bin. No bins is a division by zero. -/
def binByThetas (rnd : ℚ → ℚ) (w : ℚ) (bins : Nat) (rs thetas : List ℚ) : Option (List (List ℚ)) :=
  if bins = 0 then none else (rs.zip thetas).foldlM (thetaTurn rnd w bins) (List.replicate bins [])

/-- `theta_bins`, render/scripts/mcarlo.py 64: the angles of the bins, without rounding. -/
def thetaCentres (w : ℚ) (bins : Nat) : List ℚ := (List.range bins).map fun (i : Nat) => w * (i + 1 / 2) / bins

end Verif.Py
