import Mathlib.Data.Rat.Defs
import Mathlib.Algebra.Order.Ring.Rat
import Mathlib.Algebra.Order.Field.Rat

/-!
# Model of the bins on the sphere and of the fits with several limits

`healpix_bins`, `chi2` and `multi_fit` of `render/scripts/kde.py`. Rational numbers without rounding; the functions of healpy and
the fit of a shell (`penna_coeff`, `penna_func`) are parameters.
-/

set_option autoImplicit false

namespace Verif.Py

/-- `healpix_bins`, render/scripts/kde.py 174-180: `ipix` are the pixels of the points (`pf.ang2pix`), `npix` is
`pf.nside2npix(nside)`. `none` is an `IndexError`; pixels are not negative. -/
def healpixBins (npix : Nat) (rs : List ℚ) (ipix : List Nat) : Option (List (List ℚ)) :=
  (rs.zip ipix).foldlM (fun bins p => (bins[p.2]?).map fun b => bins.set p.2 (b ++ [p.1])) (List.replicate npix [])

/-- `chi2`, render/scripts/kde.py 187-189. `none` is an infinite value or NaN: the division by zero of NumPy. -/
def chi2Nu (vals fit : List ℚ) (nu : Int) : Option ℚ :=
  let d : Int := (vals.length : Int) - 1 - nu
  if d = 0 ∧ vals ≠ [] then none else some ((List.zipWith (fun v f => (v - f) ^ 2 / (d : ℚ)) vals fit).sum)

/-- One turn of the loop of `multi_fit`, render/scripts/kde.py 194-209. A point is any type `P`, `r` its radius; `coeff` is
`penna_coeff(N, ...)` and `shell c` is `penna_func(c, N)` in the direction of the point. -/
def multiFitTurn {P C : Type} (r : P → ℚ) (coeff : List P → C) (shell : C → P → ℚ) (pts : List P) (N : Nat)
    (out : List (C × Option ℚ)) (lim : ℚ) : List (C × Option ℚ) :=
  let inside := pts.filter fun p => decide (r p < lim)
  let nu := (N + 1) ^ 2 * 2
  if inside.length ≤ nu then out
  else
    let c := coeff inside
    out ++ [(c, chi2Nu (inside.map r) (inside.map (shell c)) nu)]

/-- `multi_fit`, render/scripts/kde.py 191-209: the two lists returned are one list of pairs. -/
def multiFit {P C : Type} (r : P → ℚ) (coeff : List P → C) (shell : C → P → ℚ) (pts : List P) (N : Nat) (lims : List ℚ) :
    List (C × Option ℚ) :=
  lims.foldl (multiFitTurn r coeff shell pts N) []

end Verif.Py
