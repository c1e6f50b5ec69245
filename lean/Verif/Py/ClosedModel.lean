import Mathlib.Analysis.SpecialFunctions.Trigonometric.Basic
import Mathlib.Analysis.SpecialFunctions.Pow.Real

/-!
# Model of the closed curve through the peaks

`get_spline` and `filter_nearby` of `KDETree`, `render/scripts/2d_kde.py`. Real numbers; SciPy's spline is a parameter:
`spl xs ys` is `intr.UnivariateSpline(xs, ys, s=0)`.
-/

set_option autoImplicit false

namespace Verif.Py

open Classical

/-- The angles of the nodes of a level, `theta_bins`, render/scripts/2d_kde.py 20 and 57. -/
noncomputable def thRow (bins : Nat) : List ℝ := (List.range bins).map fun i : Nat => 2 * Real.pi * ((i : ℝ) + 0.5) / bins

/-- `np.append(np.append(ths - 2*np.pi, ths), ths + 2*np.pi)`, render/scripts/2d_kde.py 157 and 162. -/
noncomputable def tripleThs (ths : List ℝ) : List ℝ :=
  (ths.map (· - 2 * Real.pi) ++ ths) ++ ths.map (· + 2 * Real.pi)

/-- `np.append(np.append(maxes, maxes), maxes)`, render/scripts/2d_kde.py 158 and 163. -/
def tripleRs (maxes : List ℝ) : List ℝ := (maxes ++ maxes) ++ maxes

/-- `get_spline`, render/scripts/2d_kde.py 154-172: the curve in direction `θ`. `base` is the constant `_base_spline_r` (line
38), `maxes` and `ths` are what `get_conn_maxes` returns. -/
noncomputable def curve (spl : List ℝ → List ℝ → ℝ → ℝ) (base : Bool) (maxes ths : List ℝ) (θ : ℝ) : ℝ :=
  let spThs := tripleThs ths
  let spMaxes := tripleRs maxes
  if base then spl spThs spMaxes θ
  else
    let spXs := List.zipWith (fun r t => Real.cos t * r) spMaxes spThs
    let spYs := List.zipWith (fun r t => Real.sin t * r) spMaxes spThs
    let x := spl spThs spXs θ
    let y := spl spThs spYs θ
    Real.sqrt (x ^ 2 + y ^ 2)

/-- `xs[valid]` of an array and an array of truth values, render/scripts/2d_kde.py 178. -/
def maskBy {α : Type} (valid : List Bool) (xs : List α) : List α := ((xs.zip valid).filter fun p => p.2).map Prod.fst

/-- `filter_nearby`, render/scripts/2d_kde.py 174-178; `dr` is `None` or a distance, `h` is `self._h`, `sp` the curve. Arrays of
different lengths are an exception. -/
noncomputable def filterNearby (sp : ℝ → ℝ) (h : ℝ) (rs thetas : List ℝ) (dr : Option ℝ) :
    Option (List ℝ × List ℝ × List Nat) :=
  if rs.length ≠ thetas.length then none
  else
    let dr := dr.getD h
    let valid := List.zipWith (fun r t => decide (|r - sp t| < dr)) rs thetas
    some (maskBy valid rs, maskBy valid thetas, maskBy valid (List.range valid.length))

end Verif.Py
