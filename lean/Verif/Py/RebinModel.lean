import Verif.Py.SplitModel
import Mathlib.Algebra.Order.Ring.Rat

/-!
# Model of the conversion of a curve to other bins

`BinConverter` of `render/scripts/profile.py`, `SplinedBinConverter` of `render/scripts/plot_profile.py` and
`render/scripts/plot_savgol_profile.py`. SciPy's spline is a parameter: `spline xs ys a b` is
`UnivariateSpline(xs, ys, s=0).integral(a, b)`.
-/

set_option autoImplicit false

namespace Verif.Py

open Verif.Go

/-- `np.linspace(low, high, bins + 1)`, render/scripts/profile.py 26. -/
def binEdges (low high : ℚ) (bins : Nat) : List ℚ := (List.range (bins + 1)).map fun (i : Nat) => low + i * ((high - low) / bins)

/-- `np.searchsorted(edges, x)` for ascending `edges`: how many are smaller. render/scripts/profile.py 41 and 43. -/
def searchsorted (edges : List ℚ) (x : ℚ) : Nat := (edges.filter (· < x)).length

/-- `_first_bin`, render/scripts/profile.py 62-64. -/
def firstBin (I : ℚ → ℚ → ℚ) (edges : List ℚ) (x0 : ℚ) : Option (List ℚ) := do
  let e ← rd edges 1
  if x0 = e then some [] else some [I x0 e / (e - x0)]

/-- `_mid_bins`, render/scripts/profile.py 66-72; an array of negative size is an error. All indices are inside. -/
def midBins (I : ℚ → ℚ → ℚ) (edges : List ℚ) : Option (List ℚ) :=
  if edges.length < 3 then none
  else some ((List.range (edges.length - 3)).map fun i =>
    I (edges.getD (i + 1) 0) (edges.getD (i + 2) 0) / (edges.getD (i + 2) 0 - edges.getD (i + 1) 0))

/-- `_last_bin`, render/scripts/profile.py 74-76. -/
def lastBin (I : ℚ → ℚ → ℚ) (edges : List ℚ) (xl : ℚ) : Option (List ℚ) := do
  let e ← rd edges ((edges.length : Int) - 2)
  if xl = e then some [] else some [I e xl / (xl - e)]

/-- `convert`, render/scripts/profile.py 32-60 (`trim`), and without lines 57-58 render/scripts/plot_profile.py 20-41 and
render/scripts/plot_savgol_profile.py 20-41. `none` is an exception, `some none` is the result `(None, None)`, `some (some
(edges, vals))` the converted curve. -/
def convert (trim : Bool) (edges : List ℚ) (spline : List ℚ → List ℚ → ℚ → ℚ → ℚ) (xs ys : List ℚ) :
    Option (Option (List ℚ × List ℚ)) :=
  if xs.length ≠ ys.length then none
  else
    let keep := (xs.zip ys).filter fun p => decide (edges.headD 0 ≤ p.1) && decide (p.1 ≤ edges.getLastD 0)
    let xs := keep.map Prod.fst
    let ys := keep.map Prod.snd
    if xs.length ≤ 3 then some none
    else do
      let x0 ← rd xs 0
      let xl ← rd xs ((xs.length : Int) - 1)
      let low := searchsorted edges x0
      let low := if low = 0 then 1 else low
      let high := searchsorted edges xl
      let I := spline xs ys
      if high = low then some (some ([x0, xl], [I x0 xl / (xl - x0)]))
      else do
        let edges := slice edges ((low : Int) - 1) ((high : Int) + 1)
        let first ← firstBin I edges x0
        let mid ← midBins I edges
        let last ← lastBin I edges xl
        let edges := if trim ∧ first = [] then edges.drop 1 else edges
        let edges := if trim ∧ last = [] then edges.take (edges.length - 1) else edges
        some (some (edges, first ++ mid ++ last))

end Verif.Py
