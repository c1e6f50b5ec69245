import Mathlib.Analysis.SpecialFunctions.Exp
import Mathlib.Analysis.SpecialFunctions.Trigonometric.Basic
import Mathlib.Analysis.SpecialFunctions.Pow.Real

/-!
# Model of the density estimates of radii

`gaussian_kde_spline` and its users in `render/scripts/mcarlo.py`, `render/scripts/kde.py` and `render/scripts/2d_kde.py`. Real
numbers; the spline of SciPy with `s=0` is taken to go through its points, and the callers look at it in just these points.
-/

set_option autoImplicit false

namespace Verif.Py

open Classical

/-- `np.linspace(low, high, bins)`, render/scripts/mcarlo.py 178. -/
noncomputable def linspaceR (low high : ℝ) (bins : Nat) : List ℝ :=
  (List.range bins).map fun i : Nat => low + i * ((high - low) / ((bins : ℝ) - 1))

/-- The values of `gaussian_kde_spline` in its points, render/scripts/mcarlo.py 176-183, render/scripts/kde.py 57-64 and
render/scripts/2d_kde.py 23-30. -/
noncomputable def kdeVals (xs : List ℝ) (h low high : ℝ) (bins : Nat) : List ℝ :=
  let evalXs := linspaceR low high bins
  let vals := xs.foldl (fun vals x => List.zipWith (fun v e => v + Real.exp (-(((x - e) / h) ^ 2))) vals evalXs)
    (evalXs.map fun _ => 0)
  vals.map fun v => v / (Real.sqrt (Real.pi * 2) * xs.length * h)

/-- `np.argmax`, the first largest entry, render/scripts/mcarlo.py 197: `best` is the best so far, found at `at_`. -/
noncomputable def argmaxFrom (best : ℝ) (at_ : Nat) : Nat → List ℝ → Nat
  | _, [] => at_
  | k, v :: l => if best < v then argmaxFrom v k (k + 1) l else argmaxFrom best at_ (k + 1) l

/-- `np.argmax`; `none` is the exception for an empty array. -/
noncomputable def argmaxR : List ℝ → Option Nat
  | [] => none
  | v :: l => some (argmaxFrom v 0 1 l)

/-- Radius and height of the peak, render/scripts/kde.py 74-83 and render/scripts/mcarlo.py 193-198. -/
noncomputable def kdePeak (rBin : List ℝ) (h low high : ℝ) : Option (ℝ × ℝ) := do
  let vals := kdeVals rBin h low high 100
  let maxi ← argmaxR vals
  let r ← (linspaceR low high 100)[maxi]?
  let v ← vals[maxi]?
  some (r, v)

/-- `argmaxes`, render/scripts/2d_kde.py 32-34, for real numbers. -/
noncomputable def argmaxesR (xs : List ℝ) : List Nat :=
  (List.range' 1 (xs.length - 2)).filter fun i =>
    decide (xs.getD (i + 1) 0 < xs.getD i 0) && decide (xs.getD (i - 1) 0 < xs.getD i 0)

/-- The maxima of a node of the tree, render/scripts/2d_kde.py 61 and 71. -/
noncomputable def nodeMaxima (rBin : List ℝ) (h maxR : ℝ) : List ℝ :=
  (argmaxesR (kdeVals rBin h 0 maxR 100)).map fun i => (linspaceR 0 maxR 100).getD i 0

/-- `np.max`, render/scripts/2d_kde.py 41; `none` is the exception for an empty array. -/
noncomputable def maxOfR : List ℝ → Option ℝ
  | [] => none
  | v :: l => some (l.foldl max v)

/-- The root of the tree: `self._maxes_tree[0][0][0]` in the constructor, render/scripts/2d_kde.py 40-47, 71 and 76; `none` is
an exception. -/
noncomputable def treeRoot (rs : List ℝ) : Option ℝ := do
  let maxR ← maxOfR rs
  let h := maxR / 10
  (nodeMaxima rs h maxR)[0]?

end Verif.Py
