import Verif.Go.Slice
import Mathlib.Analysis.SpecialFunctions.Complex.Arg
import Mathlib.Analysis.SpecialFunctions.Trigonometric.Inverse
import Mathlib.Data.Matrix.Mul

/-!
# Model of the shells fitted to points

`render/scripts/penna.py`, `render/scripts/2d_kde.py`, `render/scripts/kde.py` and `render/scripts/andrey_penna.py`. Real
numbers without rounding. NumPy works on arrays entry by entry: functions here are for one point. `linalg.pinv` is a
parameter; `opt.leastsq` is left out, its argument `err_func` is modelled. A point at the origin gives NaN; here its
direction is 0.
-/

set_option autoImplicit false

namespace Verif.Py

/-- `np.arctan2(y, x)`, render/scripts/penna.py 69; the sign of a zero is left out. -/
noncomputable def atan2 (y x : ℝ) : ℝ := Complex.arg ⟨x, y⟩

/-- `np.sqrt(xs**2 + ys**2 + zs**2)`, render/scripts/penna.py 70. -/
noncomputable def radius (x y z : ℝ) : ℝ := Real.sqrt (x ^ 2 + y ^ 2 + z ^ 2)

/-- `np.arccos(zs / rs)`, render/scripts/penna.py 71. -/
noncomputable def polar (x y z : ℝ) : ℝ := Real.arccos (z / radius x y z)

/-- The loops of render/scripts/penna.py 73-82 and 112-122 (also render/scripts/2d_kde.py 234-243 and 258-268,
render/scripts/kde.py 132-141 and 156-166): the terms in the order they are appended. -/
noncomputable def trigCoeffs (n : Nat) (φ θ : ℝ) : List ℝ :=
  (List.range 2).flatMap fun k => (List.range (n + 1)).flatMap fun j => (List.range (n + 1)).map fun i =>
    Real.sin θ ^ (i + j) * Real.cos θ ^ k * Real.sin φ ^ j * Real.cos φ ^ i

/-- The loop `for idx, coeffs in enumerate(trig_coeffs): sum += c[idx] * coeffs`, render/scripts/penna.py 85-88 and 124-127,
from `idx` and `sum` on. `none` is an `IndexError`. -/
noncomputable def sumCoeffs (c : List ℝ) : Nat → ℝ → List ℝ → Option ℝ
  | _, s, [] => some s
  | idx, s, t :: l => (c[idx]?).bind fun a => sumCoeffs c (idx + 1) (s + a * t) l

/-- `penna_func(c_ijks, N)(phis, thetas)`, render/scripts/penna.py 110-128. -/
noncomputable def pennaFunc (c : List ℝ) (n : Nat) (φ θ : ℝ) : Option ℝ := sumCoeffs c 0 0 (trigCoeffs n φ θ)

/-- `err_func` of `penna_coeff`, render/scripts/penna.py 68-90: the residual of one point, as given to `opt.leastsq`. -/
noncomputable def errFunc (n : Nat) (p : List ℝ) (x y z : ℝ) : Option ℝ :=
  (sumCoeffs p 0 0 (trigCoeffs n (atan2 y x) (polar x y z))).map fun s => radius x y z - s

/-- The column of `M` for one point, in the order of the rows; `fast_penna_coeffs`, render/scripts/penna.py 96-107. -/
noncomputable def fastTerms (n : Nat) (x y z : ℝ) : List ℝ :=
  (List.range 2).flatMap fun k => (List.range (n + 1)).flatMap fun j => (List.range (n + 1)).map fun i =>
    radius x y z ^ (2 * n + 1 - i - j - k) * x ^ i * y ^ j * z ^ k

/-- The matrix `M`, render/scripts/penna.py 107. -/
noncomputable def fastMatrix (n : Nat) {m : Nat} (pts : Fin m → ℝ × ℝ × ℝ) :
    Matrix (Fin (2 * ((n + 1) * (n + 1)))) (Fin m) ℝ :=
  Matrix.of fun a p => (fastTerms n (pts p).1 (pts p).2.1 (pts p).2.2).getD a 0

/-- `rNs`, render/scripts/penna.py 98. -/
noncomputable def fastTarget (n : Nat) {m : Nat} (pts : Fin m → ℝ × ℝ × ℝ) (p : Fin m) : ℝ :=
  radius (pts p).1 (pts p).2.1 (pts p).2.2 ^ (2 * n + 1 + 1)

/-- `fast_penna_coeffs`, render/scripts/penna.py 95-108; `pinv` is the result of `linalg.pinv(M)`. -/
noncomputable def fastCoeffs (n : Nat) {m : Nat} (pts : Fin m → ℝ × ℝ × ℝ)
    (pinv : Matrix (Fin m) (Fin (2 * ((n + 1) * (n + 1)))) ℝ) : List ℝ :=
  List.ofFn (Matrix.vecMul (fastTarget n pts) pinv)

/-- `M` of render/scripts/andrey_penna.py 17-28 for one point, in the order of `m`; `I`, `J`, `K` of line 13. -/
noncomputable def andreyTerms (I J K : Nat) (x y z : ℝ) : List ℝ :=
  (List.range K).flatMap fun k => (List.range J).flatMap fun j => (List.range I).map fun i =>
    radius x y z ^ (I + J + K - 3 - i - j - k) * x ^ i * y ^ j * z ^ k

/-- The terms of `rho` in the order of `m`, render/scripts/andrey_penna.py 48-56; `phi` is the polar angle there. -/
noncomputable def andreyTrig (I J K : Nat) (φ θ : ℝ) : List ℝ :=
  (List.range K).flatMap fun k => (List.range J).flatMap fun j => (List.range I).map fun i =>
    Real.sin φ ^ (i + j) * Real.cos φ ^ k * Real.sin θ ^ j * Real.cos θ ^ i

/-- The point drawn for the angles, render/scripts/andrey_penna.py 48-60. -/
noncomputable def andreyPoint (I J K : Nat) (c : List ℝ) (φ θ : ℝ) : Option (ℝ × ℝ × ℝ) :=
  (sumCoeffs c 0 0 (andreyTrig I J K φ θ)).map fun ρ =>
    (ρ * Real.sin φ * Real.cos θ, ρ * Real.sin φ * Real.sin θ, ρ * Real.cos φ)

/-- The direction on the unit circle of a plane, render/scripts/penna.py 55-61. -/
noncomputable def planeDir (axis : Nat) (t : ℝ) : ℝ × ℝ × ℝ :=
  if axis = 0 then (0, Real.cos t, Real.sin t)
  else if axis = 1 then (Real.cos t, 0, Real.sin t)
  else (Real.cos t, Real.sin t, 0)

/-- The point of the curve of `plot_func` at the angle `t`, render/scripts/penna.py 53-66; the second argument of
`np.arccos` is where NumPy puts the result. -/
noncomputable def plotFunc (f : ℝ → ℝ → Option ℝ) (axis : Nat) (t : ℝ) : Option (ℝ × ℝ) :=
  let d := planeDir axis t
  (f (atan2 d.2.1 d.1) (Real.arccos d.2.2)).map fun r => (Real.cos t * r, Real.sin t * r)

/-- `chi2`, render/scripts/penna.py 159-161, of the values of the function and the radii. -/
noncomputable def chi2 (vals rs : List ℝ) (n : Nat) : ℝ :=
  (List.zipWith (fun v r => (v - r) ^ 2) vals rs).sum / ((rs.length : ℝ) - n - 1) / (rs.sum / rs.length) ^ 2

end Verif.Py
