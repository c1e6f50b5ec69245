import Verif.Go.Slice
import Mathlib.Analysis.SpecialFunctions.Pow.Real

/-!
# Model of the logarithmic fits and conversions of `render/scripts/deriv.py`

Real numbers without rounding. NumPy works on arrays entry by entry: functions of `x0` are for one entry. A division by zero
gives NaN or infinity in NumPy and 0 here.
-/

set_option autoImplicit false

namespace Verif.Py

/-- `log_to_linear`, render/scripts/deriv.py 44-54: `dlogx_dlogys` is not a name of the function nor of the module, and the
function raises whatever it is given. -/
def logToLinear (_logX _logY _d : ℝ) (_base : Option ℝ) : Option ℝ := none

/-- `linear_to_log`, render/scripts/deriv.py 56-63. -/
noncomputable def linearToLog (x y d : ℝ) (_base : Option ℝ) : ℝ := d * x / y

/-- `linear_to_log_base`, render/scripts/deriv.py 65-75. -/
noncomputable def linearToLogBase (x d : ℝ) : Option ℝ → ℝ
  | none => d * x
  | some base => d * (x * Real.log base)

/-- `log_to_linear_base`, render/scripts/deriv.py 77-87. -/
noncomputable def logToLinearBase (logX d : ℝ) : Option ℝ → ℝ
  | none => d / Real.exp logX
  | some base => d / (base ^ logX * Real.log base)

/-- A `ChurazovInterpolant`: the logarithms of the points and the width; render/scripts/deriv.py 106-116. -/
structure Churazov where
  fs : List ℝ
  ss : List ℝ
  deltaR : ℝ

/-- `__init__`, render/scripts/deriv.py 106-116. -/
noncomputable def churazov (xs ys : List ℝ) (deltaR : ℝ) : Churazov := ⟨xs.map Real.log, ys.map Real.log, deltaR⟩

/-- `_weights(x0)` at one point `f`, render/scripts/deriv.py 162-164. -/
noncomputable def Churazov.weight (c : Churazov) (x0 f : ℝ) : ℝ := Real.exp (-(Real.log x0 - f) ^ 2 / (2 * c.deltaR ^ 2))

/-- `_local_params`, render/scripts/deriv.py 146-160. -/
noncomputable def Churazov.localParams (c : Churazov) (x0 : ℝ) : ℝ × ℝ :=
  let ws := c.fs.map (c.weight x0)
  let fw := List.zipWith (· * ·) c.fs ws
  let fwsSum := (List.zipWith (· * ·) fw c.ss).sum
  let wSum := ws.sum
  let wsSum := (List.zipWith (· * ·) ws c.ss).sum
  let fwSum := fw.sum
  let ffwSum := (List.zipWith (· * ·) (List.zipWith (· * ·) c.fs c.fs) ws).sum
  let a := (fwsSum * wSum - wsSum * fwSum) / (ffwSum * wSum - fwSum ^ 2)
  let b := (wsSum - a * fwSum) / wSum
  (a, b)

/-- `curve`, render/scripts/deriv.py 122-127. -/
noncomputable def Churazov.curve (c : Churazov) (x0 : ℝ) : ℝ :=
  Real.exp ((c.localParams x0).1 * Real.log x0 + (c.localParams x0).2)

/-- `log_deriv`, render/scripts/deriv.py 129-133. -/
noncomputable def Churazov.logDeriv (c : Churazov) (x0 : ℝ) : ℝ := (c.localParams x0).1

/-- `deriv`, render/scripts/deriv.py 135-140. -/
noncomputable def Churazov.deriv (c : Churazov) (x0 : ℝ) : ℝ :=
  Real.exp ((c.localParams x0).1 * Real.log x0 + (c.localParams x0).2) * (c.localParams x0).1 / x0

end Verif.Py
