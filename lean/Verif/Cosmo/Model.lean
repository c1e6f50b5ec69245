import Mathlib.Analysis.SpecialFunctions.Pow.Real
import Mathlib.Analysis.Real.Pi.Bounds

/-!
# Model of `cosmo/`

`float64` values are real numbers, without rounding. `math.Sqrt` of a negative number is NaN in Go and 0 here, and a
division by zero is 0 here; the theorems exclude both.
-/

set_option autoImplicit false

namespace Verif.Cosmo

/-- `cosmo/const.go:4` (`GMks`). -/
noncomputable def gMks : ℝ := 667259 / 10 ^ 16
/-- `cosmo/const.go:5` (`MpcMks`). -/
noncomputable def mpcMks : ℝ := 308560 * 10 ^ 17
/-- `cosmo/const.go:6` (`MSunMks`). -/
noncomputable def mSunMks : ℝ := 198900 * 10 ^ 25

/-- `cosmo/param.go:11-13` (`HubbleFrac`). `math.Pow` with exponent 3 is the third power. -/
noncomputable def hubbleFrac (omegaM omegaL z : ℝ) : ℝ := Real.sqrt (omegaM * (1 + z) ^ 3 + omegaL)

/-- `cosmo/param.go:16-24` (`rhoCriticalMks`). -/
noncomputable def rhoCriticalMks (h0 omegaM omegaL z : ℝ) : ℝ :=
  let h0Mks := (h0 * 1000) / mpcMks
  let h100 := h0 / 100
  let h0MksH := h0Mks / h100
  let h := hubbleFrac omegaM omegaL z * h0MksH
  3 * h * h / (8 * Real.pi * gMks)

/-- `cosmo/param.go:30-32` (`RhoCritical`). -/
noncomputable def rhoCritical (h0 omegaM omegaL z : ℝ) : ℝ := rhoCriticalMks h0 omegaM omegaL z * mpcMks ^ 3 / mSunMks

/-- `cosmo/param.go:36-38` (`RhoAverage`). -/
noncomputable def rhoAverage (h0 omegaM omegaL z : ℝ) : ℝ := rhoCritical h0 omegaM omegaL 0 * omegaM * (1 + z) ^ 3

end Verif.Cosmo
