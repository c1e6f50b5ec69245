import Mathlib.Analysis.SpecialFunctions.Pow.Real
import Mathlib.Analysis.Real.Pi.Bounds

/-!
# Model of the densities and radii of `render/scripts/read_halo.py`

Real numbers, without rounding. Left out: `exit(0)` in line 64, which ends the program before the table is printed.
-/

set_option autoImplicit false

namespace Verif.Py.HaloUnits

/-- `H100`, render/scripts/read_halo.py 8. The functions below are given for any value of it. -/
noncomputable def h100 : ℝ := 7 / 10

/-- `H0_mks`, render/scripts/read_halo.py 11. -/
noncomputable def h0Mks : ℝ := 324086 / 10 ^ 23

/-- `G_mks`, render/scripts/read_halo.py 12. -/
noncomputable def gMks : ℝ := 667259 / 10 ^ 16

/-- `mpc_mks`, render/scripts/read_halo.py 13. -/
noncomputable def mpcMks : ℝ := 308560 * 10 ^ 17

/-- `msun_mks`, render/scripts/read_halo.py 14. -/
noncomputable def msunMks : ℝ := 198900 * 10 ^ 25

/-- `omega_M`, render/scripts/read_halo.py 16. -/
noncomputable def omegaM : ℝ := 27 / 100

/-- `omega_L`, render/scripts/read_halo.py 17. -/
noncomputable def omegaL : ℝ := 73 / 100

/-- `omega_R`, render/scripts/read_halo.py 19. -/
def omegaR : ℝ := 0

/-- `hubble_frac`, render/scripts/read_halo.py 21-24. -/
noncomputable def hubbleFrac (z : ℝ) : ℝ := Real.sqrt (omegaR * (1 + z) ^ 4 + omegaM * (1 + z) ^ 3 + omegaL)

/-- `rho_c_mks`, render/scripts/read_halo.py 26-28. -/
noncomputable def rhoCMks (h z : ℝ) : ℝ :=
  let H := hubbleFrac z * h0Mks * h
  3 * H * H / (8 * Real.pi * gMks)

/-- `rho_c`, render/scripts/read_halo.py 30-31. -/
noncomputable def rhoC (h z : ℝ) : ℝ := rhoCMks h z * mpcMks * mpcMks * mpcMks / msunMks

/-- `rho_c_h`, render/scripts/read_halo.py 34-36. -/
noncomputable def rhoCH (h z : ℝ) : ℝ :=
  let mpcMksH := mpcMks / h
  let msunMksH := msunMks / h
  rhoCMks h z * mpcMksH * mpcMksH * mpcMksH / msunMksH

/-- `rho_m`, render/scripts/read_halo.py 38-39. -/
noncomputable def rhoM (h z : ℝ) : ℝ := rhoC h z * omegaM * (1 + z) ^ 3

/-- `rho_m_h`, render/scripts/read_halo.py 41-42. -/
noncomputable def rhoMH (h z : ℝ) : ℝ := rhoCH h z * omegaM * (1 + z) ^ 3

/-- `m_to_r`, render/scripts/read_halo.py 44-46. -/
noncomputable def mToR (m rho : ℝ) : ℝ :=
  let v := m / rho
  (v * 3 / 4 / Real.pi) ^ ((1 : ℝ) / 3)

/-- The radius in the table, render/scripts/read_halo.py 94 and 96. -/
noncomputable def r200cOf (m : ℝ) : ℝ := mToR m (200 * rhoCH h100 0)

end Verif.Py.HaloUnits
