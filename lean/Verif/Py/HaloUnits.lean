import Verif.Py.HaloUnitsModel
import Verif.Cosmo.Props

/-!
# C193: densities and radii of the halo script against those of the library
-/

set_option autoImplicit false

namespace Verif.Py.HaloUnits

/-- The part of the critical density that does not depend on the redshift. -/
noncomputable def unit : ℝ := 3 * h0Mks ^ 2 / (8 * Real.pi * gMks) * (mpcMks ^ 3 / msunMks)

theorem unit_pos : 0 < unit := by
  unfold unit h0Mks gMks mpcMks msunMks
  have := Real.pi_pos
  positivity

theorem radicand_nonneg {z : ℝ} (hz : -1 ≤ z) : 0 ≤ omegaM * (1 + z) ^ 3 + omegaL := by
  have : 0 ≤ (1 + z) ^ 3 := pow_nonneg (by linarith) 3
  unfold omegaM omegaL
  linarith

theorem hubbleFrac_sq {z : ℝ} (hz : -1 ≤ z) : hubbleFrac z ^ 2 = omegaM * (1 + z) ^ 3 + omegaL := by
  unfold hubbleFrac
  rw [show omegaR = 0 from rfl, zero_mul, zero_add]
  exact Real.sq_sqrt (radicand_nonneg hz)

theorem rhoCH_eq {h z : ℝ} (hh : h ≠ 0) (hz : -1 ≤ z) : rhoCH h z = unit * (omegaM * (1 + z) ^ 3 + omegaL) := by
  rw [← hubbleFrac_sq hz]
  have h1 : msunMks ≠ 0 := by unfold msunMks; norm_num
  have h2 : gMks ≠ 0 := by unfold gMks; norm_num
  have h3 := Real.pi_ne_zero
  unfold rhoCH rhoCMks unit
  simp only
  field_simp

/-- C193: in units with the Hubble constant the critical density does not depend on it, and the value without it is larger by
its square. -/
theorem C193_units (h h' z : ℝ) (hh : h ≠ 0) (hh' : h' ≠ 0) (hz : -1 ≤ z) :
    rhoCH h z = rhoCH h' z ∧ rhoC h z = h ^ 2 * rhoCH h z := by
  refine ⟨by rw [rhoCH_eq hh hz, rhoCH_eq hh' hz], ?_⟩
  have h1 : msunMks ≠ 0 := by unfold msunMks; norm_num
  unfold rhoC rhoCH
  simp only
  field_simp

example : rhoCH (7 / 10) 1 = rhoCH 1 1 := (C193_units (7 / 10) 1 1 (by norm_num) (by norm_num) (by norm_num)).1

theorem unit_ratio : unit < Cosmo.rhoUnit ∧ Cosmo.rhoUnit * (1 - 1 / 10 ^ 6) < unit := by
  have e : unit = Cosmo.rhoUnit * (h0Mks / (100 * 1000 / Cosmo.mpcMks)) ^ 2 := by
    have h1 : Cosmo.mpcMks ≠ 0 := by unfold Cosmo.mpcMks; norm_num
    unfold unit Cosmo.rhoUnit
    rw [show mpcMks = Cosmo.mpcMks from rfl, show gMks = Cosmo.gMks from rfl, show msunMks = Cosmo.mSunMks from rfl]
    field_simp
  have hp := Cosmo.rhoUnit_pos
  have r1 : (h0Mks / (100 * 1000 / Cosmo.mpcMks)) ^ 2 < 1 := by unfold h0Mks Cosmo.mpcMks; norm_num
  have r2 : 1 - 1 / 10 ^ 6 < (h0Mks / (100 * 1000 / Cosmo.mpcMks)) ^ 2 := by unfold h0Mks Cosmo.mpcMks; norm_num
  rw [e]
  constructor
  · nlinarith
  · exact mul_lt_mul_of_pos_left r2 hp

/-- C193: at every redshift the critical density of the script is that of the library for the same cosmology, but for less than
one part in a million. -/
theorem C193_critical (h h0 z : ℝ) (hh : h ≠ 0) (hh0 : h0 ≠ 0) (hz : -1 ≤ z) :
    rhoCH h z ≤ Cosmo.rhoCritical h0 omegaM omegaL z ∧
      Cosmo.rhoCritical h0 omegaM omegaL z * (1 - 1 / 10 ^ 6) ≤ rhoCH h z := by
  have hr := radicand_nonneg hz
  rw [rhoCH_eq hh hz, Cosmo.rhoCritical_eq hh0 hr]
  obtain ⟨u1, u2⟩ := unit_ratio
  constructor
  · exact mul_le_mul_of_nonneg_right u1.le hr
  · have := mul_le_mul_of_nonneg_right u2.le hr
    linarith [this]

example : rhoCH (7 / 10) 2 ≤ Cosmo.rhoCritical 70 omegaM omegaL 2 :=
  (C193_critical (7 / 10) 70 2 (by norm_num) (by norm_num) (by norm_num)).1

/-- C193: the sphere with the radius of the script has the given density. -/
theorem C193_radius (m rho : ℝ) (hm : 0 ≤ m) (hr : 0 < rho) :
    0 ≤ mToR m rho ∧ 4 / 3 * Real.pi * mToR m rho ^ 3 * rho = m := by
  have hp := Real.pi_pos
  have h0 : 0 ≤ m / rho * 3 / 4 / Real.pi := by positivity
  unfold mToR
  refine ⟨Real.rpow_nonneg h0 _, ?_⟩
  have e : ((m / rho * 3 / 4 / Real.pi) ^ ((1 : ℝ) / 3)) ^ 3 = m / rho * 3 / 4 / Real.pi := by
    rw [← Real.rpow_natCast, ← Real.rpow_mul h0]
    norm_num
  simp only
  rw [e]
  field_simp

example : 4 / 3 * Real.pi * mToR 1000 2 ^ 3 * 2 = 1000 := (C193_radius 1000 2 (by norm_num) (by norm_num)).2

/-- C193: the radius in the table of the script encloses 200 times the critical density of today, as the library has it, but for
one part in a million. -/
theorem C193_r200c (m h0 : ℝ) (hm : 0 ≤ m) (hh0 : h0 ≠ 0) :
    let sphere := 4 / 3 * Real.pi * r200cOf m ^ 3 * (200 * Cosmo.rhoCritical h0 omegaM omegaL 0)
    m ≤ sphere ∧ sphere * (1 - 1 / 10 ^ 6) ≤ m := by
  intro sphere
  obtain ⟨c1, c2⟩ := C193_critical h100 h0 0 (by unfold h100; norm_num) hh0 (by norm_num)
  have hpos : 0 < rhoCH h100 0 := by
    rw [rhoCH_eq (by unfold h100; norm_num) (by norm_num)]
    refine mul_pos unit_pos ?_
    unfold omegaM omegaL
    norm_num
  obtain ⟨r0, e⟩ := C193_radius m (200 * rhoCH h100 0) hm (by linarith)
  have hv : 0 ≤ 4 / 3 * Real.pi * r200cOf m ^ 3 := by
    have := Real.pi_pos
    have : 0 ≤ r200cOf m ^ 3 := pow_nonneg r0 3
    positivity
  have e' : 4 / 3 * Real.pi * r200cOf m ^ 3 * (200 * rhoCH h100 0) = m := e
  constructor
  · rw [← e']
    exact mul_le_mul_of_nonneg_left (by linarith) hv
  · rw [← e']
    have : sphere * (1 - 1 / 10 ^ 6) =
        4 / 3 * Real.pi * r200cOf m ^ 3 * (200 * (Cosmo.rhoCritical h0 omegaM omegaL 0 * (1 - 1 / 10 ^ 6))) := by
      simp only [sphere]
      ring
    rw [this]
    exact mul_le_mul_of_nonneg_left (by linarith) hv

example : (1000000 : ℝ) ≤ 4 / 3 * Real.pi * r200cOf 1000000 ^ 3 * (200 * Cosmo.rhoCritical 70 omegaM omegaL 0) :=
  (C193_r200c 1000000 70 (by norm_num) (by norm_num)).1

/-- C193: today the mean density of the script is that of the library, but for one part in a million. Missing: other redshifts,
where it is wrong (`C193_counterexample`). -/
theorem C193_mean_partial (h h0 : ℝ) (hh : h ≠ 0) (hh0 : h0 ≠ 0) :
    rhoMH h 0 ≤ Cosmo.rhoAverage h0 omegaM omegaL 0 ∧ Cosmo.rhoAverage h0 omegaM omegaL 0 * (1 - 1 / 10 ^ 6) ≤ rhoMH h 0 := by
  obtain ⟨c1, c2⟩ := C193_critical h h0 0 hh hh0 (by norm_num)
  have hm : 0 ≤ omegaM * (1 + 0) ^ 3 := by unfold omegaM; norm_num
  unfold rhoMH Cosmo.rhoAverage
  constructor
  · have := mul_le_mul_of_nonneg_right c1 hm
    linarith
  · have := mul_le_mul_of_nonneg_right c2 hm
    linarith

example : rhoMH (7 / 10) 0 ≤ Cosmo.rhoAverage 70 omegaM omegaL 0 := (C193_mean_partial (7 / 10) 70 (by norm_num) (by norm_num)).1

/-- C193 is false for the mean density at other redshifts: the script takes the matter fraction of the critical density of that
time and then adds the growth once more, so that the value is too large by the square of the expansion rate. -/
theorem C193_counterexample (h h0 z : ℝ) (hh : h ≠ 0) (hh0 : h0 ≠ 0) (hz : 0 < z) :
    Cosmo.rhoAverage h0 omegaM omegaL z * (1 - 1 / 10 ^ 6) * (1 + 81 / 100 * z) < rhoMH h z := by
  have hr := radicand_nonneg (z := z) (by linarith)
  have hr0 := radicand_nonneg (z := 0) (by norm_num)
  unfold rhoMH Cosmo.rhoAverage
  rw [rhoCH_eq hh (by linarith), Cosmo.rhoCritical_eq hh0 hr0]
  have u2 := unit_ratio.2
  have hup := Cosmo.rhoUnit_pos
  have hE : 1 + 81 / 100 * z < omegaM * (1 + z) ^ 3 + omegaL := by
    unfold omegaM omegaL
    have : 0 < z ^ 2 := by positivity
    have : 0 < z ^ 3 := by positivity
    nlinarith
  have e0 : omegaM * (1 + 0) ^ 3 + omegaL = 1 := by unfold omegaM omegaL; norm_num
  have hg : 0 < omegaM * (1 + z) ^ 3 := by unfold omegaM; positivity
  rw [e0]
  have s1 : Cosmo.rhoUnit * (1 - 1 / 10 ^ 6) * (1 + 81 / 100 * z) < unit * (omegaM * (1 + z) ^ 3 + omegaL) := by
    have p1 : 0 < Cosmo.rhoUnit * (1 - 1 / 10 ^ 6) := by
      have : (0 : ℝ) < 1 - 1 / 10 ^ 6 := by norm_num
      positivity
    have p2 : 0 < 1 + 81 / 100 * z := by positivity
    exact mul_lt_mul'' u2 hE p1.le p2.le
  have := mul_lt_mul_of_pos_right s1 hg
  linarith

example : Cosmo.rhoAverage 70 omegaM omegaL 1 * (1 - 1 / 10 ^ 6) * (1 + 81 / 100 * 1) < rhoMH (7 / 10) 1 :=
  C193_counterexample (7 / 10) 70 1 (by norm_num) (by norm_num) (by norm_num)

end Verif.Py.HaloUnits
