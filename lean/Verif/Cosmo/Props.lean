import Verif.Cosmo.Model

/-!
# C87: the densities of the universe
-/

set_option autoImplicit false

namespace Verif.Cosmo

/-- A cosmology and redshift in which the density formulas mean something: matter, no negative dark energy, after the
beginning, and a Hubble constant. -/
structure Physical (h0 omegaM omegaL z : ℝ) : Prop where
  h : h0 ≠ 0
  m : 0 < omegaM
  l : 0 ≤ omegaL
  z : -1 < z

/-- The density `3 (100 km/s/Mpc)² / (8 π G)` in solar masses per cubic megaparsec, from the constants of `cosmo/const.go`. -/
noncomputable def rhoUnit : ℝ := 3 * (100 * 1000 / mpcMks) ^ 2 / (8 * Real.pi * gMks) * (mpcMks ^ 3 / mSunMks)

theorem rhoUnit_pos : 0 < rhoUnit := by
  unfold rhoUnit mpcMks gMks mSunMks
  have := Real.pi_pos
  positivity

/-- The critical density is the unit density times the square of the expansion rate; the Hubble constant drops out. -/
theorem rhoCritical_eq {h0 omegaM omegaL z : ℝ} (h : h0 ≠ 0) (hr : 0 ≤ omegaM * (1 + z) ^ 3 + omegaL) :
    rhoCritical h0 omegaM omegaL z = rhoUnit * (omegaM * (1 + z) ^ 3 + omegaL) := by
  have hs : hubbleFrac omegaM omegaL z ^ 2 = omegaM * (1 + z) ^ 3 + omegaL := Real.sq_sqrt hr
  have hm : mpcMks ≠ 0 := by unfold mpcMks; norm_num
  unfold rhoCritical rhoCriticalMks rhoUnit
  have e : (h0 * 1000 / mpcMks) / (h0 / 100) = 100 * 1000 / mpcMks := by
    field_simp
  simp only [e]
  rw [← hs]
  ring

theorem radicand_pos {h0 omegaM omegaL z : ℝ} (p : Physical h0 omegaM omegaL z) : 0 < omegaM * (1 + z) ^ 3 + omegaL := by
  have h1 : 0 < 1 + z := by linarith [p.z]
  have := mul_pos p.m (pow_pos h1 3)
  linarith [p.l]

/-- C87: the mean matter density at redshift 0 is the matter fraction of the critical density, and it grows as the third
power of `1 + z`. -/
theorem C87_average (h0 omegaM omegaL z z' : ℝ) :
    rhoAverage h0 omegaM omegaL 0 = omegaM * rhoCritical h0 omegaM omegaL 0 ∧
    rhoAverage h0 omegaM omegaL z * (1 + z') ^ 3 = rhoAverage h0 omegaM omegaL z' * (1 + z) ^ 3 := by
  unfold rhoAverage
  constructor <;> ring

example : rhoAverage 70 (3/10) (7/10) 0 = 3/10 * rhoCritical 70 (3/10) (7/10) 0 := (C87_average _ _ _ 0 0).1

/-- C87: the expansion rate is 1 today exactly in a flat universe, is strictly increasing in redshift, and its square obeys
the Friedmann equation. -/
theorem C87_hubbleFrac (omegaM omegaL : ℝ) (hm : 0 < omegaM) (hl : 0 ≤ omegaL) :
    (hubbleFrac omegaM omegaL 0 = 1 ↔ omegaM + omegaL = 1) ∧
    (∀ z z', -1 ≤ z → z < z' → hubbleFrac omegaM omegaL z < hubbleFrac omegaM omegaL z') ∧
    ∀ z, -1 ≤ z → hubbleFrac omegaM omegaL z ^ 2 = omegaM * (1 + z) ^ 3 + omegaL := by
  refine ⟨?_, ?_, ?_⟩
  · unfold hubbleFrac
    rw [Real.sqrt_eq_one]
    norm_num
  · intro z z' h1 h2
    unfold hubbleFrac
    have h3 : 0 ≤ 1 + z := by linarith
    apply Real.sqrt_lt_sqrt
    · have := mul_nonneg hm.le (pow_nonneg h3 3)
      linarith
    · have : (1 + z) ^ 3 < (1 + z') ^ 3 := pow_lt_pow_left₀ (by linarith) h3 (by norm_num)
      have := mul_lt_mul_of_pos_left this hm
      linarith
  · intro z h1
    have h3 : 0 ≤ 1 + z := by linarith
    have := mul_nonneg hm.le (pow_nonneg h3 3)
    exact Real.sq_sqrt (by linarith)

example : hubbleFrac (3/10) (7/10) 0 = 1 := ((C87_hubbleFrac (3/10) (7/10) (by norm_num) (by norm_num)).1).mpr (by norm_num)

/-- C87: the critical density is positive, scales with the square of the expansion rate, does not depend on the Hubble
constant (units of `1/h`), and grows with redshift. -/
theorem C87_critical (h0 omegaM omegaL z : ℝ) (p : Physical h0 omegaM omegaL z) :
    0 < rhoCritical h0 omegaM omegaL z ∧
    (∀ h0', h0' ≠ 0 → rhoCritical h0' omegaM omegaL z = rhoCritical h0 omegaM omegaL z) ∧
    rhoCritical h0 omegaM omegaL z * hubbleFrac omegaM omegaL 0 ^ 2 =
      rhoCritical h0 omegaM omegaL 0 * hubbleFrac omegaM omegaL z ^ 2 ∧
    ∀ z', z < z' → rhoCritical h0 omegaM omegaL z < rhoCritical h0 omegaM omegaL z' := by
  have hr := radicand_pos p
  have p0 : Physical h0 omegaM omegaL 0 := ⟨p.h, p.m, p.l, by norm_num⟩
  refine ⟨?_, ?_, ?_, ?_⟩
  · rw [rhoCritical_eq p.h hr.le]
    exact mul_pos rhoUnit_pos hr
  · intro h0' h'
    rw [rhoCritical_eq p.h hr.le, rhoCritical_eq h' hr.le]
  · rw [rhoCritical_eq p.h hr.le, rhoCritical_eq p0.h (radicand_pos p0).le]
    unfold hubbleFrac
    rw [Real.sq_sqrt hr.le, Real.sq_sqrt (radicand_pos p0).le]
    ring
  · intro z' hz
    have p' : Physical h0 omegaM omegaL z' := ⟨p.h, p.m, p.l, by linarith [p.z]⟩
    rw [rhoCritical_eq p.h hr.le, rhoCritical_eq p'.h (radicand_pos p').le]
    apply mul_lt_mul_of_pos_left _ rhoUnit_pos
    have h3 : 0 ≤ 1 + z := by linarith [p.z]
    have : (1 + z) ^ 3 < (1 + z') ^ 3 := pow_lt_pow_left₀ (by linarith) h3 (by norm_num)
    have := mul_lt_mul_of_pos_left this p.m
    linarith

theorem example_physical : Physical 70 (3/10) (7/10) 1 := ⟨by norm_num, by norm_num, by norm_num, by norm_num⟩

example : 0 < rhoCritical 70 (3/10) (7/10) 1 := (C87_critical _ _ _ _ example_physical).1

/-- C87: in a flat universe the mean matter density never exceeds the critical density, and their ratio is the matter
fraction at that redshift. -/
theorem C87_ratio (h0 omegaM omegaL z : ℝ) (p : Physical h0 omegaM omegaL z) (flat : omegaM + omegaL = 1) :
    rhoAverage h0 omegaM omegaL z * hubbleFrac omegaM omegaL z ^ 2 =
      rhoCritical h0 omegaM omegaL z * (omegaM * (1 + z) ^ 3) ∧
    rhoAverage h0 omegaM omegaL z ≤ rhoCritical h0 omegaM omegaL z := by
  have hr := radicand_pos p
  have p0 : Physical h0 omegaM omegaL 0 := ⟨p.h, p.m, p.l, by norm_num⟩
  have e0 : rhoCritical h0 omegaM omegaL 0 = rhoUnit := by
    rw [rhoCritical_eq p0.h (radicand_pos p0).le]
    norm_num [flat]
  unfold rhoAverage
  rw [e0, rhoCritical_eq p.h hr.le]
  unfold hubbleFrac
  rw [Real.sq_sqrt hr.le]
  refine ⟨by ring, ?_⟩
  have := mul_nonneg rhoUnit_pos.le p.l
  linarith

example := C87_ratio 70 (3/10) (7/10) 1 example_physical (by norm_num)

/-- C87: the critical density of a flat universe today is the known 2.77e11 solar masses per cubic megaparsec (in units with
the Hubble constant divided out). -/
theorem C87_value (h0 omegaM omegaL : ℝ) (p : Physical h0 omegaM omegaL 0) (flat : omegaM + omegaL = 1) :
    2.77e11 < rhoCritical h0 omegaM omegaL 0 ∧ rhoCritical h0 omegaM omegaL 0 < 2.78e11 := by
  have e0 : rhoCritical h0 omegaM omegaL 0 = rhoUnit := by
    rw [rhoCritical_eq p.h (radicand_pos p).le]
    norm_num [flat]
  rw [e0]
  have h1 := Real.pi_gt_d4
  have h2 := Real.pi_lt_d4
  have h3 := Real.pi_pos
  have e : rhoUnit = (3 * 308560 * 10 ^ 18 / (8 * 667259 * 198900)) / Real.pi := by
    unfold rhoUnit mpcMks gMks mSunMks
    field_simp
    norm_num
  rw [e, lt_div_iff₀ h3, div_lt_iff₀ h3]
  constructor <;> nlinarith

example := C87_value 70 (3/10) (7/10) ⟨by norm_num, by norm_num, by norm_num, by norm_num⟩ (by norm_num)

end Verif.Cosmo
