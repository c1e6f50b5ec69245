import Verif.Go.Float

/-!
# The limits of the exponent

`float64` and `float32` with their largest and smallest numbers: results below the smallest normal number are rounded to
multiples of the smallest positive number, results that are too large are infinite (`none`). NaN only comes from infinite
operands and is left out with them. The sign of zero is left out.
-/

set_option autoImplicit false

namespace Verif.Go

/-- A binary format: `p` bits, smallest normal number `2 ^ emin`, all numbers below `2 ^ emax`. -/
structure Format where
  p : ℕ
  emin : ℤ
  emax : ℤ

/-- `float64` (IEEE 754, table 3.5). -/
def double : Format := ⟨53, -1022, 1024⟩

/-- `float32` (IEEE 754, table 3.5). -/
def single : Format := ⟨24, -126, 128⟩

/-- The smallest positive number. -/
def Format.tiny (f : Format) : ℚ := two (f.emin - (f.p - 1))

/-- A result rounded to the format, before the test for overflow. -/
def Format.round (f : Format) (x : ℚ) : ℚ := if |x| < two f.emin then rne (x / f.tiny) * f.tiny else rnd f.p x

/-- The result of an operation whose exact result is `x`; `none` is an infinity. -/
def Format.op (f : Format) (x : ℚ) : Option ℚ := if |f.round x| < two f.emax then some (f.round x) else none

/-- The finite numbers of the format. -/
def Format.Fits (f : Format) (x : ℚ) : Prop := Rep f.p x ∧ (∃ k : ℤ, x = k * f.tiny) ∧ |x| < (2 : ℚ) ^ f.emax

example : double.op (1 / 10) = some (3602879701896397 / 2 ^ 55) := by decide +kernel
example : single.op (3 / 2 ^ 150) = some (2 / 2 ^ 149) := by decide +kernel
example : single.op (2 ^ 128 - 2 ^ 103) = none := by decide +kernel
example : single.op (2 ^ 128 - 2 ^ 103 - 1) = some (2 ^ 128 - 2 ^ 104) := by decide +kernel

theorem Format.tiny_eq (f : Format) : f.tiny = (2 : ℚ) ^ (f.emin - ((f.p : ℤ) - 1)) := two_eq _

theorem Format.tiny_pos (f : Format) : 0 < f.tiny := by rw [f.tiny_eq]; positivity

theorem Format.emin_eq (f : Format) : (2 : ℚ) ^ f.emin = 2 ^ (f.p - 1 : ℤ) * f.tiny := by
  rw [f.tiny_eq, ← zpow_add₀ (two_ne_zero)]
  congr 1
  ring

variable {f : Format}

theorem Format.Fits.neg {x : ℚ} (h : f.Fits x) : f.Fits (-x) := by
  obtain ⟨h1, ⟨k, hk⟩, h2⟩ := h
  exact ⟨rep_neg h1, ⟨-k, by rw [hk]; push_cast; ring⟩, by rwa [abs_neg]⟩

theorem Format.fits_zero (f : Format) : f.Fits 0 := ⟨rep_zero _, ⟨0, by simp⟩, by rw [abs_zero]; positivity⟩

/-- A multiple of the smallest number is rounded as if there were no limit below. -/
theorem Format.round_multiple {k : ℤ} : f.round (k * f.tiny) = rnd f.p (k * f.tiny) := by
  unfold Format.round
  split_ifs with h
  · rw [two_eq, f.emin_eq, abs_mul, abs_of_pos f.tiny_pos] at h
    have h := lt_of_mul_lt_mul_right h f.tiny_pos.le
    have hr : Rep f.p (k * f.tiny) := by
      refine ⟨k, f.emin - ((f.p : ℤ) - 1), ?_, by rw [f.tiny_eq]⟩
      have : (2 : ℚ) ^ (f.p - 1 : ℤ) ≤ 2 ^ (f.p : ℤ) := zpow_le_zpow_right₀ (by norm_num) (by omega)
      have h := h.trans_le this
      rw [zpow_natCast] at h
      exact_mod_cast h
    rw [rnd_of_rep hr, mul_div_cancel_right₀ _ f.tiny_pos.ne', rne_int]
  · rfl

/-- A result that is not below the normal numbers is rounded as if there were no limit below. -/
theorem Format.round_normal {x : ℚ} (h : (2 : ℚ) ^ f.emin ≤ |x|) : f.round x = rnd f.p x := by
  unfold Format.round
  rw [if_neg (by rw [two_eq]; exact not_lt.2 h)]

theorem Format.round_zero (f : Format) : f.round 0 = 0 := by
  have := f.round_multiple (k := 0)
  simpa [rnd_zero] using this

/-- The rounded result is the exact result's nearest number of the format. -/
theorem Format.round_nearest (hp : 0 < f.p) (x : ℚ) {y : ℚ} (hy : f.Fits y) : |f.round x - x| ≤ |y - x| := by
  unfold Format.round
  split_ifs with h
  · obtain ⟨k, hk⟩ := hy.2.1
    have h := rne_nearest (x / f.tiny) k
    have e : ∀ n : ℤ, (n : ℚ) * f.tiny - x = ((n : ℚ) - x / f.tiny) * f.tiny := fun n => by
      rw [sub_mul, div_mul_cancel₀ _ f.tiny_pos.ne']
    rw [hk, e, e, abs_mul, abs_mul]
    exact mul_le_mul_of_nonneg_right h (abs_nonneg _)
  · exact rnd_nearest hp x hy.1

/-- A rounded result that is not too large is a number of the format. -/
theorem Format.op_fits (hp : 0 < f.p) {x y : ℚ} (h : f.op x = some y) : f.Fits y := by
  unfold Format.op at h
  split_ifs at h with hl
  have h := Option.some.inj h
  rw [two_eq] at hl
  subst h
  have main : Rep f.p (f.round x) ∧ ∃ k : ℤ, f.round x = k * f.tiny := by
    unfold Format.round
    split_ifs with hx
    · refine ⟨?_, _, rfl⟩
      suffices hb : |rne (x / f.tiny)| ≤ 2 ^ f.p by
        have := rep_int hb hp (f.emin - ((f.p : ℤ) - 1))
        rwa [← f.tiny_eq] at this
      rw [two_eq, f.emin_eq] at hx
      have hq : |x / f.tiny| < 2 ^ (f.p - 1 : ℤ) := by
        rw [abs_div, abs_of_pos f.tiny_pos, div_lt_iff₀ f.tiny_pos]
        exact hx
      have e : (2 : ℚ) ^ (f.p - 1 : ℤ) = ((2 ^ (f.p - 1) : ℤ) : ℚ) := by
        rw [show (f.p - 1 : ℤ) = ((f.p - 1 : ℕ) : ℤ) by omega, zpow_natCast]
        push_cast
        rfl
      rw [e, abs_lt] at hq
      have l1 := rne_mono hq.1.le
      have l2 := rne_mono hq.2.le
      rw [rne_int] at l2
      rw [rne_neg, rne_int] at l1
      refine (abs_le.2 ⟨l1, l2⟩).trans ?_
      exact pow_le_pow_right₀ (by norm_num) (by omega)
    · refine ⟨rep_rnd hp x, ?_⟩
      rw [two_eq, not_lt] at hx
      have : (2 : ℚ) ^ f.emin ≤ |rnd f.p x| := by
        rcases le_total 0 x with h0 | h0
        · rw [abs_of_nonneg h0] at hx
          exact (le_rnd hp (rep_two hp _) hx).trans (le_abs_self _)
        · rw [abs_of_nonpos h0] at hx
          have := le_rnd hp (rep_two hp _) hx
          rw [rnd_neg] at this
          exact this.trans (neg_le_abs _)
      obtain ⟨k, hk⟩ := rep_multiple (rep_rnd hp x) this
      exact ⟨k, by rw [f.tiny_eq]; exact hk⟩
  exact ⟨main.1, main.2, hl⟩

/-- A number of the format stays as it is. -/
theorem Format.op_of_fits {x : ℚ} (h : f.Fits x) : f.op x = some x := by
  obtain ⟨h1, ⟨k, hk⟩, h2⟩ := h
  have : f.round x = x := by rw [hk, f.round_multiple, ← hk, rnd_of_rep h1]
  unfold Format.op
  rw [this, two_eq, if_pos h2]

/-- A rounded result is at most as large as every number of `p` bits that the exact one is at most as large as. -/
theorem abs_rnd_le {p : ℕ} (hp : 0 < p) {x M : ℚ} (hM : Rep p M) (h : |x| ≤ M) : |rnd p x| ≤ M := by
  rw [abs_le] at h ⊢
  exact ⟨le_rnd hp (rep_neg hM) h.1, rnd_le hp hM h.2⟩

/-- Sums of numbers of the format are rounded as without limits, as long as they are bounded by a number of the format:
nothing is lost below the normal numbers. -/
theorem Format.op_add (hp : 0 < f.p) {x y M : ℚ} (hx : f.Fits x) (hy : f.Fits y) (hM : f.Fits M) (h : |x + y| ≤ M) :
    f.op (x + y) = some (rnd f.p (x + y)) := by
  obtain ⟨-, ⟨k, hk⟩, -⟩ := hx
  obtain ⟨-, ⟨l, hl⟩, -⟩ := hy
  have e : x + y = ((k + l : ℤ) : ℚ) * f.tiny := by rw [hk, hl]; push_cast; ring
  have hr : f.round (x + y) = rnd f.p (x + y) := by rw [e, f.round_multiple]
  unfold Format.op
  rw [hr, two_eq, if_pos ((abs_rnd_le hp hM.1 h).trans_lt ((le_abs_self M).trans_lt hM.2.2))]

theorem Format.op_sub (hp : 0 < f.p) {x y M : ℚ} (hx : f.Fits x) (hy : f.Fits y) (hM : f.Fits M) (h : |x - y| ≤ M) :
    f.op (x - y) = some (rnd f.p (x - y)) := by
  rw [sub_eq_add_neg] at h ⊢
  exact f.op_add hp hx hy.neg hM h

/-- Results between the smallest normal number and a number of the format are rounded as without limits. -/
theorem Format.op_normal (hp : 0 < f.p) {x M : ℚ} (hM : f.Fits M) (h0 : x = 0 ∨ (2 : ℚ) ^ f.emin ≤ |x|) (h : |x| ≤ M) :
    f.op x = some (rnd f.p x) := by
  have hr : f.round x = rnd f.p x := by
    rcases h0 with rfl | h0
    · rw [f.round_zero, rnd_zero]
    · exact f.round_normal h0
  unfold Format.op
  rw [hr, two_eq, if_pos ((abs_rnd_le hp hM.1 h).trans_lt ((le_abs_self M).trans_lt hM.2.2))]

/-- Sums of numbers of the format: rounded as without limits, or infinite. -/
theorem Format.op_add_eq {x y : ℚ} (hx : f.Fits x) (hy : f.Fits y) :
    f.op (x + y) = if |rnd f.p (x + y)| < (2 : ℚ) ^ f.emax then some (rnd f.p (x + y)) else none := by
  obtain ⟨-, ⟨k, hk⟩, -⟩ := hx
  obtain ⟨-, ⟨l, hl⟩, -⟩ := hy
  have e : x + y = ((k + l : ℤ) : ℚ) * f.tiny := by rw [hk, hl]; push_cast; ring
  have hr : f.round (x + y) = rnd f.p (x + y) := by rw [e, f.round_multiple]
  unfold Format.op
  rw [hr, two_eq]

/-- Powers of two between the smallest number and the upper limit. -/
theorem Format.fits_two (hp : 0 < f.p) {e : ℤ} (h1 : f.emin - ((f.p : ℤ) - 1) ≤ e) (h2 : e < f.emax) : f.Fits ((2 : ℚ) ^ e) := by
  refine ⟨rep_two hp e, ⟨2 ^ (e - (f.emin - ((f.p : ℤ) - 1))).toNat, ?_⟩, ?_⟩
  · rw [f.tiny_eq]
    push_cast
    rw [← zpow_natCast, Int.toNat_of_nonneg (by omega), ← zpow_add₀ two_ne_zero]
    congr 1
    ring
  · rw [abs_of_pos (by positivity)]
    exact zpow_lt_zpow_right₀ (by norm_num) h2

/-- Whole numbers that are not too large. -/
theorem Format.fits_int (hp : 0 < f.p) (h1 : f.emin ≤ (f.p : ℤ) - 1) (h2 : (f.p : ℤ) < f.emax) {m : ℤ} (hm : |m| ≤ 2 ^ f.p) :
    f.Fits (m : ℚ) := by
  refine ⟨rep_of_int hm hp, ⟨m * 2 ^ (-(f.emin - ((f.p : ℤ) - 1))).toNat, ?_⟩, ?_⟩
  · rw [f.tiny_eq]
    push_cast
    rw [mul_assoc, ← zpow_natCast, ← zpow_add₀ two_ne_zero, Int.toNat_of_nonneg (by omega)]
    simp
  · have : |(m : ℚ)| ≤ 2 ^ (f.p : ℤ) := by
      rw [zpow_natCast]
      exact_mod_cast hm
    exact this.trans_lt (zpow_lt_zpow_right₀ (by norm_num) h2)

/-- A result is infinite only if it is larger than all numbers of the format. -/
theorem Format.op_none (hp : 0 < f.p) (he : f.emin < f.emax) {x y : ℚ} (h : f.op x = none) (hy : f.Fits y) : |y| < |x| := by
  by_contra hc
  push Not at hc
  have hb : |f.round x| < (2 : ℚ) ^ f.emax := by
    by_cases hx : (2 : ℚ) ^ f.emin ≤ |x|
    · rw [f.round_normal hx]
      have hr : Rep f.p |y| := by
        rcases abs_choice y with e | e <;> rw [e]
        · exact hy.1
        · exact rep_neg hy.1
      exact (abs_rnd_le hp hr hc).trans_lt hy.2.2
    · push Not at hx
      have hf := f.fits_two hp (e := f.emin) (by omega) he
      have key : |f.round x| ≤ (2 : ℚ) ^ f.emin := by
        rcases le_total 0 x with h0 | h0
        · have h1 := f.round_nearest hp x hf
          have h2 := f.round_nearest hp x (f.fits_zero)
          rw [abs_of_nonneg h0] at hx
          rw [abs_of_nonneg (by linarith : 0 ≤ (2 : ℚ) ^ f.emin - x), abs_le] at h1
          rw [zero_sub, abs_neg, abs_of_nonneg h0, abs_le] at h2
          exact abs_le.2 ⟨by linarith, by linarith⟩
        · have h1 := f.round_nearest hp x hf.neg
          have h2 := f.round_nearest hp x (f.fits_zero)
          rw [abs_of_nonpos h0] at hx
          rw [abs_of_nonpos (by linarith : -(2 : ℚ) ^ f.emin - x ≤ 0), abs_le] at h1
          rw [zero_sub, abs_neg, abs_of_nonpos h0, abs_le] at h2
          exact abs_le.2 ⟨by linarith, by linarith⟩
      exact key.trans_lt (zpow_lt_zpow_right₀ (by norm_num) he)
  unfold Format.op at h
  rw [two_eq, if_pos hb] at h
  cases h

end Verif.Go
