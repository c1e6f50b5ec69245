import Verif.Calc.Round

/-!
# C199: tables whose derivatives are computed without rounding
-/

set_option autoImplicit false

namespace Verif.Calc

open Verif.Go Verif.Mat

/-- A number of 53 bits. -/
theorem fl_scaled (fused : Bool) {z : ℤ} (h : |z| ≤ 2 ^ 53) (g : ℤ) : (fp 53 fused).fl (z * 2 ^ g) = z * 2 ^ g :=
  rnd_of_rep (rep_int h (by norm_num) g)

theorem mac_scaled (fused : Bool) {a b z : ℤ} (g : ℤ) (h1 : |b * z| ≤ 2 ^ 53) (h2 : |a + b * z| ≤ 2 ^ 53) :
    (fp 53 fused).mac (a * 2 ^ g) b (z * 2 ^ g) = ((a + b * z : ℤ) : ℚ) * 2 ^ g := by
  show mulAdd fused 53 b (z * 2 ^ g) (a * 2 ^ g) = _
  have e1 : (b : ℚ) * (z * 2 ^ g) = ((b * z : ℤ) : ℚ) * 2 ^ g := by push_cast; ring
  have e2 : ((b * z : ℤ) : ℚ) * 2 ^ g + a * 2 ^ g = ((a + b * z : ℤ) : ℚ) * 2 ^ g := by push_cast; ring
  have r1 := fl_scaled fused h1 g
  have r2 := fl_scaled fused h2 g
  unfold mulAdd
  rw [e1]
  split
  · rw [e2]; exact r2
  · change rnd 53 _ = _ at r1
    rw [r1, e2]; exact r2

theorem fl_two (fused : Bool) (e : ℤ) : (fp 53 fused).fl ((2 : ℚ) ^ e) = 2 ^ e := by
  have := fl_scaled fused (z := 1) (by norm_num) e
  simpa using this

theorem half_scaled (z : ℤ) (g e : ℤ) : (z : ℚ) * 2 ^ g / 2 ^ e = z * 2 ^ (g - e) := by
  rw [zpow_sub₀ (by norm_num : (2 : ℚ) ≠ 0), mul_div_assoc]

theorem num2_scaled (fused : Bool) {a b c : ℤ} (g : ℤ) (ha : |a| ≤ 2 ^ 50) (hb : |b| ≤ 2 ^ 50) (hc : |c| ≤ 2 ^ 50) :
    num2R (fp 53 fused) (a * 2 ^ g) (b * 2 ^ g) (c * 2 ^ g) = ((-3 * a + 4 * b - c : ℤ) : ℚ) * 2 ^ g := by
  rw [abs_le] at ha hb hc
  unfold num2R
  have e1 : -3 * ((a : ℚ) * 2 ^ g) = ((-3 * a : ℤ) : ℚ) * 2 ^ g := by push_cast; ring
  have m := mac_scaled fused (a := -3 * a) (b := 4) (z := b) g (abs_le.mpr ⟨by omega, by omega⟩) (abs_le.mpr ⟨by omega, by omega⟩)
  have e4 : (((4 : ℤ)) : ℚ) = 4 := by norm_num
  rw [e4] at m
  rw [e1, fl_scaled fused (abs_le.mpr ⟨by omega, by omega⟩) g, m, ← sub_mul, ← Int.cast_sub,
    fl_scaled fused (abs_le.mpr ⟨by omega, by omega⟩) g]

/-- C199: if the values are multiples of a power of two by integers of at most 50 bits, and the places a power of two apart, the
derivatives of order 2 are computed without any rounding. -/
theorem C199_exact (fused : Bool) {xs ys : List ℚ} (hl : ys.length = xs.length) (hn : 3 ≤ xs.length) (out : Option (List ℚ))
    (ho : OutOk out xs.length) (e g : ℤ) (hx : ∀ i, i + 1 < xs.length → xs.getD (i + 1) 0 - xs.getD i 0 = 2 ^ e)
    (hy : ∀ i < xs.length, ∃ z : ℤ, |z| ≤ 2 ^ 50 ∧ ys.getD i 0 = z * 2 ^ g) :
    ∃ r, deriv xs ys 2 out = some r ∧ derivR (fp 53 fused) xs ys 2 out = some r := by
  obtain ⟨o, ol, e1⟩ := deriv_two xs ys out hl ho
  obtain ⟨o', ol', e2⟩ := derivR_two (fp 53 fused) xs ys out hl ho
  have hx' : ∀ i < xs.length, xs[i]? = some (xs.getD i 0) := fun i hi => get_getD hi
  have hy' : ∀ i < xs.length, ys[i]? = some (ys.getD i 0) := fun i hi => get_getD (by rw [hl]; exact hi)
  obtain ⟨r, er, rl, r0, r1, ri⟩ := deriv2_spec _ _ _ hn xs ys o rfl hx' hy' ol
  obtain ⟨s, es, sl, s0, s1, si⟩ := deriv2R_spec (fp 53 fused) _ _ _ hn xs ys o' rfl hx' hy' ol'
  refine ⟨r, by rw [e1, er], ?_⟩
  rw [e2, es]
  congr 1
  have two : ∀ i, i + 2 < xs.length → xs.getD (i + 2) 0 - xs.getD i 0 = 2 ^ (e + 1) := by
    intro i hi
    rw [zpow_add_one₀ (by norm_num : (2 : ℚ) ≠ 0)]
    linarith [hx i (by omega), hx (i + 1) (by omega)]
  have quot : ∀ z : ℤ, |z| ≤ 2 ^ 53 → (fp 53 fused).fl ((z : ℚ) * 2 ^ g / (fp 53 fused).fl (2 ^ (e + 1))) =
      (z : ℚ) * 2 ^ g / 2 ^ (e + 1) := by
    intro z hz
    rw [fl_two, half_scaled, fl_scaled fused hz]
  apply List.ext_getElem?
  intro i
  by_cases hi : i < xs.length
  swap
  · rw [List.getElem?_eq_none (by omega), List.getElem?_eq_none (by omega)]
  by_cases h0 : i = 0
  · subst h0
    rw [r0, s0, two 0 (by omega)]
    obtain ⟨a, ha, ea⟩ := hy 0 (by omega)
    obtain ⟨b, hb, eb⟩ := hy 1 (by omega)
    obtain ⟨c, hc, ec⟩ := hy 2 (by omega)
    rw [ea, eb, ec, num2_scaled fused g ha hb hc]
    rw [abs_le] at ha hb hc
    rw [quot _ (abs_le.mpr ⟨by omega, by omega⟩)]
    congr 2
    push_cast; ring
  by_cases h1 : i = xs.length - 1
  · subst h1
    have t := two (xs.length - 3) (by omega)
    rw [show xs.length - 3 + 2 = xs.length - 1 by omega] at t
    rw [r1, s1, t]
    obtain ⟨a, ha, ea⟩ := hy (xs.length - 1) (by omega)
    obtain ⟨b, hb, eb⟩ := hy (xs.length - 2) (by omega)
    obtain ⟨c, hc, ec⟩ := hy (xs.length - 3) (by omega)
    rw [ea, eb, ec, num2_scaled fused g ha hb hc, ← neg_mul, ← Int.cast_neg]
    rw [abs_le] at ha hb hc
    rw [quot _ (abs_le.mpr ⟨by omega, by omega⟩)]
    congr 2
    push_cast; ring
  rw [ri i (by omega) (by omega), si i (by omega) (by omega)]
  have t := two (i - 1) (by omega)
  rw [show i - 1 + 2 = i + 1 by omega] at t
  obtain ⟨a, ha, ea⟩ := hy (i + 1) (by omega)
  obtain ⟨b, hb, eb⟩ := hy (i - 1) (by omega)
  unfold mid2R
  rw [t, ea, eb, ← sub_mul, ← Int.cast_sub]
  rw [abs_le] at ha hb
  rw [fl_scaled fused (abs_le.mpr ⟨by omega, by omega⟩) g, quot _ (abs_le.mpr ⟨by omega, by omega⟩)]

/-- A table with steps of 1/4 and values in units of 1/8. -/
example : ∃ xs ys : List ℚ, xs = [1, 5 / 4, 3 / 2, 7 / 4] ∧ ys = [3 / 8, -1 / 4, 5, 1 / 8] ∧ ys.length = xs.length ∧ OutOk none xs.length ∧
    (∀ i, i + 1 < xs.length → xs.getD (i + 1) 0 - xs.getD i 0 = 2 ^ (-2 : ℤ)) ∧
    (∀ i < xs.length, ∃ z : ℤ, |z| ≤ 2 ^ 50 ∧ ys.getD i 0 = z * 2 ^ (-3 : ℤ)) ∧
    derivR (fp 53 true) xs ys 2 none = some [-57 / 4, 37 / 4, 3 / 4, -159 / 4] := by
  refine ⟨_, _, rfl, rfl, rfl, (by intro o h; cases h), ?_, ?_, by decide +kernel⟩
  · have h : ∀ i < 3, [(1 : ℚ), 5 / 4, 3 / 2, 7 / 4].getD (i + 1) 0 - [(1 : ℚ), 5 / 4, 3 / 2, 7 / 4].getD i 0 = 2 ^ (-2 : ℤ) := by
      decide +kernel
    intro i hi
    exact h i (by simp at hi; omega)
  · have h : ∀ i < 4, |([3, -2, 40, 1] : List ℤ).getD i 0| ≤ 2 ^ 50 ∧
        [(3 : ℚ) / 8, -1 / 4, 5, 1 / 8].getD i 0 = (([3, -2, 40, 1] : List ℤ).getD i 0 : ℚ) * 2 ^ (-3 : ℤ) := by decide +kernel
    intro i hi
    exact ⟨_, h i (by simpa using hi)⟩

end Verif.Calc
