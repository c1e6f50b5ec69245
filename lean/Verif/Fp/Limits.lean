import Verif.Fp.LimitsModel
import Verif.Fp.Wrap

/-! # C187: wrapping, sums and draws do not depend on the limits of the exponent -/

set_option autoImplicit false

namespace Verif.Fp

open Verif.Go Verif.Rand

/-- C187: the machine that the claims are about gives the nearest number of its format, and an infinity only for results that
are larger than all of them. -/
theorem C187_nearest (f : Format) (hf : f = double ∨ f = single) (x : ℚ) :
    (∀ r, f.op x = some r → f.Fits r ∧ ∀ y, f.Fits y → |r - x| ≤ |y - x|) ∧ (f.op x = none → ∀ y, f.Fits y → |y| < |x|) := by
  have hp : 0 < f.p := by rcases hf with rfl | rfl <;> decide
  have he : f.emin < f.emax := by rcases hf with rfl | rfl <;> decide
  refine ⟨fun r h => ⟨f.op_fits hp h, fun y hy => ?_⟩, fun h y hy => f.op_none hp he h hy⟩
  have := f.round_nearest hp x hy
  unfold Format.op at h
  split_ifs at h
  rwa [Option.some.inj h] at this

example : single.op (1 / 3) = some (11184811 / 2 ^ 25) ∧ single.op (1 / 2 ^ 151) = some 0 := by decide +kernel

/-- The numbers of a format as IEEE 754 writes them: an integer of `p` bits times a power of two, with an exponent of the
range. -/
theorem fits_iff {f : Format} (hp : 0 < f.p) (hr : f.emin + 1 ≤ f.emax) (x : ℚ) : f.Fits x ↔
    ∃ m e : ℤ, |m| < 2 ^ f.p ∧ f.emin - (f.p - 1) ≤ e ∧ e ≤ f.emax - f.p ∧ x = m * 2 ^ e := by
  constructor
  · rintro ⟨h1, ⟨k, hk⟩, h2⟩
    rw [f.tiny_eq] at hk
    by_cases hs : |k| < 2 ^ f.p
    · exact ⟨k, _, hs, le_rfl, by omega, hk⟩
    · push Not at hs
      have hx0 : 0 < |x| := by
        rw [abs_pos, hk]
        refine mul_ne_zero ?_ (by positivity)
        rintro h
        have h : k = 0 := by exact_mod_cast h
        rw [h, abs_zero] at hs
        have : (0 : ℤ) < 2 ^ f.p := by positivity
        omega
      obtain ⟨l1, l2⟩ := expo_spec (abs_pos.mp hx0)
      generalize expo x = E at l1 l2
      have u1 : E < f.emax := (zpow_lt_zpow_iff_right₀ (by norm_num : (1 : ℚ) < 2)).mp (l1.trans_lt h2)
      have u2 : f.emin + 1 < E + 1 := by
        refine (zpow_lt_zpow_iff_right₀ (by norm_num : (1 : ℚ) < 2)).mp (lt_of_le_of_lt ?_ l2)
        rw [hk, abs_mul, abs_of_pos (by positivity : (0 : ℚ) < 2 ^ (f.emin - ((f.p : ℤ) - 1)))]
        have : ((2 : ℚ) ^ f.p) ≤ |(k : ℚ)| := by exact_mod_cast hs
        refine le_trans (le_of_eq ?_) (mul_le_mul_of_nonneg_right this (by positivity))
        rw [← zpow_natCast, ← zpow_add₀ two_ne_zero]
        congr 1
        ring
      obtain ⟨m, hm⟩ := rep_multiple h1 l1
      refine ⟨m, E - ((f.p : ℤ) - 1), ?_, by omega, by omega, hm⟩
      rw [hm, abs_mul, abs_of_pos (by positivity : (0 : ℚ) < 2 ^ (E - ((f.p : ℤ) - 1)))] at l2
      have e : (2 : ℚ) ^ (E + 1) = 2 ^ f.p * 2 ^ (E - ((f.p : ℤ) - 1)) := by
        rw [← zpow_natCast, ← zpow_add₀ two_ne_zero]
        congr 1
        ring
      rw [e] at l2
      exact_mod_cast lt_of_mul_lt_mul_right l2 (by positivity)
  · rintro ⟨m, e, h1, h2, h3, rfl⟩
    refine ⟨⟨m, e, h1, rfl⟩, ⟨m * 2 ^ (e - (f.emin - ((f.p : ℤ) - 1))).toNat, ?_⟩, ?_⟩
    · rw [f.tiny_eq]
      push_cast
      rw [mul_assoc, ← zpow_natCast, ← zpow_add₀ two_ne_zero]
      congr 2
      omega
    · rw [abs_mul, abs_of_pos (by positivity : (0 : ℚ) < 2 ^ e)]
      have a1 : |(m : ℚ)| < 2 ^ f.p := by exact_mod_cast h1
      have a2 : (2 : ℚ) ^ e ≤ 2 ^ (f.emax - f.p) := zpow_le_zpow_right₀ (by norm_num) h3
      calc |(m : ℚ)| * 2 ^ e < 2 ^ f.p * 2 ^ e := mul_lt_mul_of_pos_right a1 (by positivity)
        _ ≤ 2 ^ f.p * 2 ^ (f.emax - f.p) := mul_le_mul_of_nonneg_left a2 (by positivity)
        _ = 2 ^ f.emax := by
          rw [← zpow_natCast, ← zpow_add₀ two_ne_zero]
          congr 1
          ring

/-- C187: the numbers of the two formats are those of IEEE 754: 53 bits with exponents from -1074 to 971, and 24 bits with
exponents from -149 to 104. -/
theorem C187_formats (x : ℚ) :
    (double.Fits x ↔ ∃ m e : ℤ, |m| < 2 ^ 53 ∧ -1074 ≤ e ∧ e ≤ 971 ∧ x = m * 2 ^ e) ∧
      (single.Fits x ↔ ∃ m e : ℤ, |m| < 2 ^ 24 ∧ -149 ≤ e ∧ e ≤ 104 ∧ x = m * 2 ^ e) := by
  constructor
  · rw [fits_iff (by decide) (by decide)]
    have e1 : double.emin - ((double.p : ℤ) - 1) = -1074 := by decide
    have e2 : double.emax - (double.p : ℤ) = 971 := by decide
    have e3 : double.p = 53 := rfl
    rw [e1, e2, e3]
  · rw [fits_iff (by decide) (by decide)]
    have e1 : single.emin - ((single.p : ℤ) - 1) = -149 := by decide
    have e2 : single.emax - (single.p : ℤ) = 104 := by decide
    have e3 : single.p = 24 := rfl
    rw [e1, e2, e3]

example : single.Fits (3 * 2 ^ (-149 : ℤ)) := (C187_formats _).2.mpr ⟨3, -149, by norm_num, le_rfl, by norm_num, by norm_num⟩
example : ¬ single.Fits (2 ^ 24 + 1) := by
  rintro ⟨h1, _⟩
  have := rnd_of_rep h1
  revert this
  decide +kernel

theorem sp : 0 < single.p := by decide
theorem dp : 0 < double.p := by decide

theorem single_tiny : single.tiny = 1 / 2 ^ 149 := by decide +kernel

theorem fits_max {f : Format} {x y : ℚ} (hx : f.Fits x) (hy : f.Fits y) : f.Fits (max x y) := by
  rcases max_choice x y with e | e <;> rwa [e]

/-- C187: wrapping a coordinate of a box of any size, for all numbers a `float32` can be. -/
theorem C187_mod {w x : ℚ} (hw : single.Fits w) (h0 : 0 ≤ w) (hx : single.Fits x) : modCL w x = some (modC32 w x) := by
  unfold modCL modC32
  rw [single.op_of_fits hw, f32_of hw.1]
  simp only [Option.bind_eq_bind, Option.bind_some]
  split_ifs with h1 h2
  · exact single.op_sub sp hx hw hx (abs_le.2 ⟨by linarith, by linarith⟩)
  · exact single.op_add sp hx hw (fits_max hw hx.neg)
      (abs_le.2 ⟨by linarith [le_max_right w (-x)], by linarith [le_max_left w (-x)]⟩)
  · rfl

example : modCL 8 (-(1 / 2 ^ 149)) = some 8 ∧ modCL (2 ^ 127) (-(2 ^ 127)) = some 0 ∧
    modCL (3 / 2 ^ 149) (-(1 / 2 ^ 149)) = some (2 / 2 ^ 149) := by decide +kernel

/-- C187: displacements, for boxes that are not smaller than 2^-125 and pairs whose difference is not infinite. -/
theorem C187_sub {w a b M : ℚ} (hw : single.Fits w) (h0 : (2 : ℚ) ^ (-125 : ℤ) ≤ w) (ha : single.Fits a) (hb : single.Fits b)
    (hM : single.Fits M) (h : |a - b| ≤ M) : subCL w a b = some (subC32 w a b) := by
  have hw0 : 0 < w := lt_of_lt_of_le (by positivity) h0
  have hw2 : single.op (w / 2) = some (f32 (w / 2)) := by
    refine single.op_normal sp hw (.inr ?_) (by rw [abs_of_pos (by linarith)]; linarith)
    rw [abs_of_pos (by linarith)]
    rw [show (-125 : ℤ) = single.emin + 1 from rfl, zpow_add_one₀ two_ne_zero] at h0
    generalize (2 : ℚ) ^ single.emin = u at h0 ⊢
    linarith
  have hd : single.op (a - b) = some (f32 (a - b)) := single.op_sub sp ha hb hM h
  have fd := single.op_fits sp hd
  have p2 : 0 ≤ f32 (w / 2) := f32_nonneg (by linarith)
  unfold subC32
  rw [f32_of hw.1]
  dsimp only
  have mid : ∃ d, (if f32 (a - b) < -w then single.op (f32 (a - b) + w) else
      if f32 (a - b) ≥ w then single.op (f32 (a - b) - w) else some (f32 (a - b))) = some d ∧ single.Fits d ∧
      (if f32 (a - b) < -w then f32 (f32 (a - b) + w) else if f32 (a - b) ≥ w then f32 (f32 (a - b) - w) else f32 (a - b)) = d := by
    split_ifs with h1 h2
    · have e : single.op (f32 (a - b) + w) = some (f32 (f32 (a - b) + w)) :=
        single.op_add sp fd hw fd.neg (abs_le.2 ⟨by linarith, by linarith⟩)
      exact ⟨_, e, single.op_fits sp e, rfl⟩
    · have e : single.op (f32 (a - b) - w) = some (f32 (f32 (a - b) - w)) :=
        single.op_sub sp fd hw fd (abs_le.2 ⟨by linarith, by linarith⟩)
      exact ⟨_, e, single.op_fits sp e, rfl⟩
    · exact ⟨_, rfl, fd, rfl⟩
  obtain ⟨d, e1, fits, e2⟩ := mid
  have e : subCL w a b = if d > f32 (w / 2) then single.op (d - w) else if d < -f32 (w / 2) then single.op (d + w) else some d := by
    have e : subCL w a b = (if f32 (a - b) < -w then single.op (f32 (a - b) + w) else
      if f32 (a - b) ≥ w then single.op (f32 (a - b) - w) else some (f32 (a - b))).bind fun d =>
        if d > f32 (w / 2) then single.op (d - w) else if d < -f32 (w / 2) then single.op (d + w) else some d := by
      unfold subCL
      simp only [Option.bind_eq_bind, Option.bind_some, single.op_of_fits hw, hw2, hd]
      split_ifs <;> simp [*]
    rw [e, e1, Option.bind_some]
  rw [e, e2]
  split_ifs with h1 h2
  · exact single.op_sub sp fits hw (fits_max fits hw)
      (abs_le.2 ⟨by linarith [le_max_right d w], by linarith [le_max_left d w]⟩)
  · exact single.op_add sp fits hw (fits_max fits.neg hw)
      (abs_le.2 ⟨by linarith [le_max_left (-d) w], by linarith [le_max_right (-d) w]⟩)
  · rfl

example : subCL 8 (1 / 2 ^ 149) (63 / 8) = some (1 / 8) ∧ subC32 8 (1 / 2 ^ 149) (63 / 8) = 1 / 8 := by decide +kernel

/-- Without the condition on the difference the result can be infinite. -/
example : subCL (2 ^ 127) (2 ^ 127) (-(2 ^ 127)) = none := by decide +kernel

theorem single_double {x : ℚ} (h : single.Fits x) : double.Fits x := by
  obtain ⟨h1, ⟨k, hk⟩, h2⟩ := h
  refine ⟨rep_le (by decide) h1, ⟨k * 2 ^ 925, ?_⟩, h2.trans (zpow_lt_zpow_right₀ (by norm_num) (by decide))⟩
  rw [hk, single.tiny_eq, double.tiny_eq]
  push_cast
  rw [mul_assoc, ← zpow_natCast, ← zpow_add₀ two_ne_zero,
    show (((925 : ℕ) : ℤ) + (double.emin - ((double.p : ℤ) - 1))) = single.emin - ((single.p : ℤ) - 1) by decide]

/-- Multiples of `2 ^ e` that are not zero are at least as large. -/
theorem multiple_ge {e : ℤ} {y : ℚ} (h : ∃ k : ℤ, y = k * (2 : ℚ) ^ e) (h0 : y ≠ 0) : (2 : ℚ) ^ e ≤ |y| := by
  obtain ⟨k, rfl⟩ := h
  have hk : k ≠ 0 := by
    rintro rfl
    simp at h0
  have : (1 : ℚ) ≤ |(k : ℚ)| := by exact_mod_cast Int.one_le_abs hk
  rw [abs_mul, abs_of_pos (by positivity : (0 : ℚ) < 2 ^ e)]
  have := mul_le_mul_of_nonneg_right this (by positivity : (0 : ℚ) ≤ 2 ^ e)
  linarith

theorem multiple_of {p : ℕ} {y : ℚ} {E e : ℤ} (hy : Rep p y) (h : (2 : ℚ) ^ E ≤ |y|) (he : e ≤ E - (p - 1)) :
    ∃ k : ℤ, y = k * (2 : ℚ) ^ e := by
  obtain ⟨k, hk⟩ := rep_multiple hy h
  refine ⟨k * 2 ^ (E - (p - 1) - e).toNat, ?_⟩
  rw [hk]
  push_cast
  rw [mul_assoc, ← zpow_natCast, ← zpow_add₀ two_ne_zero, Int.toNat_of_nonneg (by omega)]
  congr 2
  ring

/-- C187: the coordinates of a snapshot as they are stored, for boxes from 2^-70 to 2^127. -/
theorem C187_gadget {L x : ℚ} (hL : double.Fits L) (h0 : (2 : ℚ) ^ (-70 : ℤ) ≤ L) (h1 : L ≤ 2 ^ 127) (hx : single.Fits x) :
    gadgetPosL L x = some (gadgetPos L x) := by
  have hL0 : 0 < L := lt_of_lt_of_le (by positivity) h0
  have hxd := single_double hx
  have e71 : (2 : ℚ) ^ (-71 : ℤ) * 2 = 2 ^ (-70 : ℤ) := by norm_num
  have m1 : ∃ k : ℤ, L = k * (2 : ℚ) ^ (-122 : ℤ) :=
    multiple_of hL.1 (E := -70) (by rwa [abs_of_pos hL0]) (by decide)
  have m2 : (2 : ℚ) ^ (-71 : ℤ) ≤ |x| → ∃ k : ℤ, x = k * (2 : ℚ) ^ (-122 : ℤ) := fun h =>
    multiple_of hx.1 h (by decide)
  have big : single.Fits ((2 : ℚ) ^ (127 : ℤ)) := single.fits_two sp (by decide) (by decide)
  have e127 : (2 : ℚ) ^ (127 : ℤ) = 2 ^ 127 := by norm_num
  have conv : ∀ y M : ℚ, single.Fits M → |y| ≤ M → (y = 0 ∨ (2 : ℚ) ^ (-122 : ℤ) ≤ |y|) → single.op (f64 y) = some (f32 (f64 y)) := by
    intro y M hM hy hz
    refine single.op_normal sp hM ?_ ?_
    · rcases hz with rfl | hz
      · exact .inl f64_zero
      · right
        refine le_trans (zpow_le_zpow_right₀ (by norm_num) (by decide : (-126 : ℤ) ≤ -122)) ?_
        rcases le_total 0 y with hp | hp
        · rw [abs_of_nonneg hp] at hz
          exact (le_f64 (rep_two (by norm_num) _) hz).trans (le_abs_self _)
        · rw [abs_of_nonpos hp] at hz
          have := le_f64 (rep_two (by norm_num) _) hz
          rw [show f64 (-y) = -f64 y from rnd_neg 53 y] at this
          exact this.trans (neg_le_abs _)
    · exact abs_rnd_le (by norm_num) (rep_le (by decide) hM.1) hy
  have comb : ∀ y : ℚ, (∃ k : ℤ, y = k * (2 : ℚ) ^ (-122 : ℤ)) → y = 0 ∨ (2 : ℚ) ^ (-122 : ℤ) ≤ |y| := by
    intro y hy
    by_cases hz : y = 0
    · exact .inl hz
    · exact .inr (multiple_ge hy hz)
  unfold gadgetPosL gadgetPos wrapL wrap64
  split_ifs with c1 c2
  · rw [double.op_add dp hxd hL (fits_max hL hxd.neg)
      (abs_le.2 ⟨by linarith [le_max_right L (-x)], by linarith [le_max_left L (-x)]⟩)]
    simp only [Option.bind_eq_bind, Option.bind_some]
    refine conv (x + L) _ (fits_max big hx.neg) (abs_le.2 ⟨by linarith [le_max_right ((2 : ℚ) ^ (127 : ℤ)) (-x)], by
      linarith [le_max_left ((2 : ℚ) ^ (127 : ℤ)) (-x)]⟩) ?_
    by_cases hc : (2 : ℚ) ^ (-71 : ℤ) ≤ |x|
    · apply comb
      obtain ⟨k, hk⟩ := m1
      obtain ⟨l, hl⟩ := m2 hc
      exact ⟨l + k, by push_cast; rw [add_mul, ← hk, ← hl]⟩
    · push Not at hc
      right
      rw [abs_of_neg c1] at hc
      rw [abs_of_pos (by linarith)]
      have : (2 : ℚ) ^ (-122 : ℤ) ≤ 2 ^ (-71 : ℤ) := zpow_le_zpow_right₀ (by norm_num) (by decide)
      linarith
  · rw [double.op_sub dp hxd hL hxd (abs_le.2 ⟨by linarith, by linarith⟩)]
    simp only [Option.bind_eq_bind, Option.bind_some]
    refine conv (x - L) _ hx (abs_le.2 ⟨by linarith, by linarith⟩) ?_
    apply comb
    obtain ⟨k, hk⟩ := m1
    obtain ⟨l, hl⟩ := m2 (by
      rw [abs_of_nonneg (by linarith)]
      have : (0 : ℚ) < 2 ^ (-71 : ℤ) := by positivity
      linarith)
    exact ⟨l - k, by push_cast; rw [sub_mul, ← hk, ← hl]⟩
  · simp only [Option.bind_eq_bind, Option.bind_some]
    rw [single.op_of_fits hx, f32_of hx.1]

example : gadgetPosL 100 (-(1 / 2 ^ 149)) = some 100 ∧ gadgetPosL 100 (101 / 2) = some (101 / 2) := by decide +kernel

/-- For smaller boxes numbers below the normal ones lose bits when they are stored. -/
example : gadgetPosL ((2 ^ 52 + 1) / 2 ^ 180) (-(1 / 2 ^ 128)) = some 0 ∧
    gadgetPos ((2 ^ 52 + 1) / 2 ^ 180) (-(1 / 2 ^ 128)) = 1 / 2 ^ 180 := by decide +kernel

/-- Values added one after the other, with any exponents. -/
def sum64 (vs : List ℚ) (s : ℚ) : ℚ := vs.foldl (fun s v => f64 (s + v)) s

theorem le_sum64 (vs : List ℚ) (hv : ∀ v ∈ vs, 0 ≤ v) : ∀ s, F64 s → s ≤ sum64 vs s := by
  induction vs with
  | nil => intro s _; exact le_refl s
  | cons v vs ih =>
    intro s hs
    have h1 : s ≤ f64 (s + v) := le_f64 hs (by linarith [hv v (by simp)])
    exact h1.trans (ih (fun v hm => hv v (by simp [hm])) _ (f64_rep _))

/-- C187: a pixel to which values that are not negative are added, in any number: either the sum without limits of the exponent
is below 2^1024, then it is the sum on the machine, or the pixel becomes infinite. -/
theorem C187_sum (vs : List ℚ) (hv : ∀ v ∈ vs, double.Fits v ∧ 0 ≤ v) (s : ℚ) (hs : double.Fits s) (h0 : 0 ≤ s) :
    sumL vs s = if sum64 vs s < 2 ^ 1024 then some (sum64 vs s) else none := by
  have e1024 : (2 : ℚ) ^ double.emax = 2 ^ 1024 := by
    change (2 : ℚ) ^ ((1024 : ℕ) : ℤ) = _
    rw [zpow_natCast]
  induction vs generalizing s with
  | nil =>
    have : s < 2 ^ 1024 := by rw [← e1024]; exact (le_abs_self s).trans_lt hs.2.2
    rw [show sum64 [] s = s from rfl, if_pos this]
    rfl
  | cons v vs ih =>
    have hv1 := hv v (by simp)
    have hn : 0 ≤ f64 (s + v) := f64_nonneg (by linarith [hv1.2])
    have hop := double.op_add_eq hs hv1.1
    change _ = if |f64 (s + v)| < _ then some (f64 (s + v)) else none at hop
    rw [abs_of_nonneg hn, e1024] at hop
    have e : sum64 (v :: vs) s = sum64 vs (f64 (s + v)) := rfl
    unfold sumL
    by_cases hb : f64 (s + v) < 2 ^ 1024
    · rw [if_pos hb] at hop
      rw [hop, e]
      simp only [Option.bind_eq_bind, Option.bind_some]
      exact ih (fun v hm => hv v (by simp [hm])) _ (double.op_fits dp hop) hn
    · rw [if_neg hb] at hop
      rw [hop, e, if_neg (by
        have := le_sum64 vs (fun v hm => (hv v (by simp [hm])).2) _ (f64_rep (s + v))
        linarith)]
      rfl

example : sumL [1 / 2 ^ 1074, 1 / 2 ^ 1074, 1] 0 = some 1 ∧ sumL [2 ^ 1023, 2 ^ 1023] 0 = none := by decide +kernel

theorem fits_one : double.Fits 1 := by
  have := double.fits_two dp (e := 0) (by decide) (by decide)
  simpa using this

/-- Quotients of whole numbers up to `2 ^ 32`. -/
theorem quotient_eq {n D : ℕ} (hn : n ≤ D) (h0 : 0 < D) (hD : D ≤ 2 ^ 32) :
    ((double.op (n : ℚ)).bind fun a => (double.op (D : ℚ)).bind fun d => double.op (a / d)) = some (f64 (f64 n / f64 D)) ∧
      (f64 (f64 n / f64 D) = 0 ∨ (2 : ℚ) ^ (-32 : ℤ) ≤ f64 (f64 n / f64 D)) ∧ f64 (f64 n / f64 D) ≤ 1 := by
  have hint : ∀ m : ℕ, m ≤ 2 ^ 32 → double.Fits (m : ℚ) := by
    intro m hm
    have := double.fits_int dp (by decide) (by decide) (m := (m : ℤ)) (by
      rw [abs_of_nonneg (by positivity)]
      have : (m : ℤ) ≤ 2 ^ 32 := by exact_mod_cast hm
      exact this.trans (pow_le_pow_right₀ (by norm_num) (by decide)))
    rwa [Int.cast_natCast] at this
  have f1 := hint n (hn.trans hD)
  have f2 := hint D hD
  have hDq : (0 : ℚ) < D := by exact_mod_cast h0
  have hle : (n : ℚ) / D ≤ 1 := by
    rw [div_le_one hDq]
    exact_mod_cast hn
  have hnn : 0 ≤ (n : ℚ) / D := by positivity
  have low : (n : ℚ) / D = 0 ∨ (2 : ℚ) ^ (-32 : ℤ) ≤ (n : ℚ) / D := by
    rcases Nat.eq_zero_or_pos n with h | h
    · left; rw [h]; simp
    · right
      have h1 : (1 : ℚ) ≤ n := by exact_mod_cast h
      have h2 : (D : ℚ) ≤ 2 ^ 32 := by exact_mod_cast hD
      rw [le_div_iff₀ hDq, zpow_neg, inv_mul_le_iff₀ (by positivity)]
      have : (2 : ℚ) ^ (32 : ℤ) = 2 ^ 32 := by norm_num
      rw [this]
      have : (0 : ℚ) < 2 ^ 32 := by positivity
      nlinarith
  rw [double.op_of_fits f1, double.op_of_fits f2, f64_of f1.1, f64_of f2.1, Option.bind_some, Option.bind_some]
  generalize (n : ℚ) / D = q at *
  refine ⟨?_, ?_, f64_le fits_one.1 hle⟩
  · refine double.op_normal dp fits_one ?_ (by rw [abs_of_nonneg hnn]; exact hle)
    rcases low with h | h
    · exact .inl h
    · right
      rw [abs_of_nonneg hnn]
      exact (zpow_le_zpow_right₀ (by norm_num) (by decide : double.emin ≤ (-32 : ℤ))).trans h
  · rcases low with h | h
    · left; rw [h]; exact f64_zero
    · exact .inr (le_f64 (rep_two (by norm_num) _) h)

/-- C187: the values of the Xorshift generator; they are zero or at least 2^-32. -/
theorem C187_xor (g : Xor) : xorValueL g = some (xorValue g) ∧ (xorValue g = 0 ∨ (2 : ℚ) ^ (-32 : ℤ) ≤ xorValue g) ∧
    xorValue g ≤ 1 := by
  have hb : (4294967295#32 - g.w).toNat ≤ 4294967295 := by have := (4294967295#32 - g.w).isLt; omega
  have := quotient_eq hb (by norm_num) (by norm_num)
  rw [Nat.cast_ofNat] at this
  exact this

example : xorValueL ⟨4294967294#32, 0#32, 0#32, 0#32⟩ = some (f64 (1 / 4294967295)) := by decide +kernel

/-- C187: draws between two bounds of size at most 2^1021, where the product is zero or a normal number. -/
theorem C187_uniform {low high f : ℚ} (hl : double.Fits low) (hh : double.Fits high) (bl : |low| ≤ 2 ^ 1021)
    (bh : |high| ≤ 2 ^ 1021) (f0 : 0 ≤ f) (f1 : f ≤ 1)
    (h : f * f64 (high - low) = 0 ∨ (2 : ℚ) ^ (-1022 : ℤ) ≤ |f * f64 (high - low)|) :
    uniformL low high f = some (uniform false low high f) := by
  have z : ∀ n : ℕ, (2 : ℚ) ^ (n : ℤ) = 2 ^ n := fun n => zpow_natCast 2 n
  have F1 : double.Fits ((2 : ℚ) ^ ((1022 : ℕ) : ℤ)) := double.fits_two dp (by decide) (by decide)
  have F2 : double.Fits ((2 : ℚ) ^ ((1023 : ℕ) : ℤ)) := double.fits_two dp (by decide) (by decide)
  rw [z] at F1 F2
  have p1 : (2 : ℚ) ^ 1022 = 2 * 2 ^ 1021 := by rw [pow_succ]; ring
  have p2 : (2 : ℚ) ^ 1023 = 2 * 2 ^ 1022 := by rw [pow_succ]; ring
  have p0 : (0 : ℚ) < 2 ^ 1021 := by positivity
  generalize (2 : ℚ) ^ 1021 = A at *
  generalize (2 : ℚ) ^ 1022 = B at *
  generalize (2 : ℚ) ^ 1023 = C at *
  rw [abs_le] at bl bh
  have hd : |high - low| ≤ B := abs_le.2 ⟨by linarith, by linarith⟩
  have e1 : double.op (high - low) = some (f64 (high - low)) := double.op_sub dp hh hl F1 hd
  have hd2 : |f64 (high - low)| ≤ B := abs_rnd_le (by norm_num) F1.1 hd
  have hm : |f * f64 (high - low)| ≤ B := by
    rw [abs_mul, abs_of_nonneg f0]
    have := mul_le_mul_of_nonneg_right f1 (abs_nonneg (f64 (high - low)))
    linarith
  have e2 : double.op (f * f64 (high - low)) = some (f64 (f * f64 (high - low))) := double.op_normal dp F1 h hm
  have hm2 : |f64 (f * f64 (high - low))| ≤ B := abs_rnd_le (by norm_num) F1.1 hm
  rw [abs_le] at hm2
  by_cases c : low = 0 ∧ high = 1
  · unfold uniformL uniform
    rw [if_pos c, if_pos c]
  · have e3 : uniformL low high f = double.op (f64 (f * f64 (high - low)) + low) := by
      unfold uniformL
      rw [if_neg c, e1, Option.bind_eq_bind, Option.bind_some, e2, Option.bind_some]
    have e4 : uniform false low high f = f64 (f64 (f * f64 (high - low)) + low) := by
      unfold uniform mulAdd
      rw [if_neg c]
      rfl
    rw [e3, e4]
    exact double.op_add dp (double.op_fits dp e2) hl F2 (abs_le.2 ⟨by linarith, by linarith⟩)

/-- C187: every draw of the Xorshift generator between bounds that are at least 2^-990 apart. -/
theorem C187_uniform_xor (g : Xor) {low high : ℚ} (hl : double.Fits low) (hh : double.Fits high) (bl : |low| ≤ 2 ^ 1021)
    (bh : |high| ≤ 2 ^ 1021) (h : (2 : ℚ) ^ (-990 : ℤ) ≤ high - low) :
    (xorValueL g).bind (uniformL low high) = some (uniform false low high (xorValue g)) := by
  obtain ⟨e, h0, h1⟩ := C187_xor g
  rw [e, Option.bind_some]
  have hd := le_f64 (rep_two (p := 53) (by norm_num) _) h
  have hn : 0 ≤ xorValue g := by
    rcases h0 with h0 | h0
    · exact h0.ge
    · exact le_trans (by positivity) h0
  refine C187_uniform hl hh bl bh hn h1 ?_
  rcases h0 with h0 | h0
  · left; rw [h0, zero_mul]
  · right
    rw [abs_of_nonneg (mul_nonneg hn (le_trans (by positivity) hd)),
      show (-1022 : ℤ) = -32 + -990 by norm_num, zpow_add₀ two_ne_zero]
    exact mul_le_mul h0 hd (by positivity) hn

example : uniformL (-1) 3 (1 / 4) = some 0 ∧ uniform false (-1) 3 (1 / 4) = 0 := by decide +kernel

/-- Between bounds that are nearer than that a draw can be different. -/
example : uniformL 0 (1 / 2 ^ 1074) (3 / 4) = some (1 / 2 ^ 1074) ∧ uniform false 0 (1 / 2 ^ 1074) (3 / 4) = 3 / 2 ^ 1076 := by
  decide +kernel

/-- A table entry of the Tausworthe generator. -/
def Entry (a : ℚ) : Prop := double.Fits a ∧ 0 ≤ a ∧ a ≤ 1

theorem tausValueL_eq {a b : ℚ} (ha : Entry a) (hb : Entry b) :
    tausValueL a b = some (if f64 (a - b) < 0 then f64 (f64 (a - b) + 1) else f64 (a - b)) ∧
      Entry (if f64 (a - b) < 0 then f64 (f64 (a - b) + 1) else f64 (a - b)) := by
  obtain ⟨fa, a0, a1⟩ := ha
  obtain ⟨fb, b0, b1⟩ := hb
  have hd : |a - b| ≤ 1 := abs_le.2 ⟨by linarith, by linarith⟩
  have e1 : double.op (a - b) = some (f64 (a - b)) := double.op_sub dp fa fb fits_one hd
  have hd2 : |f64 (a - b)| ≤ 1 := abs_rnd_le (by norm_num) fits_one.1 hd
  rw [abs_le] at hd2
  unfold tausValueL
  rw [e1]
  simp only [Option.bind_eq_bind, Option.bind_some]
  split_ifs with c
  · have e2 : double.op (f64 (a - b) + 1) = some (f64 (f64 (a - b) + 1)) :=
      double.op_add dp (double.op_fits dp e1) fits_one fits_one (abs_le.2 ⟨by linarith, by linarith⟩)
    exact ⟨e2, double.op_fits dp e2, f64_nonneg (by linarith), f64_le fits_one.1 (by linarith)⟩
  · exact ⟨rfl, double.op_fits dp e1, not_lt.1 c, hd2.2⟩

/-- C187: a draw of the Tausworthe generator, for tables with entries from 0 to 1, which they keep. -/
theorem C187_taus (g : Taus) (h : ∀ a ∈ g.seq, Entry a) :
    tausNextL g = tausNext g ∧ ∀ g' v, tausNext g = some (g', v) → ∀ a ∈ g'.seq, Entry a := by
  unfold tausNextL tausNext
  rcases ea : rd g.seq g.firstFollower with _ | a
  · exact ⟨rfl, fun _ _ hc => by simp at hc⟩
  rcases eb : rd g.seq g.secondFollower with _ | b
  · exact ⟨rfl, fun _ _ hc => by simp at hc⟩
  have mem : ∀ {i : ℤ} {v : ℚ}, rd g.seq i = some v → v ∈ g.seq := by
    intro i v hv
    obtain ⟨h0, h1⟩ := rd_some_lt hv
    obtain ⟨n, rfl⟩ := Int.eq_ofNat_of_zero_le h0
    have hv : rd g.seq (n : ℤ) = some v := hv
    rw [rd_natCast] at hv
    exact List.mem_of_getElem? hv
  obtain ⟨e, en⟩ := tausValueL_eq (h a (mem ea)) (h b (mem eb))
  simp only [Option.bind_eq_bind, Option.bind_some, e]
  refine ⟨trivial, ?_⟩
  generalize (if f64 (a - b) < 0 then f64 (f64 (a - b) + 1) else f64 (a - b)) = v at en ⊢
  intro g' v' hg
  rcases ew : wr g.seq g.leader v with _ | seq
  · rw [ew] at hg; simp at hg
  · rw [ew] at hg
    simp only [Option.bind_some, Option.some.injEq, Prod.mk.injEq] at hg
    obtain ⟨rfl, -⟩ := hg
    intro w hw
    unfold wr at ew
    split_ifs at ew
    have ew := Option.some.inj ew
    rw [← ew] at hw
    rcases List.mem_or_eq_of_mem_set hw with hw | rfl
    · exact h w hw
    · exact en

/-- A number of draws in a row. -/
def draws (next : Taus → Option (Taus × ℚ)) : ℕ → Taus → Option (List ℚ)
  | 0, _ => some []
  | n + 1, g => do
    let (g, v) ← next g
    let l ← draws next n g
    some (v :: l)

/-- C187: all draws of the Tausworthe generator. -/
theorem C187_taus_draws (n : ℕ) (g : Taus) (h : ∀ a ∈ g.seq, Entry a) : draws tausNextL n g = draws tausNext n g := by
  induction n generalizing g with
  | zero => rfl
  | succ n ih =>
    obtain ⟨e, k⟩ := C187_taus g h
    unfold draws
    rw [e]
    rcases en : tausNext g with _ | ⟨g', v⟩
    · rfl
    · simp only [Option.bind_eq_bind, Option.bind_some]
      rw [ih g' (k g' v en)]

example : ∃ g : Taus, (∀ a ∈ g.seq, Entry a) ∧ draws tausNextL 2 g = some [1 / 4, 3 / 4] := by
  have h : ∀ e : ℤ, -10 ≤ e → e ≤ 0 → Entry ((2 : ℚ) ^ e) := fun e h1 h2 =>
    ⟨double.fits_two dp (by simp [double]; omega) (by simp [double]; omega), by positivity, zpow_le_one_of_nonpos₀ (by norm_num) h2⟩
  refine ⟨⟨[0, 1 / 2, 1 / 4], 0, 1, 2⟩, ?_, by decide +kernel⟩
  intro a ha
  simp only [List.mem_cons, List.not_mem_nil, or_false] at ha
  rcases ha with rfl | rfl | rfl
  · exact ⟨double.fits_zero, le_refl _, by norm_num⟩
  · have := h (-1) (by norm_num) (by norm_num)
    norm_num at this ⊢
    exact this
  · have := h (-2) (by norm_num) (by norm_num)
    norm_num at this ⊢
    exact this

end Verif.Fp
