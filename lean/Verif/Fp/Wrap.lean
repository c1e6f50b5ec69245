import Verif.Fp.WrapModel
import Verif.Fp.Rand
import Verif.Geom.Grid
import Mathlib.Tactic.FieldSimp

/-! # C125: wrapping coordinates into the periodic box in machine arithmetic -/

set_option autoImplicit false

namespace Verif.Fp

open Verif.Go Verif.Geom

theorem f32_rep (x : ℚ) : F32 (f32 x) := rep_rnd (by norm_num) x
theorem f32_of {x : ℚ} (h : F32 x) : f32 x = x := rnd_of_rep h
theorem f32_le {x y : ℚ} (hy : F32 y) (h : x ≤ y) : f32 x ≤ y := rnd_le (by norm_num) hy h
theorem le_f32 {x y : ℚ} (hx : F32 x) (h : x ≤ y) : x ≤ f32 y := le_rnd (by norm_num) hx h
theorem f32_mono {x y : ℚ} (h : x ≤ y) : f32 x ≤ f32 y := rnd_mono (by norm_num) h
theorem f32_nonneg {x : ℚ} (h : 0 ≤ x) : 0 ≤ f32 x := rnd_nonneg (by norm_num) h
theorem f32_zero : f32 0 = 0 := rnd_zero 24
theorem F32.f64 {x : ℚ} (h : F32 x) : F64 x := rep_le (by norm_num) h

/-- The number of `p` bits below `w` is at least `w - w / 2 ^ (p - 1)`. -/
theorem exists_below {p : ℕ} (hp : 0 < p) {w : ℚ} (hw : Rep p w) (h0 : 0 < w) :
    ∃ v, Rep p v ∧ w - w / 2 ^ (p - 1) ≤ v ∧ v < w := by
  obtain ⟨e1, e2⟩ := expo_spec h0.ne'
  rw [abs_of_pos h0] at e1 e2
  obtain ⟨k, hk⟩ := rep_multiple hw (E := expo w) (by rw [abs_of_pos h0]; exact e1)
  have hu : (0 : ℚ) < (2 : ℚ) ^ (expo w - ((p : ℤ) - 1)) := by positivity
  have hsplit : (2 : ℚ) ^ (expo w - ((p : ℤ) - 1)) = (2 : ℚ) ^ expo w / 2 ^ (p - 1) := by
    rw [zpow_sub₀ two_ne_zero]
    congr 1
    rw [← zpow_natCast]
    congr 1
    omega
  have hp1 : (2 : ℚ) ^ (p - 1) ≥ 1 := one_le_pow₀ (by norm_num)
  refine ⟨w - (2 : ℚ) ^ (expo w - ((p : ℤ) - 1)), ?_, ?_, by linarith⟩
  · have e : w - (2 : ℚ) ^ (expo w - ((p : ℤ) - 1)) = ((k - 1 : ℤ) : ℚ) * (2 : ℚ) ^ (expo w + 1 - (p : ℤ)) := by
      rw [show expo w + 1 - (p : ℤ) = expo w - ((p : ℤ) - 1) by ring]
      push_cast
      rw [sub_mul, ← hk, one_mul]
    rw [e]
    apply rep_of_multiple hp
    rw [← e, abs_le]
    have : (2 : ℚ) ^ (expo w - ((p : ℤ) - 1)) ≤ (2 : ℚ) ^ expo w := by
      rw [hsplit]; exact div_le_self (by positivity) hp1
    constructor
    · have : (0 : ℚ) ≤ (2 : ℚ) ^ (expo w + 1) := by positivity
      linarith
    · linarith
  · rw [hsplit]
    have : (2 : ℚ) ^ expo w / 2 ^ (p - 1) ≤ w / 2 ^ (p - 1) := by gcongr
    linarith

/-! ## `Vec.Mod` -/

/-- C125: from 0 on, and from one half box below 0 down, `Mod` is exact. -/
theorem C125_mod_exact {w x : ℚ} (hw : F32 w) (hx : F32 x) (h : -w ≤ x) (h1 : x < 2 * w) (h2 : 0 ≤ x ∨ x ≤ -(w / 2)) :
    modC32 w x = modC w x ∧ 0 ≤ modC32 w x ∧ modC32 w x < w ∧ SamePos w x (modC32 w x) := by
  have e : modC32 w x = modC w x := by
    unfold modC32 modC
    rw [f32_of hw]
    dsimp only
    split_ifs with a b
    · exact f32_of (rep_sub (by norm_num) hx hw (by linarith) (by linarith))
    · have hneg : x ≤ -(w / 2) := h2.resolve_left (by linarith)
      have := rep_sub (p := 24) (by norm_num) hw (rep_neg hx) (by linarith) (by linarith)
      rw [sub_neg_eq_add, add_comm] at this
      exact f32_of this
    · rfl
  refine ⟨e, ?_, ?_, by rw [e]; exact modC_same _ _⟩
  · rw [e]; unfold modC; split_ifs <;> linarith
  · rw [e]; unfold modC; split_ifs <;> linarith

example : F32 8 ∧ F32 (12 + 1 / 16) ∧ modC32 8 (12 + 1 / 16) = 4 + 1 / 16 ∧ modC32 8 (-5) = 3 :=
  ⟨⟨1, 3, by norm_num, by norm_num⟩, ⟨193, -4, by norm_num, by norm_num⟩, by decide +kernel, by decide +kernel⟩

/-- C125: below 0, `Mod` stays in the closed box and is wrong by at most `w / 2 ^ 24`; it stays below the upper end for
coordinates that are not too close to 0. -/
theorem C125_mod_partial {w x : ℚ} (hw : F32 w) (h : -w ≤ x) (h0 : x < 0) :
    0 ≤ modC32 w x ∧ modC32 w x ≤ w ∧ (∃ y, SamePos w x y ∧ |modC32 w x - y| ≤ w / 2 ^ 24) ∧
      (x ≤ -(w / 2 ^ 23) → modC32 w x < w) := by
  have hw0 : 0 < w := by linarith
  have e : modC32 w x = f32 (x + w) := by
    unfold modC32
    rw [f32_of hw]
    dsimp only
    rw [if_neg (by linarith), if_pos h0]
  rw [e]
  refine ⟨f32_nonneg (by linarith), f32_le hw (by linarith), ⟨x + w, ⟨1, by push_cast; ring⟩, ?_⟩, fun hx => ?_⟩
  · refine (rnd_err 24 (x + w)).trans ?_
    rw [abs_of_nonneg (by linarith)]
    gcongr
    linarith
  · obtain ⟨v, hv, h1, h2⟩ := exists_below (p := 24) (by norm_num) hw hw0
    exact (f32_le hv (by norm_num at h1; linarith)).trans_lt h2

example : F32 8 ∧ (-8 : ℚ) ≤ -(1 / 2 ^ 20) ∧ modC32 8 (-(1 / 2 ^ 20)) < 8 :=
  ⟨⟨1, 3, by norm_num, by norm_num⟩, by norm_num, by decide +kernel⟩

/-- C125: a coordinate just below 0 is moved to the upper end, which `Mod` itself would move to 0. -/
theorem C125_mod_counterexample :
    ∃ w x : ℚ, F32 w ∧ F32 x ∧ -w ≤ x ∧ x < 2 * w ∧ modC32 w x = w ∧ modC32 w (modC32 w x) = 0 :=
  ⟨8, -(1 / 2 ^ 40), ⟨1, 3, by norm_num, by norm_num⟩, ⟨-1, -40, by norm_num, by norm_num⟩, by norm_num, by norm_num,
    by decide +kernel, by decide +kernel⟩

/-! ## `Vec.Sub` -/

/-- `Sub` rounds the difference and then moves it by whole box widths, without further error. -/
theorem subC32_spec {w a b : ℚ} (hw : F32 w) (h : |a - b| ≤ 2 * w) :
    |subC32 w a b| ≤ w / 2 ∧ SamePos w (f32 (a - b)) (subC32 w a b) := by
  have hw0 : 0 ≤ w := by linarith [abs_nonneg (a - b)]
  have hw2 : F32 (w / 2) := by
    have := rep_scale hw (-1)
    rwa [zpow_neg_one, ← div_eq_mul_inv] at this
  have h2w : F32 (2 * w) := by
    have := rep_scale hw 1
    rwa [zpow_one, mul_comm] at this
  obtain ⟨hl, hu⟩ := abs_le.mp h
  have hlo : -(2 * w) ≤ f32 (a - b) := le_f32 (rep_neg h2w) (by linarith)
  have hhi : f32 (a - b) ≤ 2 * w := f32_le h2w (by linarith)
  have hr : F32 (f32 (a - b)) := f32_rep _
  have second : ∀ r, F32 r → -w ≤ r → r ≤ w →
      |if r > w / 2 then f32 (r - w) else if r < -(w / 2) then f32 (r + w) else r| ≤ w / 2 ∧
        SamePos w r (if r > w / 2 then f32 (r - w) else if r < -(w / 2) then f32 (r + w) else r) := by
    intro r hr hlo hhi
    by_cases c2 : r > w / 2
    · have hex : f32 (r - w) = r - w := f32_of (rep_sub (by norm_num) hr hw (by linarith) (by linarith))
      rw [if_pos c2, hex]
      exact ⟨by rw [abs_le]; constructor <;> linarith, -1, by push_cast; ring⟩
    rw [if_neg c2]
    rw [gt_iff_lt, not_lt] at c2
    by_cases c3 : r < -(w / 2)
    · have hex : f32 (r + w) = r + w := by
        have := rep_sub (p := 24) (by norm_num) hw (rep_neg hr) (by linarith) (by linarith)
        rw [sub_neg_eq_add, add_comm] at this
        exact f32_of this
      rw [if_pos c3, hex]
      exact ⟨by rw [abs_le]; constructor <;> linarith, 1, by push_cast; ring⟩
    · rw [if_neg c3]
      rw [not_lt] at c3
      exact ⟨abs_le.mpr ⟨c3, c2⟩, SamePos.refl _ _⟩
  unfold subC32
  rw [f32_of hw, f32_of hw2]
  dsimp only
  generalize f32 (a - b) = r at *
  by_cases c0 : r < -w
  · have hex : F32 (r + w) := by
      have := rep_neg (rep_sub (p := 24) (by norm_num) (rep_neg hr) hw (by linarith) (by linarith))
      rwa [show -(-r - w) = r + w by ring] at this
    rw [if_pos c0, f32_of hex]
    obtain ⟨h1, h2⟩ := second _ hex (by linarith) (by linarith)
    exact ⟨h1, SamePos.trans ⟨1, by push_cast; ring⟩ h2⟩
  rw [if_neg c0]
  by_cases c1 : r ≥ w
  · have hex : F32 (r - w) := rep_sub (by norm_num) hr hw (by linarith) (by linarith)
    rw [if_pos c1, f32_of hex]
    obtain ⟨h1, h2⟩ := second _ hex (by linarith) (by linarith)
    exact ⟨h1, SamePos.trans ⟨-1, by push_cast; ring⟩ h2⟩
  rw [if_neg c1]
  exact second r hr (by linarith) (by linarith)

/-- C125: a displacement between coordinates up to two box widths apart is at most half a box long, and apart from one
rounding of the difference it is a displacement between periodic images. -/
theorem C125_sub {w a b : ℚ} (hw : F32 w) (h : |a - b| ≤ 2 * w) :
    |subC32 w a b| ≤ w / 2 ∧ ∃ d, SamePos w (a - b) d ∧ |subC32 w a b - d| ≤ |a - b| / 2 ^ 24 := by
  obtain ⟨h1, k, h2⟩ := subC32_spec hw h
  refine ⟨h1, a - b + k * w, ⟨k, rfl⟩, ?_⟩
  rw [h2, show f32 (a - b) + k * w - (a - b + k * w) = f32 (a - b) - (a - b) by ring]
  exact rnd_err 24 (a - b)

example : subC32 8 (1 / 2 ^ 40) 7 = 1 ∧ subC32 8 7 (1 / 2) = -(3 / 2) ∧ subC32 8 8 0 = 0 := by decide +kernel

/-! ## Gadget positions -/

/-- C125: a single precision coordinate in `[0, 2 L)` is wrapped without error. -/
theorem C125_gadget_exact {L x : ℚ} (hL : F32 L) (hx : F32 x) (h0 : 0 ≤ x) (h1 : x < 2 * L) :
    0 ≤ gadgetPos L x ∧ gadgetPos L x < L ∧ SamePos L x (gadgetPos L x) := by
  unfold gadgetPos wrap64
  rw [if_neg (by linarith)]
  split_ifs with c
  · have h2 := rep_sub (p := 24) (by norm_num) hx hL (by linarith) (by linarith)
    rw [f64_of (F32.f64 h2), f32_of h2]
    exact ⟨by linarith, by linarith, -1, by push_cast; ring⟩
  · rw [f32_of hx]
    exact ⟨h0, by linarith, SamePos.refl _ _⟩

example : F32 100 ∧ F32 (101 / 2) ∧ F32 (301 / 2) ∧ gadgetPos 100 (301 / 2) = 101 / 2 :=
  ⟨⟨100, 0, by norm_num, by norm_num⟩, ⟨101, -1, by norm_num, by norm_num⟩, ⟨301, -1, by norm_num, by norm_num⟩,
    by decide +kernel⟩

/-- C125: whatever the box size, stored positions lie between 0 and the rounded box size. Coordinates below 0 are off by
at most `L / 2 ^ 23`, and stay below the upper end of a single precision box unless closer than `L / 2 ^ 23` to 0. -/
theorem C125_gadget_partial {L x : ℚ} (hL : F64 L) (h : -L ≤ x) (h1 : x < 2 * L) :
    0 ≤ gadgetPos L x ∧ gadgetPos L x ≤ f32 L ∧ (∃ y, SamePos L x y ∧ |gadgetPos L x - y| ≤ L / 2 ^ 23) ∧
      (F32 L → x ≤ -(L / 2 ^ 23) → gadgetPos L x < L) := by
  have hL0 : 0 < L := by linarith
  have hw : 0 ≤ wrap64 L x ∧ wrap64 L x ≤ L ∧ ∃ y, SamePos L x y ∧ |wrap64 L x - y| ≤ L / 2 ^ 53 := by
    have hz : (0 : ℚ) ≤ L / 2 ^ 53 := by positivity
    unfold wrap64
    split_ifs with c1 c2
    · refine ⟨f64_nonneg (by linarith), f64_le hL (by linarith), x + L, ⟨1, by push_cast; ring⟩, ?_⟩
      refine (rnd_err 53 _).trans ?_
      rw [abs_of_nonneg (by linarith)]
      gcongr
      linarith
    · refine ⟨f64_nonneg (by linarith), f64_le hL (by linarith), x - L, ⟨-1, by push_cast; ring⟩, ?_⟩
      refine (rnd_err 53 _).trans ?_
      rw [abs_of_nonneg (by linarith)]
      gcongr
      linarith
    · exact ⟨by linarith, by linarith, x, SamePos.refl _ _, by simpa using hz⟩
  obtain ⟨w0, w1, y, hy, hye⟩ := hw
  refine ⟨f32_nonneg w0, f32_mono w1, ⟨y, hy, ?_⟩, fun h32 hx => ?_⟩
  · have e1 : |f32 (wrap64 L x) - wrap64 L x| ≤ wrap64 L x / 2 ^ 24 := by
      have := rnd_err 24 (wrap64 L x)
      rwa [abs_of_nonneg w0] at this
    have e2 : wrap64 L x / 2 ^ 24 ≤ L / 2 ^ 24 := by gcongr
    have e3 : L / 2 ^ 24 + L / 2 ^ 53 ≤ L / 2 ^ 23 := by
      have : L / 2 ^ 23 - L / 2 ^ 24 - L / 2 ^ 53 = L * (1 / 2 ^ 23 - 1 / 2 ^ 24 - 1 / 2 ^ 53) := by ring
      have h2 : (0 : ℚ) ≤ 1 / 2 ^ 23 - 1 / 2 ^ 24 - 1 / 2 ^ 53 := by norm_num
      have := mul_nonneg hL0.le h2
      linarith
    have := abs_sub_le (f32 (wrap64 L x)) (wrap64 L x) y
    unfold gadgetPos
    linarith
  · obtain ⟨v, hv, h1, h2⟩ := exists_below (p := 24) (by norm_num) h32 hL0
    have hs : (0 : ℚ) < L / 2 ^ 23 := by positivity
    refine (f32_le hv ?_).trans_lt h2
    unfold wrap64
    rw [if_pos (by linarith)]
    exact f64_le (F32.f64 hv) (by norm_num at h1; linarith)

example : F64 100 ∧ gadgetPos 100 (-1) = 99 ∧ (-1 : ℚ) ≤ -(100 / 2 ^ 23) :=
  ⟨⟨100, 0, by norm_num, by norm_num⟩, by decide +kernel, by norm_num⟩

/-- C125: a Gadget coordinate just below 0 is stored as the box size. In a box whose size is not a single precision number
it is even stored outside the box. -/
theorem C125_gadget_counterexample :
    (F32 8 ∧ F32 (-(1 / 2 ^ 40)) ∧ gadgetPos 8 (-(1 / 2 ^ 40)) = 8) ∧
      ∃ L x : ℚ, L = f64 (1 / 10) ∧ F64 L ∧ F32 x ∧ -L ≤ x ∧ x < 0 ∧ L < gadgetPos L x :=
  ⟨⟨⟨1, 3, by norm_num, by norm_num⟩, ⟨-1, -40, by norm_num, by norm_num⟩, by decide +kernel⟩,
    f64 (1 / 10), -(1 / 2 ^ 40), rfl, f64_rep _, ⟨-1, -40, by norm_num, by norm_num⟩, by decide +kernel, by norm_num,
    by decide +kernel⟩

end Verif.Fp
