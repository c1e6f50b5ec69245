import Verif.Halo.Grid

/-!
# C75: sphere bounds
-/

set_option autoImplicit false

namespace Verif.Halo

open Verif.Go

theorem sphereBounds1_spec {pos r width : ℚ} {cells : ℤ} (hW : 0 < width) (hc : 0 < cells) (h0 : 0 ≤ pos)
    (h1 : pos < width) (hr : 0 ≤ r) (hr' : 2 * r < width) :
    ∃ lo : ℚ, (∃ k : ℤ, lo = pos - r + k * width) ∧ 0 ≤ lo ∧ lo < width ∧
      (sphereBounds1 pos r (width / cells) width).1 = ⌊lo / (width / cells)⌋ ∧
      (sphereBounds1 pos r (width / cells) width).1 + (sphereBounds1 pos r (width / cells) width).2 =
        ⌊(lo + 2 * r) / (width / cells)⌋ + 1 := by
  have hcw : 0 < width / cells := div_pos hW (by exact_mod_cast hc)
  unfold sphereBounds1
  dsimp only
  by_cases hm : pos - r < 0
  · rw [if_pos hm]
    rw [if_pos (by linarith)]
    refine ⟨pos - r + width, ⟨1, by push_cast; ring⟩, by linarith, by linarith, ?_, ?_⟩
    · rw [trunc_of_nonneg (div_nonneg (by linarith) hcw.le)]
    · rw [trunc_of_nonneg (div_nonneg (by linarith) hcw.le), trunc_of_nonneg (div_nonneg (by linarith) hcw.le),
        show pos - r + width + 2 * r = pos + r + width by ring]
      ring
  · rw [if_neg hm, if_neg (by linarith)]
    refine ⟨pos - r, ⟨0, by push_cast; ring⟩, by linarith, by linarith, ?_, ?_⟩
    · rw [trunc_of_nonneg (div_nonneg (by linarith) hcw.le)]
    · rw [trunc_of_nonneg (div_nonneg (by linarith) hcw.le), trunc_of_nonneg (div_nonneg (by linarith) hcw.le),
        show pos - r + 2 * r = pos + r by ring]
      ring

/-- C75 for spheres of a diameter less than the box width: along each axis, the bounds contain, modulo the grid, every cell
that contains (modulo the box) a coordinate within the radius of the centre, and no other cell; they start inside the grid;
and they count no cell twice if the diameter plus one cell is at most the box width.
Missing: larger spheres, for which the bounds are wrong (`C75_large_counterexample`). -/
theorem C75_bounds_partial (pos : Fin 3 → ℚ) (r width : ℚ) (cells : ℤ) (hW : 0 < width) (hc : 0 < cells) (hr : 0 ≤ r)
    (hr' : 2 * r < width) (j : Fin 3) (h0 : 0 ≤ pos j) (h1 : pos j < width) :
    let b := sphereBounds pos r (width / cells) width
    (∀ c : ℤ, (∃ k : ℤ, b.origin j ≤ c + k * cells ∧ c + k * cells < b.origin j + b.span j) ↔
      ∃ x, pos j - r ≤ x ∧ x ≤ pos j + r ∧ InCell width cells x c) ∧
    0 ≤ b.origin j ∧ b.origin j < cells ∧ 1 ≤ b.span j ∧
    (2 * r + width / cells ≤ width → b.span j ≤ cells) := by
  intro b
  obtain ⟨lo, ⟨k, hk⟩, lo0, lo1, e1, e2⟩ := sphereBounds1_spec hW hc h0 h1 hr hr'
  have hcq : (0 : ℚ) < cells := by exact_mod_cast hc
  have hcw : 0 < width / cells := div_pos hW hcq
  have hmul : (cells : ℚ) * (width / cells) = width := by field_simp
  set cw := width / cells with hcwdef
  change b.origin j = _ at e1
  change b.origin j + b.span j = _ at e2
  have mono : ⌊lo / cw⌋ ≤ ⌊(lo + 2 * r) / cw⌋ :=
    Int.floor_le_floor (div_le_div_of_nonneg_right (by linarith) hcw.le)
  refine ⟨fun c => ⟨?_, ?_⟩, ?_, ?_, ?_, ?_⟩
  · rintro ⟨m, a1, a2⟩
    rw [e1] at a1
    rw [e2] at a2
    -- the cell `c + m * cells` meets `[lo, lo + 2 r]`
    set d := c + m * cells with hd
    have b1 : lo < (d + 1) * cw := by
      have := Int.lt_floor_add_one (lo / cw)
      rw [div_lt_iff₀ hcw] at this
      refine lt_of_lt_of_le this (mul_le_mul_of_nonneg_right ?_ hcw.le)
      have : ((⌊lo / cw⌋ : ℤ) : ℚ) ≤ d := by exact_mod_cast a1
      linarith
    have b2 : d * cw ≤ lo + 2 * r := by
      have := Int.floor_le ((lo + 2 * r) / cw)
      rw [le_div_iff₀ hcw] at this
      refine le_trans (mul_le_mul_of_nonneg_right ?_ hcw.le) this
      exact_mod_cast (by omega : d ≤ ⌊(lo + 2 * r) / cw⌋)
    have hdq : (d : ℚ) * cw = c * cw + m * width := by
      rw [hd, ← hmul]
      push_cast
      ring
    refine ⟨max lo (d * cw) - k * width, ?_, ?_, k - m, ?_, ?_⟩
    · have := le_max_left lo (d * cw)
      linarith
    · have : max lo (d * cw) ≤ lo + 2 * r := max_le (by linarith) b2
      linarith
    · have := le_max_right lo (d * cw)
      push_cast
      rw [← hcwdef]
      linarith
    · have : max lo (d * cw) < (d + 1) * cw := max_lt b1 (by nlinarith)
      push_cast
      rw [← hcwdef]
      have e : ((d : ℚ) + 1) * cw = (c + 1) * cw + m * width := by linarith
      linarith
  · rintro ⟨x, x1, x2, q, q1, q2⟩
    rw [← hcwdef] at q1 q2
    -- shift: `x + k width` is in `[lo, lo + 2 r]` and in the cell `c + (k - q) * cells`
    refine ⟨k - q, ?_⟩
    have hdq : ((c + (k - q) * cells : ℤ) : ℚ) * cw = c * cw + (k - q) * width := by
      rw [← hmul]
      push_cast
      ring
    have hf : ⌊(x + k * width) / cw⌋ = c + (k - q) * cells := by
      rw [Int.floor_eq_iff, le_div_iff₀ hcw, div_lt_iff₀ hcw, add_mul, hdq]
      constructor <;> linarith
    rw [e2, e1, ← hf]
    have m1 : ⌊lo / cw⌋ ≤ ⌊(x + k * width) / cw⌋ :=
      Int.floor_le_floor (div_le_div_of_nonneg_right (by linarith) hcw.le)
    have m2 : ⌊(x + k * width) / cw⌋ ≤ ⌊(lo + 2 * r) / cw⌋ :=
      Int.floor_le_floor (div_le_div_of_nonneg_right (by linarith) hcw.le)
    omega
  · rw [e1]
    exact Int.floor_nonneg.mpr (div_nonneg lo0 hcw.le)
  · rw [e1, Int.floor_lt, div_lt_iff₀ hcw, hmul]
    exact lo1
  · omega
  · intro hs
    have f1 := Int.floor_le ((lo + 2 * r) / cw)
    have f2 := Int.lt_floor_add_one (lo / cw)
    have f3 : (lo + 2 * r) / cw - lo / cw + 1 ≤ cells := by
      rw [← sub_div, show lo + 2 * r - lo = 2 * r by ring, ← le_sub_iff_add_le, div_le_iff₀ hcw]
      have : ((cells : ℚ) - 1) * cw = width - cw := by rw [sub_mul, hmul, one_mul]
      rw [this]
      linarith
    have f4 : ((⌊(lo + 2 * r) / cw⌋ - ⌊lo / cw⌋ : ℤ) : ℚ) < cells := by
      push_cast
      linarith
    have f5 : ⌊(lo + 2 * r) / cw⌋ - ⌊lo / cw⌋ < cells := by exact_mod_cast f4
    omega

example : (sphereBounds ![1, 5, 9] 2 1 10).origin 0 = 9 ∧ (sphereBounds ![1, 5, 9] 2 1 10).span 0 = 5 ∧
    (sphereBounds ![1, 5, 9] 2 1 10).origin 1 = 3 ∧ (sphereBounds ![1, 5, 9] 2 1 10).origin 2 = 7 := by decide +kernel

/-- C75 fails for spheres of a diameter of the box width or more: the bounds need not even contain the cell of the centre. -/
theorem C75_large_counterexample :
    let b := sphereBounds ![5, 5, 5] 6 1 10
    b.origin 0 = 9 ∧ b.span 0 = 3 ∧ InCell 10 10 5 5 ∧
    ¬ ∃ k : ℤ, b.origin 0 ≤ 5 + k * 10 ∧ 5 + k * 10 < b.origin 0 + b.span 0 := by
  intro b
  have e1 : b.origin 0 = 9 := by decide +kernel
  have e2 : b.span 0 = 3 := by decide +kernel
  refine ⟨e1, e2, ⟨0, by norm_num, by norm_num⟩, ?_⟩
  rintro ⟨k, h1, h2⟩
  rw [e1] at h1
  rw [e1, e2] at h2
  omega

/-- C75: `Inside` recognises exactly the cells of the bounds, modulo the grid, and `ConvertIndices` gives the position of such
a cell within the bounds, for bounds that start inside the grid and have at most as many cells as the grid. -/
theorem C75_inside (b : Bounds) (val width : ℤ) (j : Fin 3) (h0 : 0 ≤ b.origin j) (h1 : b.origin j < width)
    (hs : b.span j ≤ width) (v0 : 0 ≤ val) (v1 : val < width) :
    (b.inside val width j = true ↔ ∃ k : ℤ, b.origin j ≤ val + k * width ∧ val + k * width < b.origin j + b.span j) ∧
    (0 ≤ b.convert val width j ∧ b.convert val width j < width ∧ ∃ k : ℤ, b.origin j + b.convert val width j = val + k * width) ∧
    (b.inside val width j = true ↔ b.convert val width j < b.span j) := by
  have hconv : 0 ≤ b.convert val width j ∧ b.convert val width j < width ∧
      ∃ k : ℤ, b.origin j + b.convert val width j = val + k * width := by
    unfold Bounds.convert
    split_ifs with h
    · exact ⟨by omega, by omega, 1, by ring⟩
    · exact ⟨by omega, by omega, 0, by ring⟩
  have hin : b.inside val width j = true ↔ b.convert val width j < b.span j := by
    unfold Bounds.inside Bounds.convert
    dsimp only
    rw [decide_eq_true_iff]
    split_ifs <;> omega
  refine ⟨?_, hconv, hin⟩
  rw [hin]
  obtain ⟨c0, c1, k, hk⟩ := hconv
  constructor
  · intro h
    exact ⟨k, by omega, by omega⟩
  · rintro ⟨k', a, c⟩
    have : k' = k := by
      have d1 : (k' - k) * width < 1 * width := by rw [sub_mul]; omega
      have d2 : (-1) * width < (k' - k) * width := by rw [sub_mul]; omega
      have e1 := lt_of_mul_lt_mul_right d1 (by omega)
      have e2 := lt_of_mul_lt_mul_right d2 (by omega)
      omega
    subst this
    omega

example : (⟨![9, 0, 0], ![3, 1, 1]⟩ : Bounds).inside 1 10 0 = true ∧
    (⟨![9, 0, 0], ![3, 1, 1]⟩ : Bounds).convert 1 10 0 = 2 ∧ (⟨![9, 0, 0], ![3, 1, 1]⟩ : Bounds).inside 2 10 0 = false := by
  decide

/-- C75: `Inside` is also right for bounds and values that are not reduced to the grid, as long as the value is less than
one grid below and less than two grids above the start of the bounds. -/
theorem C75_inside_unreduced (b : Bounds) (val width : ℤ) (j : Fin 3) (hw : 0 < width) (hs : b.span j ≤ width)
    (v0 : b.origin j - width ≤ val) (v1 : val < b.origin j + 2 * width) :
    b.inside val width j = true ↔
      ∃ k : ℤ, b.origin j ≤ val + k * width ∧ val + k * width < b.origin j + b.span j := by
  unfold Bounds.inside
  dsimp only
  rw [decide_eq_true_iff]
  constructor
  · intro h
    split_ifs at h with h1 h2
    · exact ⟨-1, by omega, by omega⟩
    · exact ⟨1, by omega, by omega⟩
    · exact ⟨0, by omega, by omega⟩
  · rintro ⟨k, a, c⟩
    have hk : -2 < k ∧ k < 2 := by
      constructor
      · refine lt_of_mul_lt_mul_right (a := width) ?_ hw.le
        omega
      · refine lt_of_mul_lt_mul_right (a := width) ?_ hw.le
        omega
    have : k = -1 ∨ k = 0 ∨ k = 1 := by omega
    rcases this with rfl | rfl | rfl <;> split_ifs <;> omega

/-- Bounds that start below zero and a value beyond the grid. -/
example : (⟨![-2, 0, 0], ![4, 1, 1]⟩ : Bounds).inside 9 10 0 = true ∧
    (⟨![-2, 0, 0], ![4, 1, 1]⟩ : Bounds).inside 11 10 0 = true ∧
    (⟨![-2, 0, 0], ![4, 1, 1]⟩ : Bounds).inside 5 10 0 = false := by
  decide

end Verif.Halo
