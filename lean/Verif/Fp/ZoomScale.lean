import Verif.Fp.Sample
import Verif.Fp.Scale
import Verif.Fp.ZoomModel

/-! # Positions relative to an image, from the particles in the file: C144 -/

set_option autoImplicit false

namespace Verif.Fp

open Verif.Go

theorem f32_int {z : ℤ} (h : |z| ≤ 2 ^ 24) : f32 (z : ℚ) = z := f32_of (rep_of_int h (by norm_num))

/-- The distance of the origins is an integer, and at most half a period. -/
theorem domainDiff32_eq {C o o' : ℤ} (hC : 0 < C) (hC' : C ≤ 2 ^ 24) (h0 : 0 ≤ o ∧ o ≤ C) (h1 : 0 ≤ o' ∧ o' ≤ C) :
    ∃ d : ℤ, domainDiff32 C o o' = d ∧ 2 * |d| ≤ C ∧ C ∣ d - (o - o') := by
  unfold domainDiff32
  have hh : ∀ s : ℤ, |s| ≤ C → f32 ((s : ℚ) / 2) = s / 2 := by
    intro s hs
    refine f32_of ?_
    have := rep_int (p := 24) (m := s) (hs.trans hC') (by norm_num) (-1)
    rwa [show ((s : ℚ) * 2 ^ (-1 : ℤ)) = s / 2 by rw [zpow_neg_one]; ring] at this
  have e1 : f32 (C : ℚ) = C := f32_cells hC.le hC'
  have e2 : f32 (((o - o' : ℤ) : ℚ)) = ((o - o' : ℤ) : ℚ) := f32_int (by rw [abs_le]; constructor <;> omega)
  have e3 : f32 (-(C : ℚ) / 2) = -C / 2 := by
    have := hh (-C) (by rw [abs_neg, abs_of_pos hC])
    push_cast at this
    exact this
  dsimp only
  rw [e1, e2, e3, hh C (by rw [abs_of_pos hC])]
  have hd1 : -C ≤ o - o' := by omega
  have hd2 : o - o' ≤ C := by omega
  generalize o - o' = d at *
  by_cases c1 : (d : ℚ) < -C / 2
  · have c1' : 2 * d < -C := by
      have : 2 * (d : ℚ) < -C := by linarith
      exact_mod_cast this
    rw [if_pos c1]
    refine ⟨d + C, ?_, ?_, by rw [add_sub_cancel_left]⟩
    · rw [← Int.cast_add]
      exact f32_int (by rw [abs_le]; constructor <;> omega)
    · rw [abs_of_nonneg (by omega)]
      omega
  · have c1' : -C ≤ 2 * d := by
      have : -(C : ℚ) ≤ 2 * d := by linarith
      exact_mod_cast this
    rw [if_neg c1]
    by_cases c2 : (d : ℚ) > C / 2
    · have c2' : C < 2 * d := by
        have : (C : ℚ) < 2 * d := by linarith
        exact_mod_cast this
      rw [if_pos c2]
      refine ⟨d - C, ?_, ?_, by rw [sub_sub_cancel_left]; exact (dvd_refl C).neg_right⟩
      · rw [← Int.cast_sub]
        exact f32_int (by rw [abs_le]; constructor <;> omega)
      · rw [abs_of_nonpos (by omega)]
        omega
    · have c2' : 2 * d ≤ C := by
        have : 2 * (d : ℚ) ≤ C := by linarith
        exact_mod_cast this
      rw [if_neg c2]
      refine ⟨d, rfl, ?_, by rw [sub_self]; exact dvd_zero _⟩
      rcases abs_cases d with ⟨e, _⟩ | ⟨e, _⟩ <;> rw [e] <;> omega

/-- The origin of the buffer of a segment is in the box. -/
theorem cellAxis_origin {L o w : ℚ} {C : ℤ} (hL0 : 0 < L) (hC : 0 < C) (hC' : C ≤ 2 ^ 24) (o0 : 0 ≤ o) (oL : o ≤ L) :
    0 ≤ (cellAxis L o w C).1 ∧ (cellAxis L o w C).1 ≤ C := by
  have hc : (0 : ℚ) < C := by exact_mod_cast hC
  have q := (abs_le.mp (quot_err hL0 hC hC' o0 (by linarith : o ≤ 2 * L))).2
  have hoC : o * C / L ≤ C := by
    rw [div_le_iff₀ hL0, mul_comm (C : ℚ)]; gcongr
  unfold cellAxis
  dsimp only
  constructor
  · have : 0 ≤ f64 (L / f64 C) := f64_nonneg (by rw [f64_cells hC hC']; positivity)
    exact Int.floor_nonneg.mpr (f64_nonneg (by positivity))
  · generalize f64 (o / f64 (L / f64 C)) = Q at *
    have hc24 : (C : ℚ) ≤ 2 ^ 24 := by exact_mod_cast hC'
    have : (C : ℚ) / 2 ^ 50 ≤ 2 ^ 24 / 2 ^ 50 := by gcongr
    have h1 : (⌊Q⌋ : ℚ) < C + 1 := by
      have := Int.floor_le Q
      norm_num at *
      linarith
    exact Int.lt_add_one_iff.mp (by exact_mod_cast h1)

/-- **C144**: the conditions on particles relative to an image follow, axis by axis, from conditions on the particles in the
file: less than about half a box across, and at a small distance from the faces of the cells; and their cells are, up to the
period, those of the particles. `hd` is the extent stored in the header, `cb` the cells it covers, and `o'` the origin of the
image. -/
theorem C144_scaled {L x0 : ℚ} {xs : List ℚ} {C o' : ℤ} (hL : F32 L) (hL0 : 0 < L) (r0 : F32 x0) (h0 : x0 ∈ xs)
    (h01 : ∀ x ∈ xs, 0 ≤ x ∧ x ≤ L) {b S : ℚ} (hin : ∀ x ∈ xs, ∃ k : ℤ, b ≤ x + k * L ∧ x + k * L ≤ b + S)
    (hroom : S + 2 * ((moves L ⟨x0, 0, 0⟩ xs + 3) * (L / 2 ^ 22)) ≤ L / 2) (hC : 8 ≤ C) (hC' : C ≤ 2 ^ 24)
    (ho' : 0 ≤ o' ∧ o' ≤ C)
    (hoff : ∀ x ∈ xs, ∀ z : ℤ, (4 * (moves L ⟨x0, 0, 0⟩ xs + 3) + 158) * (C / 2 ^ 24) < |x * C / L - z|) :
    let hd := (axisBox L x0 xs).stored L
    let cb := cellAxis L hd.1 hd.2 C
    ∀ x ∈ xs, let y := scaleDom32 C (boxWidth64 L C) cb.1 o' x
      F32 y ∧ (((-C + 1 : ℤ) : ℚ) ≤ y ∧ y < ((2 * C : ℤ) : ℚ)) ∧ (∀ z : ℤ, 160 * ((C : ℚ) / 2 ^ 24) < |y - z|) ∧
      C ∣ ⌊y⌋ + o' - ⌊x * C / L⌋ := by
  intro hd cb x hx y
  obtain ⟨h1, h2⟩ := scaled_margin (D := 142) (by norm_num) hL hL0 r0 h0 h01 hin hroom hC hC' (by
    intro x hx z
    have := hoff x hx z
    rwa [show (4 * ((moves L ⟨x0, 0, 0⟩ xs : ℚ) + 3) + 16 + 142) = 4 * ((moves L ⟨x0, 0, 0⟩ xs : ℚ) + 3) + 158 by ring])
  obtain ⟨-, ⟨o0, oL⟩, -⟩ := C127_partial hL hL0 r0 h0 h01 hin hroom
  have hC0 : 0 < C := by omega
  obtain ⟨d, ed, hd2, hdv⟩ := domainDiff32_eq hC0 hC' (cellAxis_origin (w := hd.2) hL0 hC0 hC' o0 oL) ho'
  obtain ⟨a1, a2, a3, a4⟩ := h2 x hx
  have hc8 : (8 : ℚ) ≤ C := by exact_mod_cast hC
  obtain ⟨g, hg⟩ : ∃ g : ℚ, g = (C : ℚ) / 2 ^ 24 := ⟨_, rfl⟩
  have hcg : (C : ℚ) = 2 ^ 24 * g := by rw [hg]; ring
  have g0 : 0 < g := by rw [hg]; positivity
  have hcb2 : ((cellAxis L hd.1 hd.2 C).2 : ℚ) ≤ C := by exact_mod_cast h1
  have hdq : 2 * |(d : ℚ)| ≤ C := by exact_mod_cast hd2
  have hy : y = f32 (scaleSeg32 C (boxWidth64 L C) cb.1 x + d) := by
    change f32 (_ + domainDiff32 C cb.1 o') = _
    rw [ed]
  change (20 + 142) * ((C : ℚ) / 2 ^ 24) < scaleSeg32 C (boxWidth64 L C) cb.1 x at a1
  change scaleSeg32 C (boxWidth64 L C) cb.1 x < ((cellAxis L hd.1 hd.2 C).2 : ℚ) - (20 + 142) * ((C : ℚ) / 2 ^ 24) at a2
  change C ∣ ⌊scaleSeg32 C (boxWidth64 L C) cb.1 x⌋ + cb.1 - ⌊x * C / L⌋ at a3
  change ∀ z : ℤ, (20 + 142) * ((C : ℚ) / 2 ^ 24) < |scaleSeg32 C (boxWidth64 L C) cb.1 x - z| at a4
  change C ∣ d - (cb.1 - o') at hdv
  rw [← hg] at a1 a2 a4 ⊢
  obtain ⟨d1, d2⟩ := abs_le.mp (by linarith : |(d : ℚ)| ≤ C / 2)
  generalize scaleSeg32 C (boxWidth64 L C) cb.1 x = s at *
  have hr := f32_abs (x := s + d) (B := 2 ^ 24 * (2 * g)) (by rw [abs_le]; constructor <;> linarith)
  rw [mul_div_cancel_left₀ _ (by norm_num), ← hy] at hr
  obtain ⟨r1, r2⟩ := abs_le.mp hr
  have hF : F32 y := by rw [hy]; exact f32_rep _
  clear_value y
  have hm : ∀ z : ℤ, 160 * g < |y - z| := by
    intro z
    have h3 := a4 (z - d)
    push_cast at h3
    have e : y - z = (y - (s + d)) + (s - (z - d)) := by ring
    have := abs_sub_abs_le_abs_sub (s - ((z : ℚ) - d)) (-(y - (s + d)))
    rw [abs_neg, sub_neg_eq_add, add_comm (s - _), ← e] at this
    linarith
  have hfl : ⌊y⌋ = ⌊s⌋ + d := by
    rw [← Int.floor_add_intCast]
    have h3 := a4
    rw [Int.floor_eq_iff]
    have f1 := Int.floor_le (s + (d : ℚ))
    have f2 := Int.lt_floor_add_one (s + (d : ℚ))
    rw [Int.floor_add_intCast] at f1 f2 ⊢
    push_cast at f1 f2 ⊢
    have b1 := a4 ⌊s⌋
    have b2 := a4 (⌊s⌋ + 1)
    push_cast at b2
    rw [abs_of_nonneg (by linarith)] at b1
    rw [abs_of_neg (by linarith)] at b2
    constructor <;> linarith
  refine ⟨hF, ⟨?_, ?_⟩, hm, ?_⟩
  · push_cast
    linarith
  · push_cast
    linarith
  · rw [hfl, show ⌊s⌋ + d + o' - ⌊x * C / L⌋ = (⌊s⌋ + cb.1 - ⌊x * C / L⌋) + (d - (cb.1 - o')) by ring]
    exact dvd_add a3 hdv

/-- The conditions on particles in a file are met, here across the edge of the box, in an image that starts in the middle. -/
example : let xs : List ℚ := [7.5, 0.25, 1.25]
    (∀ x ∈ xs, ∃ k : ℤ, (7.5 : ℚ) ≤ x + k * 8 ∧ x + k * 8 ≤ 7.5 + 1.75) ∧
      (∀ x ∈ xs, ∀ z : ℤ, (4 * ((moves 8 ⟨7.5, 0, 0⟩ xs : ℚ) + 3) + 158) * ((8 : ℤ) / 2 ^ 24) < |x * (8 : ℤ) / 8 - z|) ∧
      (1.75 : ℚ) + 2 * ((moves 8 ⟨7.5, 0, 0⟩ xs + 3) * (8 / 2 ^ 22)) ≤ 8 / 2 ∧ (0 : ℤ) ≤ 4 ∧ (4 : ℤ) ≤ 8 := by
  have hmv : moves 8 ⟨7.5, 0, 0⟩ [7.5, 0.25, 1.25] ≤ 3 := moves_le_length _ _ _
  have hmv' : ((moves 8 ⟨7.5, 0, 0⟩ [7.5, 0.25, 1.25] : ℕ) : ℚ) ≤ 3 := by exact_mod_cast hmv
  refine ⟨?_, ?_, by linarith, by norm_num, by norm_num⟩
  · intro x hx
    simp only [List.mem_cons, List.not_mem_nil, or_false] at hx
    rcases hx with rfl | rfl | rfl
    · exact ⟨0, by norm_num⟩
    · exact ⟨1, by norm_num⟩
    · exact ⟨1, by norm_num⟩
  · have hb : (4 * ((moves 8 ⟨7.5, 0, 0⟩ [7.5, 0.25, 1.25] : ℚ) + 3) + 158) * ((8 : ℤ) / 2 ^ 24) < 1 / 8 := by
      push_cast
      linarith
    have off : ∀ (y : ℚ), 1 / 8 < y - ⌊y⌋ → 1 / 8 < ⌊y⌋ + 1 - y → ∀ z : ℤ, 1 / 8 < |y - z| := by
      intro y h1 h2 z
      rcases le_or_gt z ⌊y⌋ with h | h
      · have : (z : ℚ) ≤ ⌊y⌋ := by exact_mod_cast h
        exact (by linarith : 1 / 8 < y - z).trans_le (le_abs_self _)
      · have : (⌊y⌋ : ℚ) + 1 ≤ z := by exact_mod_cast h
        exact (by linarith : 1 / 8 < -(y - z)).trans_le (neg_le_abs _)
    intro x hx z
    refine hb.trans (off _ ?_ ?_ z) <;> revert x <;> decide +kernel

/-- The positions relative to that image: the segment is at its far end. -/
example : scaleDom32 8 8 7 4 7.5 = 3.5 ∧ scaleDom32 8 8 7 4 0.25 = 4.25 ∧ scaleDom32 8 8 7 1 7.5 = -1.5 := by decide +kernel

end Verif.Fp
