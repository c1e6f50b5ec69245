import Verif.Fp.Scale
import Verif.Fp.SampleModel
import Verif.Render.MonteCarlo

/-! Sample points in machine arithmetic: property C133. -/

set_option autoImplicit false

namespace Verif.Fp

open Verif.Go Verif.Geom Verif.Render

/-! ## Specification -/

/-- In the unit tetrahedron, up to `η`. -/
def NearUnit (η : ℚ) (p : Vec) : Prop := -η ≤ p 0 ∧ -η ≤ p 1 ∧ -η ≤ p 2 ∧ p 0 + p 1 + p 2 ≤ 1 + η

/-- The cached barycentre, if there is one, is that of the corners, as `Init` and `Barycenter` leave it. -/
def Fresh (t : Tetra) : Prop := t.baryValid = true →
  t.bary = fun i => f32 (f32 (f32 (t.corners 0 i + t.corners 1 i) + t.corners 2 i) / 4)

/-- `y` is a sample coordinate that differs from that of the exact combination of the corners with the weights `p` by at most
`M / 2 ^ 20`, for corners up to `M`, and leaves the range of the corners by at most `(16 M + 40 (hi - lo)) / 2 ^ 24`. -/
def GoodCoord (c : Fin 4 → Vec) (p : Vec) (j : Fin 3) (y : ℚ) : Prop :=
  ∀ M, (∀ k, |c k j| ≤ M) → |y - mix c p j| ≤ M / 2 ^ 20 ∧
    ∀ lo hi, (∀ k, lo ≤ c k j ∧ c k j ≤ hi) →
      lo - (16 * M + 40 * (hi - lo)) / 2 ^ 24 ≤ y ∧ y ≤ hi + (16 * M + 40 * (hi - lo)) / 2 ^ 24

/-! ## The unit tetrahedron -/

theorem f32_abs {x B : ℚ} (h : |x| ≤ B) : |f32 x - x| ≤ B / 2 ^ 24 :=
  (f32_err x).trans (div_le_div_of_nonneg_right h (by norm_num))

theorem f32_one : f32 1 = 1 := f32_of (rep_one (by norm_num))

theorem F32.one : F32 1 := rep_one (by norm_num)

theorem gt_one_of {x : ℚ} (h : f32 x > 1) : x > 1 := by
  by_contra hc
  have := f32_le F32.one (not_lt.mp hc)
  linarith

theorem le_of_f32_le_one {x : ℚ} (h0 : 0 ≤ x) (h : ¬ f32 x > 1) : x ≤ 1 + 2 / 2 ^ 24 := by
  have := f32_err x
  rw [abs_of_nonneg h0] at this
  obtain ⟨a, -⟩ := abs_le.mp this
  have h' := not_lt.mp h
  generalize f32 x = y at *
  norm_num at a ⊢
  linarith

theorem f32_unit {x : ℚ} (h0 : 0 ≤ x) (h1 : x ≤ 1) : 0 ≤ f32 x ∧ f32 x ≤ 1 := ⟨f32_nonneg h0, f32_le F32.one h1⟩

theorem fold32_core {s t u : ℚ} (hs : 0 ≤ s ∧ s ≤ 1) (ht : 0 ≤ t ∧ t ≤ 1) (hu : 0 ≤ u ∧ u ≤ 1)
    (hst : s + t ≤ 1 + 2 / 2 ^ 24) :
    let f := if f32 (t + u) > 1 then (s, f32 (1 - u), f32 (f32 (1 - s) - t))
      else if f32 (f32 (s + t) + u) > 1 then (f32 (f32 (1 - t) - u), t, f32 (f32 (f32 (s + t) + u) - 1))
      else (s, t, u)
    NearUnit (10 / 2 ^ 24) ![f.1, f.2.1, f.2.2] := by
  intro f
  have e1 := abs_le.mp (f32_abs (show |1 - s| ≤ 1 by rw [abs_le]; constructor <;> linarith))
  have e2 := abs_le.mp (f32_abs (show |1 - t| ≤ 1 by rw [abs_le]; constructor <;> linarith))
  have e3 := abs_le.mp (f32_abs (show |1 - u| ≤ 1 by rw [abs_le]; constructor <;> linarith))
  have e4 := abs_le.mp (f32_abs (show |s + t| ≤ 2 by rw [abs_le]; constructor <;> linarith))
  have r1 := f32_unit (x := 1 - s) (by linarith) (by linarith)
  have r2 := f32_unit (x := 1 - t) (by linarith) (by linarith)
  have r3 := f32_unit (x := 1 - u) (by linarith) (by linarith)
  have hst2 : s + t ≤ 1 + 2 / 2 ^ 24 := hst
  have e4' := abs_le.mp (f32_abs (show |s + t| ≤ 1 + 2 / 2 ^ 24 by
    rw [abs_le]; constructor <;> linarith))
  unfold NearUnit
  change -(10 / 2 ^ 24) ≤ f.1 ∧ -(10 / 2 ^ 24) ≤ f.2.1 ∧ -(10 / 2 ^ 24) ≤ f.2.2 ∧ f.1 + f.2.1 + f.2.2 ≤ 1 + 10 / 2 ^ 24
  by_cases c1 : f32 (t + u) > 1
  · have g1 := gt_one_of c1
    have ef : f = (s, f32 (1 - u), f32 (f32 (1 - s) - t)) := if_pos c1
    rw [ef]
    generalize f32 (1 - u) = a at *
    generalize f32 (1 - s) = b at *
    have e5 := abs_le.mp (f32_abs (show |b - t| ≤ 1 by rw [abs_le]; constructor <;> linarith))
    generalize f32 (b - t) = c at *
    simp only
    norm_num at *
    refine ⟨?_, ?_, ?_, ?_⟩ <;> linarith
  · by_cases c2 : f32 (f32 (s + t) + u) > 1
    · have ef : f = (f32 (f32 (1 - t) - u), t, f32 (f32 (f32 (s + t) + u) - 1)) := (if_neg c1).trans (if_pos c2)
      have g1 := le_of_f32_le_one (by linarith) c1
      rw [ef]
      clear c1
      have z : 0 ≤ f32 (s + t) := f32_nonneg (by linarith)
      generalize f32 (s + t) = a at *
      generalize f32 (1 - t) = b at *
      have e5 := abs_le.mp (f32_abs (show |b - u| ≤ 1 by rw [abs_le]; constructor <;> linarith))
      generalize f32 (b - u) = c at *
      have e6 := abs_le.mp (f32_abs (show |a + u| ≤ 2 + 4 / 2 ^ 24 by
        rw [abs_le]
        constructor
        · linarith
        · norm_num at *; linarith))
      generalize f32 (a + u) = d at *
      have e7 := abs_le.mp (f32_abs (show |d - 1| ≤ 1 + 8 / 2 ^ 24 by
        rw [abs_le]
        constructor
        · norm_num at *; linarith
        · norm_num at *; linarith))
      have z2 : 0 ≤ f32 (d - 1) := f32_nonneg (by linarith)
      generalize f32 (d - 1) = g at *
      simp only
      norm_num at *
      refine ⟨?_, ?_, ?_, ?_⟩ <;> linarith
    · have ef : f = (s, t, u) := (if_neg c1).trans (if_neg c2)
      rw [ef]
      have z : 0 ≤ f32 (s + t) := f32_nonneg (by linarith)
      generalize f32 (s + t) = a at *
      have g2 := le_of_f32_le_one (by linarith) c2
      simp only
      norm_num at *
      refine ⟨?_, ?_, ?_, ?_⟩ <;> linarith

/-- C133: what is left of the claim that the points of the unit buffers lie in the unit tetrahedron: they do up to
`10 / 2²⁴`, for every point of the unit cube, its faces included (a uniform `float64` below one may be converted to one).
-/
theorem C133_unit_partial {s t u : ℚ} (hs : 0 ≤ s ∧ s ≤ 1) (ht : 0 ≤ t ∧ t ≤ 1) (hu : 0 ≤ u ∧ u ≤ 1) :
    NearUnit (10 / 2 ^ 24) ![(fold32 s t u).1, (fold32 s t u).2.1, (fold32 s t u).2.2] := by
  by_cases c : f32 (s + t) > 1
  · have g := gt_one_of c
    have e1 := abs_le.mp (f32_abs (show |1 - s| ≤ 1 by rw [abs_le]; constructor <;> linarith))
    have e2 := abs_le.mp (f32_abs (show |1 - t| ≤ 1 by rw [abs_le]; constructor <;> linarith))
    have key := fold32_core (f32_unit (x := 1 - s) (by linarith) (by linarith))
      (f32_unit (x := 1 - t) (by linarith) (by linarith)) hu (by
        generalize f32 (1 - s) = a at *
        generalize f32 (1 - t) = b at *
        norm_num at *
        linarith)
    unfold fold32
    simp only [if_pos c]
    exact key
  · have key := fold32_core hs ht hu (le_of_f32_le_one (by linarith) c)
    unfold fold32
    simp only [if_neg c]
    exact key

/-- A point that is folded twice. -/
example : fold32 (3 / 4) (5 / 8) 1 = (1 / 4, 0, 3 / 8) := by decide +kernel

/-! ## One coordinate of a sample -/

/-- The displacement of a corner times its weight. -/
theorem term_err {c b w M : ℚ} (h : |c - b| ≤ 176 / 100 * M) :
    |f32 (f32 (c - b) * w) - (c - b) * w| ≤ 353 / 100 * (M / 2 ^ 24) * |w| := by
  have hM : 0 ≤ M := by linarith [abs_nonneg (c - b)]
  have e1 := f32_abs h
  have e2 := f32_err (f32 (c - b) * w)
  generalize f32 (c - b) = a at *
  have ha : |a| ≤ 177 / 100 * M := by
    have : |a| ≤ |a - (c - b)| + |c - b| := by
      have := abs_add_le (a - (c - b)) (c - b)
      rwa [sub_add_cancel] at this
    norm_num at *
    linarith
  have e3 : |a * w - (c - b) * w| ≤ 176 / 100 * M / 2 ^ 24 * |w| := by
    rw [← sub_mul, abs_mul]
    exact mul_le_mul_of_nonneg_right e1 (abs_nonneg w)
  have e4 : |a * w| ≤ 177 / 100 * M * |w| := by
    rw [abs_mul]
    exact mul_le_mul_of_nonneg_right ha (abs_nonneg w)
  have e5 := abs_sub_le (f32 (a * w)) (a * w) ((c - b) * w)
  generalize f32 (a * w) = d at *
  generalize |w| = W at *
  have : M * W = M * W := rfl
  have e6 : 353 / 100 * (M / 2 ^ 24) * W = (353 / 100 / 2 ^ 24) * (M * W) := by ring
  have e7 : 176 / 100 * M / 2 ^ 24 * W = (176 / 100 / 2 ^ 24) * (M * W) := by ring
  have e8 : 177 / 100 * M * W = 177 / 100 * (M * W) := by ring
  rw [e6]
  rw [e7] at e3
  rw [e8] at e4
  generalize M * W = X at *
  have e9 : |a * w| / 2 ^ 24 ≤ 177 / 100 * X / 2 ^ 24 := div_le_div_of_nonneg_right e4 (by norm_num)
  linarith

/-- Rounding in the sum of the four terms. -/
theorem sum_err {b d0 d1 d2 d3 D0 D1 D2 D3 r0 r1 r2 r3 M : ℚ} (h0 : |d0 - D0| ≤ r0) (h1 : |d1 - D1| ≤ r1)
    (h2 : |d2 - D2| ≤ r2) (h3 : |d3 - D3| ≤ r3) (hr : r0 + r1 + r2 + r3 ≤ 4 * (M / 2 ^ 24))
    (b0 : |b + D0| ≤ 101 / 100 * M) (b1 : |b + D0 + D1| ≤ 101 / 100 * M) (b2 : |b + D0 + D1 + D2| ≤ 101 / 100 * M)
    (b3 : |b + D0 + D1 + D2 + D3| ≤ 101 / 100 * M) :
    |f32 (f32 (f32 (f32 (b + d0) + d1) + d2) + d3) - (b + D0 + D1 + D2 + D3)| ≤
      r0 + r1 + r2 + r3 + 41 / 10 * (M / 2 ^ 24) := by
  have z0 := (abs_nonneg _).trans h0
  have z1 := (abs_nonneg _).trans h1
  have z2 := (abs_nonneg _).trans h2
  have z3 := (abs_nonneg _).trans h3
  have hM : 0 ≤ M := by linarith [abs_nonneg (b + D0)]
  obtain ⟨g, hg⟩ : ∃ g, g = M / 2 ^ 24 := ⟨_, rfl⟩
  have hMg : M = 2 ^ 24 * g := by rw [hg]; ring
  rw [← hg] at *
  subst hMg
  rw [abs_le] at h0 h1 h2 h3 b0 b1 b2 b3
  have step : ∀ x, |x| ≤ 102 / 100 * (2 ^ 24 * g) → |f32 x - x| ≤ 102 / 100 * g := fun x hx => by
    have := f32_abs hx
    linarith
  have s0 := abs_le.mp (step (b + d0) (by rw [abs_le]; norm_num at *; constructor <;> linarith))
  generalize f32 (b + d0) = y0 at *
  have s1 := abs_le.mp (step (y0 + d1) (by rw [abs_le]; norm_num at *; constructor <;> linarith))
  generalize f32 (y0 + d1) = y1 at *
  have s2 := abs_le.mp (step (y1 + d2) (by rw [abs_le]; norm_num at *; constructor <;> linarith))
  generalize f32 (y1 + d2) = y2 at *
  have s3 := abs_le.mp (step (y2 + d3) (by rw [abs_le]; norm_num at *; constructor <;> linarith))
  generalize f32 (y2 + d3) = y3 at *
  rw [abs_le]
  norm_num at *
  constructor <;> linarith

theorem bary_bound {c0 c1 c2 M : ℚ} (h0 : |c0| ≤ M) (h1 : |c1| ≤ M) (h2 : |c2| ≤ M) :
    |f32 (f32 (f32 (c0 + c1) + c2) / 4)| ≤ 76 / 100 * M := by
  rw [abs_le] at h0 h1 h2
  have s0 := abs_le.mp (f32_abs (show |c0 + c1| ≤ 2 * M by rw [abs_le]; constructor <;> linarith))
  generalize f32 (c0 + c1) = y0 at *
  have s1 := abs_le.mp (f32_abs (show |y0 + c2| ≤ 301 / 100 * M by rw [abs_le]; norm_num at *; constructor <;> linarith))
  generalize f32 (y0 + c2) = y1 at *
  have s2 := abs_le.mp (f32_abs (show |y1 / 4| ≤ M by rw [abs_le]; norm_num at *; constructor <;> linarith))
  generalize f32 (y1 / 4) = y2 at *
  rw [abs_le]
  norm_num at *
  constructor <;> linarith

/-- The fourth weight. -/
theorem weight_err {s t u : ℚ} (hs : -(10 / 2 ^ 24) ≤ s) (ht : -(10 / 2 ^ 24) ≤ t) (hu : -(10 / 2 ^ 24) ≤ u)
    (h : s + t + u ≤ 1 + 10 / 2 ^ 24) : |f32 (f32 (f32 (1 - s) - t) - u) - (1 - s - t - u)| ≤ 4 / 2 ^ 24 := by
  have s0 := abs_le.mp (f32_abs (show |1 - s| ≤ 101 / 100 by rw [abs_le]; norm_num at *; constructor <;> linarith))
  generalize f32 (1 - s) = y0 at *
  have s1 := abs_le.mp (f32_abs (show |y0 - t| ≤ 101 / 100 by rw [abs_le]; norm_num at *; constructor <;> linarith))
  generalize f32 (y0 - t) = y1 at *
  have s2 := abs_le.mp (f32_abs (show |y1 - u| ≤ 101 / 100 by rw [abs_le]; norm_num at *; constructor <;> linarith))
  generalize f32 (y1 - u) = y2 at *
  rw [abs_le]
  norm_num at *
  constructor <;> linarith

theorem abs_weight {w : ℚ} (h : -(40 / 2 ^ 24) ≤ w) : |w| ≤ w + 80 / 2 ^ 24 := by
  rw [abs_le]
  constructor
  · linarith
  · norm_num

/-- A combination of numbers up to `M` with weights that add up to one. -/
theorem comb_bound {b c0 c1 c2 c3 x w0 w1 w2 w3 M : ℚ} (hb : |b| ≤ M) (h0 : |c0| ≤ M) (h1 : |c1| ≤ M) (h2 : |c2| ≤ M)
    (h3 : |c3| ≤ M) (hw : |x| + |w0| + |w1| + |w2| + |w3| ≤ 101 / 100) :
    |b * x + c0 * w0 + c1 * w1 + c2 * w2 + c3 * w3| ≤ 101 / 100 * M := by
  have hM := (abs_nonneg _).trans hb
  have m : ∀ {a w : ℚ}, |a| ≤ M → |a * w| ≤ M * |w| := fun h => by
    rw [abs_mul]; exact mul_le_mul_of_nonneg_right h (abs_nonneg _)
  have t1 := abs_add_le (b * x + c0 * w0 + c1 * w1 + c2 * w2) (c3 * w3)
  have t2 := abs_add_le (b * x + c0 * w0 + c1 * w1) (c2 * w2)
  have t3 := abs_add_le (b * x + c0 * w0) (c1 * w1)
  have t4 := abs_add_le (b * x) (c0 * w0)
  have := mul_le_mul_of_nonneg_left hw hM
  linarith [m (w := x) hb, m (w := w0) h0, m (w := w1) h1, m (w := w2) h2, m (w := w3) h3]

/-- One coordinate of a sample is within `M / 2 ^ 20` of the exact combination of the corners. -/
theorem coord_err {c0 c1 c2 c3 s t u M : ℚ} (h0 : |c0| ≤ M) (h1 : |c1| ≤ M) (h2 : |c2| ≤ M) (h3 : |c3| ≤ M)
    (hs : -(10 / 2 ^ 24) ≤ s) (ht : -(10 / 2 ^ 24) ≤ t) (hu : -(10 / 2 ^ 24) ≤ u) (h : s + t + u ≤ 1 + 10 / 2 ^ 24) :
    let b := f32 (f32 (f32 (c0 + c1) + c2) / 4)
    let v := f32 (f32 (f32 (1 - s) - t) - u)
    |f32 (f32 (f32 (f32 (b + f32 (f32 (c0 - b) * s)) + f32 (f32 (c1 - b) * t)) + f32 (f32 (c2 - b) * u)) +
      f32 (f32 (c3 - b) * v)) - (s * c0 + t * c1 + u * c2 + (1 - s - t - u) * c3)| ≤ M / 2 ^ 20 := by
  intro b v
  have hb : |b| ≤ 76 / 100 * M := bary_bound h0 h1 h2
  have hv : |v - (1 - s - t - u)| ≤ 4 / 2 ^ 24 := weight_err hs ht hu h
  clear_value b v
  have hM := (abs_nonneg _).trans h0
  have hbM : |b| ≤ M := by linarith
  have cb : ∀ {c : ℚ}, |c| ≤ M → |c - b| ≤ 176 / 100 * M := fun {c} hc => by
    have := abs_sub c b
    linarith
  have hv' := abs_le.mp hv
  have v0 : -(40 / 2 ^ 24) ≤ v := by norm_num at *; linarith
  have ws := abs_weight (w := s) (by norm_num at *; linarith)
  have wt := abs_weight (w := t) (by norm_num at *; linarith)
  have wu := abs_weight (w := u) (by norm_num at *; linarith)
  have wv := abs_weight v0
  have x0 := abs_weight (w := 1 - s) (by norm_num at *; linarith)
  have x1 := abs_weight (w := 1 - s - t) (by norm_num at *; linarith)
  have x2 := abs_weight (w := 1 - s - t - u) (by norm_num at *; linarith)
  have x3 : |1 - s - t - u - v| ≤ 4 / 2 ^ 24 := by rw [abs_sub_comm]; exact hv
  have z : |(0 : ℚ)| = 0 := abs_zero
  have key := sum_err (b := b) (term_err (w := s) (cb h0)) (term_err (w := t) (cb h1)) (term_err (w := u) (cb h2))
    (term_err (w := v) (cb h3)) (M := M) (by
      have : |s| + |t| + |u| + |v| ≤ 101 / 100 := by norm_num at *; linarith
      have := mul_le_mul_of_nonneg_left this (show 0 ≤ 353 / 100 * (M / 2 ^ 24) by positivity)
      linarith [show 0 ≤ M / 2 ^ 24 by positivity])
    (by
      have := comb_bound (x := 1 - s) (w0 := s) (w1 := 0) (w2 := 0) (w3 := 0) hbM h0 h1 h2 h3 (by norm_num at *; linarith)
      convert this using 2; ring)
    (by
      have := comb_bound (x := 1 - s - t) (w0 := s) (w1 := t) (w2 := 0) (w3 := 0) hbM h0 h1 h2 h3 (by norm_num at *; linarith)
      convert this using 2; ring)
    (by
      have := comb_bound (x := 1 - s - t - u) (w0 := s) (w1 := t) (w2 := u) (w3 := 0) hbM h0 h1 h2 h3 (by norm_num at *; linarith)
      convert this using 2; ring)
    (by
      have := comb_bound (x := 1 - s - t - u - v) (w0 := s) (w1 := t) (w2 := u) (w3 := v) hbM h0 h1 h2 h3
        (by norm_num at *; linarith)
      convert this using 2; ring)
  have hr : 353 / 100 * (M / 2 ^ 24) * |s| + 353 / 100 * (M / 2 ^ 24) * |t| + 353 / 100 * (M / 2 ^ 24) * |u| +
      353 / 100 * (M / 2 ^ 24) * |v| ≤ 36 / 10 * (M / 2 ^ 24) := by
    have : |s| + |t| + |u| + |v| ≤ 101 / 100 := by norm_num at *; linarith
    have := mul_le_mul_of_nonneg_left this (show 0 ≤ 353 / 100 * (M / 2 ^ 24) by positivity)
    linarith [show 0 ≤ M / 2 ^ 24 by positivity]
  have hd : |(c3 - b) * (v - (1 - s - t - u))| ≤ 176 / 100 * M * (4 / 2 ^ 24) := by
    rw [abs_mul]
    exact mul_le_mul (cb h3) hv (abs_nonneg _) (by linarith)
  have e : b + (c0 - b) * s + (c1 - b) * t + (c2 - b) * u + (c3 - b) * v =
      s * c0 + t * c1 + u * c2 + (1 - s - t - u) * c3 + (c3 - b) * (v - (1 - s - t - u)) := by ring
  rw [e] at key
  generalize s * c0 + t * c1 + u * c2 + (1 - s - t - u) * c3 = X at *
  generalize (c3 - b) * (v - (1 - s - t - u)) = Y at *
  rw [abs_le] at key hd ⊢
  generalize f32 (f32 (f32 (f32 (b + f32 (f32 (c0 - b) * s)) + f32 (f32 (c1 - b) * t)) + f32 (f32 (c2 - b) * u)) +
      f32 (f32 (c3 - b) * v)) = Z at *
  norm_num at *
  constructor <;> linarith

/-- An exact combination with weights that are not negative up to `10 / 2 ^ 24`. -/
theorem comb_hull {c0 c1 c2 c3 s t u lo hi : ℚ} (h0 : lo ≤ c0 ∧ c0 ≤ hi) (h1 : lo ≤ c1 ∧ c1 ≤ hi)
    (h2 : lo ≤ c2 ∧ c2 ≤ hi) (h3 : lo ≤ c3 ∧ c3 ≤ hi)
    (hs : -(10 / 2 ^ 24) ≤ s) (ht : -(10 / 2 ^ 24) ≤ t) (hu : -(10 / 2 ^ 24) ≤ u) (h : s + t + u ≤ 1 + 10 / 2 ^ 24) :
    lo - 40 * (hi - lo) / 2 ^ 24 ≤ s * c0 + t * c1 + u * c2 + (1 - s - t - u) * c3 ∧
      s * c0 + t * c1 + u * c2 + (1 - s - t - u) * c3 ≤ hi + 40 * (hi - lo) / 2 ^ 24 := by
  have m : ∀ {w c : ℚ}, -(10 / 2 ^ 24) ≤ w → lo ≤ c ∧ c ≤ hi → -(10 * (hi - lo) / 2 ^ 24) ≤ w * (c - lo) ∧
      -(10 * (hi - lo) / 2 ^ 24) ≤ w * (hi - c) := fun {w c} hw hc => by
    have a1 := mul_nonneg (show 0 ≤ w + 10 / 2 ^ 24 by linarith) (show 0 ≤ c - lo by linarith)
    have a2 := mul_nonneg (show 0 ≤ w + 10 / 2 ^ 24 by linarith) (show 0 ≤ hi - c by linarith)
    constructor <;> linarith
  have m0 := m hs h0
  have m1 := m ht h1
  have m2 := m hu h2
  have m3 := m (w := 1 - s - t - u) (by linarith) h3
  constructor <;> linarith

theorem sample_good (c : Fin 4 → Vec) {p : Vec} (hp : NearUnit (10 / 2 ^ 24) p) (j : Fin 3) :
    GoodCoord c p j (cornerSum32 c (fun i => f32 (f32 (f32 (c 0 i + c 1 i) + c 2 i) / 4)) (p 0) (p 1) (p 2) j) := by
  obtain ⟨h0, h1, h2, h3⟩ := hp
  intro M hM
  have e : |cornerSum32 c (fun i => f32 (f32 (f32 (c 0 i + c 1 i) + c 2 i) / 4)) (p 0) (p 1) (p 2) j -
      (p 0 * c 0 j + p 1 * c 1 j + p 2 * c 2 j + (1 - p 0 - p 1 - p 2) * c 3 j)| ≤ M / 2 ^ 20 := by
    unfold cornerSum32
    exact coord_err (hM 0) (hM 1) (hM 2) (hM 3) h0 h1 h2 h3
  have em : mix c p j = p 0 * c 0 j + p 1 * c 1 j + p 2 * c 2 j + (1 - p 0 - p 1 - p 2) * c 3 j := by
    simp [mix, bary, Fin.sum_univ_four]
  rw [em]
  have key : ∀ lo hi, (∀ k, lo ≤ c k j ∧ c k j ≤ hi) → _ :=
    fun lo hi hc => comb_hull (hc 0) (hc 1) (hc 2) (hc 3) h0 h1 h2 h3
  generalize p 0 * c 0 j + p 1 * c 1 j + p 2 * c 2 j + (1 - p 0 - p 1 - p 2) * c 3 j = X at *
  generalize cornerSum32 c _ (p 0) (p 1) (p 2) j = Y at *
  refine ⟨e, fun lo hi hc => ?_⟩
  obtain ⟨a, b⟩ := key lo hi hc
  obtain ⟨e1, e2⟩ := abs_le.mp e
  constructor
  · have : lo - (16 * M + 40 * (hi - lo)) / 2 ^ 24 = lo - 40 * (hi - lo) / 2 ^ 24 - M / 2 ^ 20 := by ring
    linarith
  · have : hi + (16 * M + 40 * (hi - lo)) / 2 ^ 24 = hi + 40 * (hi - lo) / 2 ^ 24 + M / 2 ^ 20 := by ring
    linarith

/-! ## The buffers -/

theorem barycenter32_spec {t : Tetra} (h : Fresh t) :
    (barycenter32 t).1 = (fun i => f32 (f32 (f32 (t.corners 0 i + t.corners 1 i) + t.corners 2 i) / 4)) ∧
      (barycenter32 t).2.corners = t.corners ∧ Fresh (barycenter32 t).2 := by
  unfold barycenter32
  by_cases hb : t.baryValid = true
  · rw [if_pos hb]
    exact ⟨h hb, rfl, h⟩
  · rw [if_neg hb]
    exact ⟨rfl, rfl, fun _ => rfl⟩

theorem distributeTetra32_eq {t : Tetra} (h : Fresh t) (pts buf : List Vec) (hl : pts.length ≤ buf.length) :
    ∃ out t', distributeTetra32 t pts buf = some (out, t') ∧ t'.corners = t.corners ∧ Fresh t' ∧
      out.length = buf.length ∧ ∀ i, out[i]? = if i < pts.length then
        some (cornerSum32 t.corners (fun i => f32 (f32 (f32 (t.corners 0 i + t.corners 1 i) + t.corners 2 i) / 4))
          (pts.getD i 0 0) (pts.getD i 0 1) (pts.getD i 0 2)) else buf[i]? := by
  obtain ⟨hb, hc, hf⟩ := barycenter32_spec h
  have gp : ∀ i < pts.length, pts[i]? = some (pts.getD i 0) := fun i hi => by simp [hi]
  obtain ⟨out, e, hl2, ho⟩ := fill_spec (n := pts.length)
    (fun i => cornerSum32 (barycenter32 t).2.corners (barycenter32 t).1 (pts.getD i 0 0) (pts.getD i 0 1) (pts.getD i 0 2))
    buf hl
    (fun i (buf : List Vec) => do
      let p ← rd pts i
      wr buf i (cornerSum32 (barycenter32 t).2.corners (barycenter32 t).1 (p 0) (p 1) (p 2))) (by
      intro i st hi
      have a1 : rd pts (i : Int) = some (pts.getD i 0) := rd_fn_nat gp i rfl (by omega)
      simp only [a1, bind, Option.bind_some])
  refine ⟨out, (barycenter32 t).2, ?_, hc, hf, hl2, fun i => ?_⟩
  · unfold distributeTetra32
    exact bind_of e rfl
  · rw [ho i, hb, hc]

theorem distribute32_eq {t : Tetra} (h : Fresh t) (xs ys zs : List ℚ) (buf : List Vec) (hx : buf.length ≤ xs.length)
    (hy : buf.length ≤ ys.length) (hz : buf.length ≤ zs.length) :
    ∃ out t', distribute32 t xs ys zs buf = some (out, t') ∧ t'.corners = t.corners ∧ Fresh t' ∧
      out.length = buf.length ∧ ∀ i < buf.length,
        let f := fold32 (f32 (xs.getD i 0)) (f32 (ys.getD i 0)) (f32 (zs.getD i 0))
        out[i]? = some (cornerSum32 t.corners
          (fun i => f32 (f32 (f32 (t.corners 0 i + t.corners 1 i) + t.corners 2 i) / 4)) f.1 f.2.1 f.2.2) := by
  obtain ⟨hb, hc, hf⟩ := barycenter32_spec h
  have gx : ∀ i < xs.length, xs[i]? = some (xs.getD i 0) := fun i hi => by simp [hi]
  have gy : ∀ i < ys.length, ys[i]? = some (ys.getD i 0) := fun i hi => by simp [hi]
  have gz : ∀ i < zs.length, zs[i]? = some (zs.getD i 0) := fun i hi => by simp [hi]
  obtain ⟨out, e, hl, ho⟩ := fill_spec (n := buf.length)
    (fun i => let f := fold32 (f32 (xs.getD i 0)) (f32 (ys.getD i 0)) (f32 (zs.getD i 0))
      cornerSum32 (barycenter32 t).2.corners (barycenter32 t).1 f.1 f.2.1 f.2.2) buf le_rfl
    (fun i (buf : List Vec) => do
      let s ← rd xs i
      let t1 ← rd ys i
      let u ← rd zs i
      let f := fold32 (f32 s) (f32 t1) (f32 u)
      wr buf i (cornerSum32 (barycenter32 t).2.corners (barycenter32 t).1 f.1 f.2.1 f.2.2)) (by
      intro i st hi
      have a1 : rd xs (i : Int) = some (xs.getD i 0) := rd_fn_nat gx i rfl (by omega)
      have a2 : rd ys (i : Int) = some (ys.getD i 0) := rd_fn_nat gy i rfl (by omega)
      have a3 : rd zs (i : Int) = some (zs.getD i 0) := rd_fn_nat gz i rfl (by omega)
      simp only [a1, a2, a3, bind, Option.bind_some])
  refine ⟨out, (barycenter32 t).2, ?_, hc, hf, hl, fun i hi => ?_⟩
  · unfold distribute32
    exact bind_of e rfl
  · intro f
    rw [ho i, if_pos hi, hb, hc]

/-- C133: the unit buffers in machine arithmetic: as many points as were drawn, all of them in the unit tetrahedron up to
`10 / 2²⁴`. -/
theorem C133_unitBuf_partial (draws : List (ℚ × ℚ × ℚ))
    (h : ∀ d ∈ draws, (0 ≤ d.1 ∧ d.1 ≤ 1) ∧ (0 ≤ d.2.1 ∧ d.2.1 ≤ 1) ∧ 0 ≤ d.2.2 ∧ d.2.2 ≤ 1) :
    (unitBuf32 draws).length = draws.length ∧ ∀ p ∈ unitBuf32 draws, NearUnit (10 / 2 ^ 24) p := by
  unfold unitBuf32 distributeUnit32
  refine ⟨by simp, fun p hp => ?_⟩
  rw [List.map_map, List.mem_map] at hp
  obtain ⟨d, hd, rfl⟩ := hp
  obtain ⟨⟨a, b⟩, ⟨c, e⟩, f, g⟩ := h d hd
  exact C133_unit_partial (f32_unit a b) (f32_unit c e) (f32_unit f g)

example : unitBuf32 [(3 / 4, 5 / 8, 1), (1 - 1 / 2 ^ 30, 0, 0)] = [![1 / 4, 0, 3 / 8], ![1, 0, 0]] ∧
    ∀ d ∈ [((3 / 4 : ℚ), (5 / 8 : ℚ), (1 : ℚ)), (1 - 1 / 2 ^ 30, 0, 0)],
      (0 ≤ d.1 ∧ d.1 ≤ 1) ∧ (0 ≤ d.2.1 ∧ d.2.1 ≤ 1) ∧ 0 ≤ d.2.2 ∧ d.2.2 ≤ 1 := by
  decide +kernel

/-- C133: what is left of the claim that the samples of a tetrahedron lie in it, for the loop of the renderers: no panic,
the rest of the target is left alone, and every sample is close to the exact combination of the corners and to their
range. -/
theorem C133_sample_partial {t : Tetra} (ht : Fresh t) (pts buf : List Vec) (hl : pts.length ≤ buf.length)
    (hp : ∀ p ∈ pts, NearUnit (10 / 2 ^ 24) p) :
    ∃ out t', distributeTetra32 t pts buf = some (out, t') ∧ t'.corners = t.corners ∧ Fresh t' ∧
      out.length = buf.length ∧ (∀ i, pts.length ≤ i → out[i]? = buf[i]?) ∧
      ∀ (i : ℕ) (p : Vec), pts[i]? = some p → ∃ q, out[i]? = some q ∧ ∀ j, GoodCoord t.corners p j (q j) := by
  obtain ⟨out, t', e, hc, hf, hlen, ho⟩ := distributeTetra32_eq ht pts buf hl
  refine ⟨out, t', e, hc, hf, hlen, fun i hi => by rw [ho i, if_neg (by omega)], fun i p hip => ?_⟩
  have hi : i < pts.length := (List.getElem?_eq_some_iff.mp hip).1
  refine ⟨_, by rw [ho i, if_pos hi], fun j => ?_⟩
  have e2 : pts.getD i 0 = p := by simp [List.getD, hip]
  rw [e2]
  exact sample_good _ (hp p (List.mem_of_getElem? hip)) j

/-- A sample that is rounded: the exact coordinate is `9 / 5`. -/
example : Fresh (newTetra ![0, 0, 0] ![3, 0, 0] ![0, 3, 0] ![0, 0, 3]) ∧
    NearUnit (10 / 2 ^ 24) ![f32 (1 / 5), f32 (3 / 5), f32 (1 / 10)] ∧
    ((distributeTetra32 (newTetra ![0, 0, 0] ![3, 0, 0] ![0, 3, 0] ![0, 0, 3]) [![f32 (1 / 5), f32 (3 / 5), f32 (1 / 10)]]
      [0, ![7, 7, 7]]).map fun r => (r.1.map (· 0))) = some [9 / 5 - 1 / 5 / 2 ^ 22, 7] := by
  refine ⟨fun h => absurd h (by decide), ?_, by decide +kernel⟩
  unfold NearUnit
  decide +kernel

/-- C133: the same for the points `RandomSample` draws from a tetrahedron, from the draws of the generator. -/
theorem C133_distribute_partial {t : Tetra} (ht : Fresh t) (xs ys zs : List ℚ) (buf : List Vec)
    (hx : buf.length ≤ xs.length) (hy : buf.length ≤ ys.length) (hz : buf.length ≤ zs.length)
    (ux : ∀ x ∈ xs, 0 ≤ x ∧ x ≤ 1) (uy : ∀ x ∈ ys, 0 ≤ x ∧ x ≤ 1) (uz : ∀ x ∈ zs, 0 ≤ x ∧ x ≤ 1) :
    ∃ out t', distribute32 t xs ys zs buf = some (out, t') ∧ t'.corners = t.corners ∧ Fresh t' ∧
      out.length = buf.length ∧ ∀ q ∈ out, ∃ p, NearUnit (10 / 2 ^ 24) p ∧ ∀ j, GoodCoord t.corners p j (q j) := by
  obtain ⟨out, t', e, hc, hf, hlen, ho⟩ := distribute32_eq ht xs ys zs buf hx hy hz
  refine ⟨out, t', e, hc, hf, hlen, fun q hq => ?_⟩
  obtain ⟨i, hi, rfl⟩ := List.mem_iff_getElem.mp hq
  have hib : i < buf.length := by omega
  have := ho i hib
  rw [List.getElem?_eq_getElem hi, Option.some.injEq] at this
  rw [this]
  have m : ∀ {l : List ℚ}, buf.length ≤ l.length → (∀ x ∈ l, 0 ≤ x ∧ x ≤ 1) → 0 ≤ f32 (l.getD i 0) ∧ f32 (l.getD i 0) ≤ 1 :=
    fun {l} hl hu => by
      have h1 : i < l.length := by omega
      have h2 : l.getD i 0 ∈ l := by simp [h1]
      exact f32_unit (hu _ h2).1 (hu _ h2).2
  have hn := C133_unit_partial (m hx ux) (m hy uy) (m hz uz)
  exact ⟨_, hn, fun j => sample_good _ hn j⟩

example : ((distribute32 (newTetra ![0, 0, 0] ![2, 0, 0] ![0, 2, 0] ![0, 0, 2]) [3 / 4] [5 / 8] [1] [0]).map (·.1)) =
    some [![0, 3 / 4, 3 / 4]] := by
  decide +kernel

/-- C133: a sample whose exact position is farther than `M / 2²⁰` from the faces of its cell is in that cell. -/
theorem C133_cell {c : Fin 4 → Vec} {p : Vec} {j : Fin 3} {y M : ℚ} (h : GoodCoord c p j y) (hM : ∀ k, |c k j| ≤ M)
    (hoff : ∀ z : ℤ, M / 2 ^ 20 < |mix c p j - z|) : ⌊y⌋ = ⌊mix c p j⌋ := by
  obtain ⟨e1, e2⟩ := abs_le.mp (h M hM).1
  generalize mix c p j = q at *
  have f1 := Int.floor_le q
  have f2 := Int.lt_floor_add_one q
  have o1 := hoff ⌊q⌋
  have o2 := hoff (⌊q⌋ + 1)
  push_cast at o2
  rw [abs_of_nonneg (by linarith : (0 : ℚ) ≤ q - ⌊q⌋)] at o1
  rw [abs_of_neg (by linarith : q - (⌊q⌋ + 1) < 0)] at o2
  rw [Int.floor_eq_iff]
  constructor <;> linarith

/-- The sample above. -/
example : let c : Fin 4 → Vec := ![![0, 0, 0], ![3, 0, 0], ![0, 3, 0], ![0, 0, 3]]
    (∀ k, |c k 0| ≤ 3) ∧ mix c ![1 / 5, 3 / 5, 1 / 10] 0 = 9 / 5 ∧ ∀ z : ℤ, (3 : ℚ) / 2 ^ 20 < |(9 / 5 : ℚ) - z| := by
  refine ⟨by intro k; fin_cases k <;> norm_num, by simp [mix, bary, Fin.sum_univ_four]; norm_num, fun z => ?_⟩
  rcases le_or_gt z 1 with h | h
  · have : (z : ℚ) ≤ 1 := by exact_mod_cast h
    rw [abs_of_pos (by linarith)]
    norm_num at *
    linarith
  · have : (2 : ℚ) ≤ z := by exact_mod_cast h
    rw [abs_of_neg (by linarith)]
    norm_num at *
    linarith

/-- C133: samples of a tetrahedron of particles that keep a small distance from the faces of the cells (C128, with a slightly
larger distance) are in the buffer of the segment. -/
theorem C133_buffer_partial {L x0 : ℚ} {xs : List ℚ} {C : ℤ} (hL : F32 L) (hL0 : 0 < L) (r0 : F32 x0) (h0 : x0 ∈ xs)
    (h01 : ∀ x ∈ xs, 0 ≤ x ∧ x ≤ L) {b S : ℚ} (hin : ∀ x ∈ xs, ∃ k : ℤ, b ≤ x + k * L ∧ x + k * L ≤ b + S)
    (hroom : S + 2 * ((moves L ⟨x0, 0, 0⟩ xs + 3) * (L / 2 ^ 22)) ≤ L / 2) (hC : 8 ≤ C) (hC' : C ≤ 2 ^ 24)
    (hoff : ∀ x ∈ xs, ∀ z : ℤ, (4 * (moves L ⟨x0, 0, 0⟩ xs + 3) + 52) * (C / 2 ^ 24) < |x * C / L - z|) :
    let hd := (axisBox L x0 xs).stored L
    let cb := cellAxis L hd.1 hd.2 C
    ∀ (c : Fin 4 → Vec) (j : Fin 3), (∀ k, ∃ x ∈ xs, c k j = scaleSeg32 C (boxWidth64 L C) cb.1 x) →
      ∀ (p : Vec) (y : ℚ), GoodCoord c p j y → 0 ≤ y ∧ y < cb.2 := by
  intro hd cb c j hc p y hy
  obtain ⟨h1, h2⟩ := scaled_margin (D := 36) (by norm_num) hL hL0 r0 h0 h01 hin hroom hC hC' (by
    intro x hx z
    have := hoff x hx z
    rwa [show (4 * ((moves L ⟨x0, 0, 0⟩ xs : ℚ) + 3) + 16 + 36) = 4 * ((moves L ⟨x0, 0, 0⟩ xs : ℚ) + 3) + 52 by ring])
  have hcq : (0 : ℚ) < C := by exact_mod_cast (by omega : 0 < C)
  have hw : ((cb.2 : ℤ) : ℚ) ≤ C := by exact_mod_cast h1
  obtain ⟨g, hg⟩ : ∃ g : ℚ, g = C / 2 ^ 24 := ⟨_, rfl⟩
  have hgC : (C : ℚ) = 2 ^ 24 * g := by rw [hg]; ring
  have hb : ∀ k, 56 * g < c k j ∧ c k j < cb.2 - 56 * g := fun k => by
    obtain ⟨x, hx, e⟩ := hc k
    obtain ⟨a1, a2, -⟩ := h2 x hx
    rw [← hg] at a1 a2
    rw [e]
    constructor <;> linarith
  have g0 : 0 < g := by rw [hg]; positivity
  obtain ⟨-, k2⟩ := hy C (fun k => by rw [abs_le]; have := hb k; constructor <;> linarith)
  obtain ⟨l1, l2⟩ := k2 (56 * g) (cb.2 - 56 * g) fun k => ⟨(hb k).1.le, (hb k).2.le⟩
  have e : (16 * (C : ℚ) + 40 * ((cb.2 - 56 * g) - 56 * g)) / 2 ^ 24 < 56 * g := by
    rw [div_lt_iff₀ (by norm_num)]
    linarith
  constructor <;> linarith

/-- The distance from the faces that is needed, for three particles across the edge of a box of eight cells. -/
example : let xs : List ℚ := [7.5, 0.25, 1.25]
    ∀ x ∈ xs, ∀ z : ℤ, (4 * ((moves 8 ⟨7.5, 0, 0⟩ xs : ℚ) + 3) + 52) * ((8 : ℤ) / 2 ^ 24) < |x * (8 : ℤ) / 8 - z| := by
  have hmv : moves 8 ⟨7.5, 0, 0⟩ [7.5, 0.25, 1.25] ≤ 3 := moves_le_length _ _ _
  have hmv' : ((moves 8 ⟨7.5, 0, 0⟩ [7.5, 0.25, 1.25] : ℕ) : ℚ) ≤ 3 := by exact_mod_cast hmv
  intro xs x hx z
  have h4 : (1 : ℚ) / 4 ≤ |x - z| := by
    have : ∃ m : ℤ, x * 4 = m ∧ m % 4 ≠ 0 := by
      simp only [xs, List.mem_cons, List.not_mem_nil, or_false] at hx
      rcases hx with rfl | rfl | rfl
      · exact ⟨30, by norm_num⟩
      · exact ⟨1, by norm_num⟩
      · exact ⟨5, by norm_num⟩
    obtain ⟨m, hm, hm4⟩ := this
    have h1 : 1 ≤ |m - 4 * z| := Int.one_le_abs (by omega)
    have h2 : (1 : ℚ) ≤ |(m : ℚ) - 4 * z| := by exact_mod_cast h1
    rw [← hm, show x * 4 - 4 * z = 4 * (x - z) by ring, abs_mul, abs_of_pos (by norm_num : (0 : ℚ) < 4)] at h2
    linarith
  push_cast
  rw [mul_div_assoc x 8 8, div_self (by norm_num), mul_one]
  refine lt_of_lt_of_le ?_ h4
  change (4 * (((moves 8 ⟨7.5, 0, 0⟩ [7.5, 0.25, 1.25] : ℕ) : ℚ) + 3) + 52) * (8 / 2 ^ 24) < 1 / 4
  linarith

/-- C133: the claim that the samples of a tetrahedron lie in it fails. Folding leaves points outside the unit tetrahedron,
and a point inside it may be placed beyond all four corners: here the corners have coordinates just below 8, as for a buffer
of eight cells, and the sample is at 8, outside the buffer. -/
theorem C133_counterexample :
    ¬ UnitPoint ![(fold32 (1 / 2 + 1 / 2 ^ 24) (1 / 2) 0).1, (fold32 (1 / 2 + 1 / 2 ^ 24) (1 / 2) 0).2.1,
      (fold32 (1 / 2 + 1 / 2 ^ 24) (1 / 2) 0).2.2] ∧
    let pts := unitBuf32 [(6754192 / 2 ^ 24, 9236797 / 2 ^ 24, 13746497 / 2 ^ 24)]
    let c : Fin 4 → Vec := ![fun _ => 8 - 1 / 2 ^ 21, fun _ => 8 - 1 / 2 ^ 21, fun _ => 8 - 2 / 2 ^ 21, fun _ => 8 - 1 / 2 ^ 21]
    (∀ p ∈ pts, UnitPoint p) ∧ (∀ k j, F32 (c k j) ∧ 0 ≤ c k j ∧ c k j < 8) ∧
      ((distributeTetra32 (newTetra (c 0) (c 1) (c 2) (c 3)) pts [0]).map (·.1)) = some [![8, 8, 8]] := by
  refine ⟨?_, ?_, ?_, by decide +kernel⟩
  · unfold UnitPoint
    decide +kernel
  · unfold UnitPoint
    decide +kernel
  · intro k j
    fin_cases k
    · exact ⟨⟨2 ^ 24 - 1, -21, by norm_num, by norm_num⟩, by norm_num, by norm_num⟩
    · exact ⟨⟨2 ^ 24 - 1, -21, by norm_num, by norm_num⟩, by norm_num, by norm_num⟩
    · exact ⟨⟨2 ^ 24 - 2, -21, by norm_num, by norm_num⟩, by norm_num, by norm_num⟩
    · exact ⟨⟨2 ^ 24 - 1, -21, by norm_num, by norm_num⟩, by norm_num, by norm_num⟩

end Verif.Fp
