import Verif.Interp.RoundSpline
import Mathlib.Tactic.NormNum

/-! Errors of the spline coefficients and of the cubic in machine arithmetic (for property C150). -/

set_option autoImplicit false

namespace Verif.Interp

open Verif.Go Verif.Mat

/-- `y` stands for `x`: the size of `x` is at most `L`, and `y` is off by at most `K` rounding units. -/
def Ap (u L K y x : ℚ) : Prop := |x| ≤ L ∧ |y - x| ≤ K * u

theorem Ap.weaken {u L K L' K' y x : ℚ} (a : Ap u L K y x) (hu : 0 ≤ u) (hL : L ≤ L') (hK : K ≤ K') : Ap u L' K' y x :=
  ⟨a.1.trans hL, a.2.trans (mul_le_mul_of_nonneg_right hK hu)⟩

theorem Ap.refl (u x : ℚ) : Ap u |x| 0 x x := ⟨le_rfl, by simp⟩

theorem Ap.K_nonneg {u L K y x : ℚ} (a : Ap u L K y x) : 0 ≤ K * u := (abs_nonneg _).trans a.2

theorem Ap.size {u L K y x : ℚ} (a : Ap u L K y x) : |y| ≤ L + K * u := by
  have := abs_add_le x (y - x)
  rw [add_sub_cancel] at this
  linarith [a.1, a.2]

theorem Ap.rel {u L K y x z : ℚ} (a : Ap u L K y x) (hu : u ≤ 1 / 1024) (h0 : 0 ≤ u) (h : |z - y| ≤ u * |y|) :
    Ap u L (L + K * (1025 / 1024)) z x := by
  refine ⟨a.1, ?_⟩
  have h1 := mul_le_mul_of_nonneg_left a.size h0
  have h2 := abs_add_le (z - y) (y - x)
  rw [sub_add_sub_cancel] at h2
  have h3 := mul_le_mul_of_nonneg_right hu a.K_nonneg
  linarith [a.2]

theorem Ap.fl {f : FP} {u L K y x : ℚ} (a : Ap u L K y x) (h : f.Laws u) (hu : u ≤ 1 / 1024) :
    Ap u L (L + K * (1025 / 1024)) (f.fl y) x := a.rel hu h.nonneg (h.err y)

theorem Ap.add {u L K y x L' K' y' x' : ℚ} (a : Ap u L K y x) (b : Ap u L' K' y' x') :
    Ap u (L + L') (K + K') (y + y') (x + x') := by
  refine ⟨(abs_add_le _ _).trans (add_le_add a.1 b.1), ?_⟩
  rw [show y + y' - (x + x') = y - x + (y' - x') by ring, add_mul]
  exact (abs_add_le _ _).trans (add_le_add a.2 b.2)

theorem Ap.neg {u L K y x : ℚ} (a : Ap u L K y x) : Ap u L K (-y) (-x) := by
  refine ⟨by rw [abs_neg]; exact a.1, ?_⟩
  rw [show -y - -x = -(y - x) by ring, abs_neg]
  exact a.2

theorem Ap.sub {u L K y x L' K' y' x' : ℚ} (a : Ap u L K y x) (b : Ap u L' K' y' x') :
    Ap u (L + L') (K + K') (y - y') (x - x') := by
  rw [sub_eq_add_neg, sub_eq_add_neg]; exact a.add b.neg

theorem Ap.mul {u L K y x L' K' y' x' : ℚ} (a : Ap u L K y x) (b : Ap u L' K' y' x') (hu : u ≤ 1 / 1024) (h0 : 0 < u) :
    Ap u (L * L') (K * L' + K * K' / 1024 + L * K') (y * y') (x * x') := by
  have L0 : 0 ≤ L := (abs_nonneg _).trans a.1
  have L0' : 0 ≤ L' := (abs_nonneg _).trans b.1
  have K0 : 0 ≤ K := nonneg_of_mul_nonneg_left a.K_nonneg h0
  have K0' : 0 ≤ K' := nonneg_of_mul_nonneg_left b.K_nonneg h0
  refine ⟨by rw [abs_mul]; exact mul_le_mul a.1 b.1 (abs_nonneg _) L0, ?_⟩
  rw [show y * y' - x * x' = (y - x) * y' + x * (y' - x') by ring]
  have h1 := abs_add_le ((y - x) * y') (x * (y' - x'))
  rw [abs_mul, abs_mul] at h1
  have h2 : |y - x| * |y'| ≤ K * u * (L' + K' * u) := mul_le_mul a.2 b.size (abs_nonneg _) a.K_nonneg
  have h3 : |x| * |y' - x'| ≤ L * (K' * u) := mul_le_mul a.1 b.2 (abs_nonneg _) L0
  have h4 : K * u * K' * u ≤ K * u * K' * (1 / 1024) := mul_le_mul_of_nonneg_left hu (by positivity)
  linarith

theorem Ap.smul {u L K y x : ℚ} (a : Ap u L K y x) {c : ℚ} (hc : 0 ≤ c) : Ap u (c * L) (c * K) (c * y) (c * x) := by
  refine ⟨by rw [abs_mul, abs_of_nonneg hc]; exact mul_le_mul_of_nonneg_left a.1 hc, ?_⟩
  rw [← mul_sub, abs_mul, abs_of_nonneg hc, mul_assoc]
  exact mul_le_mul_of_nonneg_left a.2 hc

theorem Ap.mac {f : FP} {u L K c₁ c₀ La Ka a₁ a₀ Lb Kb b₁ b₀ : ℚ} (c : Ap u L K c₁ c₀) (a : Ap u La Ka a₁ a₀)
    (b : Ap u Lb Kb b₁ b₀) (h : f.Laws u) (hu : u ≤ 1 / 1024) (h0 : 0 < u) {M : ℚ}
    (hM : L + La * Lb + (K + (La * Lb + (Ka * Lb + Ka * Kb / 1024 + La * Kb) * (1025 / 1024))) * (1025 / 1024) ≤ M) :
    Ap u (L + La * Lb) M (f.mac c₁ a₁ b₁) (c₀ + a₀ * b₀) := by
  obtain ⟨q, h1, h2, -⟩ := h.mac c₁ a₁ b₁
  exact ((c.add ((a.mul b hu h0).rel hu h0.le h1)).rel hu h0.le h2).weaken h0.le le_rfl hM

/-- The quotient by a rounded difference, times the difference. -/
theorem Ap.div_fl {f : FP} {u L K y x : ℚ} (a : Ap u L K y x) (h : f.Laws u) (hu : u ≤ 1 / 1024) (h0 : 0 < u) {d : ℚ}
    (hd : d ≠ 0) {M : ℚ} (hM : L + (K + K / 1024 + L) * (1025 / 1024) ≤ M) :
    Ap u L M (f.fl (y / f.fl d) * d) x := by
  obtain ⟨e, he, hed⟩ := rel' h hu d
  have hfd : f.fl d ≠ 0 := by rintro hz; rw [hz, zero_mul] at hed; exact hd hed.symm
  obtain ⟨g, hg, hgd⟩ := Verif.Interp.rel h (y / f.fl d)
  have b : Ap u 1 1 (1 + e) 1 := ⟨by simp, by rw [add_sub_cancel_left]; linarith⟩
  have c := a.mul b hu h0
  have e1 : f.fl (y / f.fl d) * d = y * (1 + e) * (1 + g) := by
    rw [hgd]
    nth_rewrite 2 [← hed]
    field_simp
  have c2 := c.rel (z := f.fl (y / f.fl d) * d) hu h0.le (by
    rw [e1, show y * (1 + e) * (1 + g) - y * (1 + e) = g * (y * (1 + e)) by ring, abs_mul]
    exact mul_le_mul_of_nonneg_right hg (abs_nonneg _))
  have := c2.weaken h0.le (show L * 1 ≤ L by linarith) (show _ ≤ M by linarith)
  rwa [mul_one] at this

/-- The cubic of one cell. `s0`, `s1` are the computed, `S0`, `S1` the exact second derivatives at its ends. -/
theorem cubic_err {f : FP} {u : ℚ} (h : f.Laws u) (hu : u ≤ 1 / 1024) (h0 : 0 < u) (left : Bool) {h' y0 y1 s0 s1 S0 S1 G t : ℚ}
    (hh : h' ≠ 0) (a0 : Ap u (45 / 7 * G) (256 * G) s0 S0) (a1 : Ap u (45 / 7 * G) (256 * G) s1 S1) (ht : |t| ≤ |h'|) :
    |cubicR f left { a := f.fl (f.fl (f.fl (-s0 / 6) + f.fl (s1 / 6)) / f.fl h')
                     b := f.fl (s0 / 2)
                     c := f.mac (f.fl (f.fl (y1 - y0) / f.fl h')) (f.fl h') (f.fl (f.fl (-s0 / 3) - f.fl (s1 / 6)))
                     d := y0 } (f.fl t) -
      ((-S0 / 6 + S1 / 6) / h' * t * t * t + S0 / 2 * t * t +
        ((y1 - y0) / h' + h' * (-S0 / 3 - S1 / 6)) * t + y0)| ≤
      u * (2 * |y0| + 10 * |y1 - y0| + 512 * (G * h' ^ 2)) := by
  have G0 : 0 ≤ G := by linarith [(abs_nonneg _).trans a0.1]
  have H0 : 0 < |h'| := abs_pos.mpr hh
  -- the coefficient of the cube, times the width
  have k1 : Ap u (15 / 14 * G) (44 * G) (f.fl (-s0 / 6)) (-S0 / 6) := by
    have := (a0.neg.smul (show (0 : ℚ) ≤ 1 / 6 by norm_num)).fl h hu
    rw [show (1 : ℚ) / 6 * -s0 = -s0 / 6 by ring, show (1 : ℚ) / 6 * -S0 = -S0 / 6 by ring] at this
    exact this.weaken h0.le (by linarith) (by linarith)
  have k2 : Ap u (15 / 14 * G) (44 * G) (f.fl (s1 / 6)) (S1 / 6) := by
    have := (a1.smul (show (0 : ℚ) ≤ 1 / 6 by norm_num)).fl h hu
    rw [show (1 : ℚ) / 6 * s1 = s1 / 6 by ring, show (1 : ℚ) / 6 * S1 = S1 / 6 by ring] at this
    exact this.weaken h0.le (by linarith) (by linarith)
  have k3 : Ap u (15 / 7 * G) (91 * G) (f.fl (f.fl (-s0 / 6) + f.fl (s1 / 6))) (-S0 / 6 + S1 / 6) :=
    ((k1.add k2).fl h hu).weaken h0.le (by linarith) (by linarith)
  have kA : Ap u (15 / 7 * G) (96 * G) (f.fl (f.fl (f.fl (-s0 / 6) + f.fl (s1 / 6)) / f.fl h') * h') (-S0 / 6 + S1 / 6) :=
    k3.div_fl h hu h0 hh (by linarith)
  -- the other coefficients
  have kB : Ap u (45 / 14 * G) (132 * G) (f.fl (s0 / 2)) (S0 / 2) := by
    have := (a0.smul (show (0 : ℚ) ≤ 1 / 2 by norm_num)).fl h hu
    rw [show (1 : ℚ) / 2 * s0 = s0 / 2 by ring, show (1 : ℚ) / 2 * S0 = S0 / 2 by ring] at this
    exact this.weaken h0.le (by linarith) (by linarith)
  have k4 : Ap u (15 / 7 * G) (88 * G) (f.fl (-s0 / 3)) (-S0 / 3) := by
    have := (a0.neg.smul (show (0 : ℚ) ≤ 1 / 3 by norm_num)).fl h hu
    rw [show (1 : ℚ) / 3 * -s0 = -s0 / 3 by ring, show (1 : ℚ) / 3 * -S0 = -S0 / 3 by ring] at this
    exact this.weaken h0.le (by linarith) (by linarith)
  have kQ : Ap u (45 / 14 * G) (136 * G) (f.fl (f.fl (-s0 / 3) - f.fl (s1 / 6))) (-S0 / 3 - S1 / 6) :=
    ((k4.sub k2).fl h hu).weaken h0.le (by linarith) (by linarith)
  have kd : Ap u |h'| |h'| (f.fl h') h' := ((Ap.refl u h').fl h hu).weaken h0.le le_rfl (by linarith)
  obtain ⟨σ, hσ⟩ : ∃ σ, σ = |(y1 - y0) / h'| := ⟨_, rfl⟩
  have σH : σ * |h'| = |y1 - y0| := by rw [hσ, abs_div]; field_simp
  have kS : Ap u σ (4 * σ) (f.fl (f.fl (y1 - y0) / f.fl h')) ((y1 - y0) / h') := by
    have k := (((Ap.refl u (y1 - y0)).fl h hu).div_fl h hu h0 hh le_rfl)
    refine ⟨hσ.ge, ?_⟩
    have e : f.fl (f.fl (y1 - y0) / f.fl h') - (y1 - y0) / h' =
        (f.fl (f.fl (y1 - y0) / f.fl h') * h' - (y1 - y0)) / h' := by field_simp
    rw [e, abs_div, div_le_iff₀ H0]
    refine k.2.trans ?_
    rw [← σH]
    have : 0 ≤ σ * |h'| * u := by rw [σH]; positivity
    linarith
  have kC : Ap u (σ + |h'| * (45 / 14 * G)) (41 / 8 * σ + 152 * (G * |h'|))
      (f.mac (f.fl (f.fl (y1 - y0) / f.fl h')) (f.fl h') (f.fl (f.fl (-s0 / 3) - f.fl (s1 / 6))))
      ((y1 - y0) / h' + h' * (-S0 / 3 - S1 / 6)) := by
    have p1 : 0 ≤ G * |h'| := by positivity
    have p2 : 0 ≤ σ := by rw [hσ]; positivity
    exact kS.mac kd kQ h hu h0 (by linarith)
  unfold cubicR
  dsimp only
  generalize f.fl (f.fl (f.fl (-s0 / 6) + f.fl (s1 / 6)) / f.fl h') = ca at *
  generalize f.fl (s0 / 2) = cb at *
  generalize f.mac (f.fl (f.fl (y1 - y0) / f.fl h')) (f.fl h') (f.fl (f.fl (-s0 / 3) - f.fl (s1 / 6))) = cc at *
  generalize -S0 / 6 + S1 / 6 = A at *
  generalize S0 / 2 = B at *
  generalize (y1 - y0) / h' + h' * (-S0 / 3 - S1 / 6) = Cc at *
  clear k1 k2 k3 k4 kQ kS
  -- the argument
  have kt : Ap u |h'| |h'| (f.fl t) t :=
    ((Ap.refl u t).fl h hu).weaken h0.le ht (by linarith)
  have kw : Ap u 1 1 (f.fl t / h') (t / h') := by
    refine ⟨by rw [abs_div]; exact (div_le_one H0).mpr ht, ?_⟩
    rw [← sub_div, abs_div, div_le_iff₀ H0]
    have := kt.2
    linarith
  generalize f.fl t = r at *
  obtain ⟨g, hg⟩ : ∃ g, g = G * |h'| ^ 2 := ⟨_, rfl⟩
  have g0 : 0 ≤ g := by rw [hg]; positivity
  have gh0 : 0 ≤ G * |h'| := by positivity
  have c1 : Ap u (15 / 7 * G) (101 * G) (f.fl (ca * r)) (A / h' * t) := by
    have := ((kA.mul kw hu h0).fl h hu)
    rw [show ca * h' * (r / h') = ca * r by field_simp, show A * (t / h') = A / h' * t by field_simp] at this
    exact this.weaken h0.le (by linarith) (by linarith)
  have c2 : Ap u (15 / 7 * (G * |h'|)) (106 * (G * |h'|)) (f.fl (f.fl (ca * r) * r)) (A / h' * t * t) :=
    ((c1.mul kt hu h0).fl h hu).weaken h0.le (by linarith) (by linarith)
  have c3 : Ap u (45 / 14 * (G * |h'|)) (140 * (G * |h'|)) (f.fl (cb * r)) (B * t) :=
    ((kB.mul kt hu h0).fl h hu).weaken h0.le (by linarith) (by linarith)
  have c4 : Ap u (75 / 14 * g) (272 * g)
      (if left then f.mac (f.fl (f.fl (cb * r) * r)) (f.fl (f.fl (ca * r) * r)) r
        else f.mac (f.fl (f.fl (f.fl (ca * r) * r) * r)) (f.fl (cb * r)) r) (A / h' * t * t * t + B * t * t) := by
    cases left with
    | true =>
      have d1 := ((c3.mul kt hu h0).fl h hu)
      have d2 := d1.mac c2 kt h hu h0 (M := 272 * g) (by rw [hg]; rw [hg] at g0; linarith)
      rw [if_pos rfl, add_comm]
      exact d2.weaken h0.le (by rw [hg]; linarith) le_rfl
    | false =>
      have d1 := ((c2.mul kt hu h0).fl h hu)
      have d2 := d1.mac c3 kt h hu h0 (M := 272 * g) (by rw [hg]; rw [hg] at g0; linarith)
      rw [if_neg (by simp)]
      exact d2.weaken h0.le (by rw [hg]; linarith) le_rfl
  have s0' : 0 ≤ |y1 - y0| := abs_nonneg _
  have yy : 0 ≤ |y0| := abs_nonneg _
  have c5 := c4.mac kC kt h hu h0 (M := 17 / 2 * |y1 - y0| + 450 * g) (by
    rw [← σH]; rw [← σH] at s0'; rw [hg]; rw [hg] at g0; linarith)
  have c6 := ((c5.add (Ap.refl u y0)).fl h hu).2
  rw [show G * h' ^ 2 = g by rw [hg, sq_abs]]
  refine c6.trans ?_
  have e : (σ + |h'| * (45 / 14 * G)) * |h'| = |y1 - y0| + 45 / 14 * g := by rw [← σH, hg]; ring
  rw [e, mul_comm]
  exact mul_le_mul_of_nonneg_left (by linarith) h0.le

end Verif.Interp
