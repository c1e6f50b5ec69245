import Verif.Calc.RoundModel
import Verif.Calc.Props
import Verif.Mat.Round
import Verif.Fp.Tetra
import Mathlib.Tactic.Linarith
import Mathlib.Tactic.Positivity

/-!
# C199: derivatives of tabulated data in machine arithmetic
-/

set_option autoImplicit false

namespace Verif.Calc

open Verif.Go Verif.Mat
open Verif.Fp (Near)

/-- Closed form of `deriv2R`. -/
theorem deriv2R_spec (f : FP) (X Y : Nat → ℚ) (n : Nat) (hn : 3 ≤ n) (xs ys out : List ℚ) (hxl : xs.length = n)
    (hx : ∀ i < n, xs[i]? = some (X i)) (hy : ∀ i < n, ys[i]? = some (Y i)) (ho : out.length = n) :
    ∃ r, deriv2R f xs ys out = some r ∧ r.length = n ∧
      r[0]? = some (f.fl (num2R f (Y 0) (Y 1) (Y 2) / f.fl (X 2 - X 0))) ∧
      r[n - 1]? = some (f.fl (-num2R f (Y (n - 1)) (Y (n - 2)) (Y (n - 3)) / f.fl (X (n - 1) - X (n - 3)))) ∧
      ∀ i, 1 ≤ i → i < n - 1 → r[i]? = some (mid2R f (Y (i + 1)) (Y (i - 1)) (X (i + 1)) (X (i - 1))) := by
  obtain ⟨r, e, rl, hr⟩ := forRange_fill
    (fun i => mid2R f (Y (i + 1)) (Y (i - 1)) (X (i + 1)) (X (i - 1))) (lo := 1) (hi := n - 1) (n := n)
    (by omega) (by omega) out ho
    (fun i out => do
      let y1 ← rd ys (i + 1)
      let y0 ← rd ys (i - 1)
      let x1 ← rd xs (i + 1)
      let x0 ← rd xs (i - 1)
      wr out i (mid2R f y1 y0 x1 x0)) (by
    intro k st h1 h2 h3 _
    rw [rd_fn_nat hy (k + 1) (by omega) (by omega), rd_fn_nat hy (k - 1) (by omega) (by omega),
      rd_fn_nat hx (k + 1) (by omega) (by omega), rd_fn_nat hx (k - 1) (by omega) (by omega)]
    rfl)
  have en : ((xs.length : Int) - 1) = ((n - 1 : Nat) : Int) := by omega
  unfold deriv2R
  rw [Nat.cast_one] at e
  simp only [en]
  rw [e]
  have f0 : rd ys 0 = some (Y 0) := rd_fn_nat hy 0 (by omega) (by omega)
  have f1 : rd ys 1 = some (Y 1) := rd_fn_nat hy 1 (by omega) (by omega)
  have f2 : rd ys 2 = some (Y 2) := rd_fn_nat hy 2 (by omega) (by omega)
  have g2 : rd xs 2 = some (X 2) := rd_fn_nat hx 2 (by omega) (by omega)
  have g0 : rd xs 0 = some (X 0) := rd_fn_nat hx 0 (by omega) (by omega)
  have k1 : rd ys ((n - 1 : Nat) : Int) = some (Y (n - 1)) := rd_fn_nat hy _ rfl (by omega)
  have k2 : rd ys ((xs.length : Int) - 2) = some (Y (n - 2)) :=
    rd_fn_nat hy (n - 2) (by omega) (by omega)
  have k3 : rd ys ((xs.length : Int) - 3) = some (Y (n - 3)) :=
    rd_fn_nat hy (n - 3) (by omega) (by omega)
  have l1 : rd xs ((n - 1 : Nat) : Int) = some (X (n - 1)) := rd_fn_nat hx _ rfl (by omega)
  have l3 : rd xs ((xs.length : Int) - 3) = some (X (n - 3)) :=
    rd_fn_nat hx (n - 3) (by omega) (by omega)
  have w0 : ∀ v, wr r 0 v = some (r.set 0 v) := fun v => wr_of_lt (by omega) (by omega)
  have w1 : ∀ v w, wr (r.set 0 v) ((n - 1 : Nat) : Int) w = some ((r.set 0 v).set (n - 1) w) :=
    fun v w => wr_natCast (by simp; omega)
  simp only [f0, f1, f2, g2, g0, k1, k2, k3, l1, l3, bind, Option.bind_some, w0, w1]
  refine ⟨_, rfl, by simpa using rl, ?_, ?_, ?_⟩
  · rw [List.getElem?_set_ne (by omega), List.getElem?_set_self (by omega)]
  · rw [List.getElem?_set_self (by simp; omega)]
  · intro i h1 h2
    rw [List.getElem?_set_ne (by omega), List.getElem?_set_ne (by omega), hr, if_pos ⟨h1, h2⟩]

/-- Closed form of `deriv4R`. -/
theorem deriv4R_spec (f : FP) (X Y : Nat → ℚ) (n : Nat) (hn : 5 ≤ n) (xs ys out : List ℚ) (hxl : xs.length = n)
    (hx : ∀ i < n, xs[i]? = some (X i)) (hy : ∀ i < n, ys[i]? = some (Y i)) (ho : out.length = n) :
    ∃ r, deriv4R f xs ys out = some r ∧ r.length = n ∧
      r[0]? = some (outer4R f (Y 4) (Y 3) (Y 2) (Y 1) (Y 0) (X 4) (X 0)) ∧
      r[1]? = some (inner4R f (Y 0) (Y 1) (Y 2) (Y 3) (Y 4) (X 4) (X 0)) ∧
      r[n - 2]? = some (inner4R f (Y (n - 1)) (Y (n - 2)) (Y (n - 3)) (Y (n - 4)) (Y (n - 5)) (X (n - 5)) (X (n - 1))) ∧
      r[n - 1]? = some (outer4R f (Y (n - 5)) (Y (n - 4)) (Y (n - 3)) (Y (n - 2)) (Y (n - 1)) (X (n - 5)) (X (n - 1))) ∧
      ∀ i, 2 ≤ i → i < n - 2 → r[i]? =
        some (mid4R f (Y (i + 2)) (Y (i + 1)) (Y (i - 1)) (Y (i - 2)) (X (i + 2)) (X (i - 1))) := by
  obtain ⟨r, e, rl, hr⟩ := forRange_fill
    (fun i => mid4R f (Y (i + 2)) (Y (i + 1)) (Y (i - 1)) (Y (i - 2)) (X (i + 2)) (X (i - 1))) (lo := 2) (hi := n - 2) (n := n)
    (by omega) (by omega) out ho
    (fun i out => do
      let a ← rd ys (i + 2)
      let b ← rd ys (i + 1)
      let c ← rd ys (i - 1)
      let d ← rd ys (i - 2)
      let x2 ← rd xs (i + 2)
      let x1 ← rd xs (i - 1)
      wr out i (mid4R f a b c d x2 x1)) (by
    intro k st h1 h2 h3 _
    rw [rd_fn_nat hy (k + 2) (by omega) (by omega), rd_fn_nat hy (k + 1) (by omega) (by omega),
      rd_fn_nat hy (k - 1) (by omega) (by omega), rd_fn_nat hy (k - 2) (by omega) (by omega),
      rd_fn_nat hx (k + 2) (by omega) (by omega), rd_fn_nat hx (k - 1) (by omega) (by omega)]
    rfl)
  have en : ((xs.length : Int) - 2) = ((n - 2 : Nat) : Int) := by omega
  unfold deriv4R
  rw [Nat.cast_ofNat] at e
  simp only [en]
  rw [e]
  have f0 : rd ys 0 = some (Y 0) := rd_fn_nat hy 0 (by omega) (by omega)
  have f1 : rd ys 1 = some (Y 1) := rd_fn_nat hy 1 (by omega) (by omega)
  have f2 : rd ys 2 = some (Y 2) := rd_fn_nat hy 2 (by omega) (by omega)
  have f3 : rd ys 3 = some (Y 3) := rd_fn_nat hy 3 (by omega) (by omega)
  have f4 : rd ys 4 = some (Y 4) := rd_fn_nat hy 4 (by omega) (by omega)
  have g4 : rd xs 4 = some (X 4) := rd_fn_nat hx 4 (by omega) (by omega)
  have g0 : rd xs 0 = some (X 0) := rd_fn_nat hx 0 (by omega) (by omega)
  have k1 : rd ys ((xs.length : Int) - 1) = some (Y (n - 1)) :=
    rd_fn_nat hy (n - 1) (by omega) (by omega)
  have k2 : rd ys ((n - 2 : Nat) : Int) = some (Y (n - 2)) := rd_fn_nat hy _ rfl (by omega)
  have k3 : rd ys ((xs.length : Int) - 3) = some (Y (n - 3)) :=
    rd_fn_nat hy (n - 3) (by omega) (by omega)
  have k4 : rd ys ((xs.length : Int) - 4) = some (Y (n - 4)) :=
    rd_fn_nat hy (n - 4) (by omega) (by omega)
  have k5 : rd ys ((xs.length : Int) - 5) = some (Y (n - 5)) :=
    rd_fn_nat hy (n - 5) (by omega) (by omega)
  have l1 : rd xs ((xs.length : Int) - 1) = some (X (n - 1)) :=
    rd_fn_nat hx (n - 1) (by omega) (by omega)
  have l5 : rd xs ((xs.length : Int) - 5) = some (X (n - 5)) :=
    rd_fn_nat hx (n - 5) (by omega) (by omega)
  have w0 : ∀ v, wr r 0 v = some (r.set 0 v) := fun v => wr_of_lt (by omega) (by omega)
  have w1 : ∀ v w, wr (r.set 0 v) ((n - 2 : Nat) : Int) w = some ((r.set 0 v).set (n - 2) w) :=
    fun v w => wr_natCast (by simp; omega)
  have w2 : ∀ v w u, wr ((r.set 0 v).set (n - 2) w) 1 u =
      some (((r.set 0 v).set (n - 2) w).set 1 u) :=
    fun v w u => wr_of_lt (by omega) (by simp; omega)
  have w3 : ∀ v w u t, wr (((r.set 0 v).set (n - 2) w).set 1 u) ((xs.length : Int) - 1) t =
      some ((((r.set 0 v).set (n - 2) w).set 1 u).set (n - 1) t) := by
    intro v w u t
    rw [show (xs.length : Int) - 1 = ((n - 1 : Nat) : Int) by omega]
    exact wr_natCast (by simp; omega)
  simp only [f0, f1, f2, f3, f4, g4, g0, k1, k2, k3, k4, k5, l1, l5, bind, Option.bind_some, w0, w1,
    w2, w3]
  refine ⟨_, rfl, by simpa using rl, ?_, ?_, ?_, ?_, ?_⟩
  · rw [List.getElem?_set_ne (by omega), List.getElem?_set_ne (by omega),
      List.getElem?_set_ne (by omega), List.getElem?_set_self (by omega)]
  · rw [List.getElem?_set_ne (by omega), List.getElem?_set_self (by simp; omega)]
  · rw [List.getElem?_set_ne (by omega), List.getElem?_set_ne (by omega),
      List.getElem?_set_self (by simp; omega)]
  · rw [List.getElem?_set_self (by simp; omega)]
  · intro i h1 h2
    rw [List.getElem?_set_ne (by omega), List.getElem?_set_ne (by omega),
      List.getElem?_set_ne (by omega), List.getElem?_set_ne (by omega), hr, if_pos ⟨h1, h2⟩]

/-! ### Errors -/

theorem near_approx {B G u y z x : ℚ} (h : Near B G y x) (hu : 0 ≤ u) (hz : |z - y| ≤ u * |y|) : Near B (G * (1 + u)) z x := by
  refine ⟨h.1, ?_⟩
  have h2 := h.size
  have h3 := abs_add_le (z - y) (y - x)
  rw [sub_add_sub_cancel] at h3
  have h4 := h.2
  nlinarith

theorem near_fl {f : FP} {u B G y x : ℚ} (L : f.Laws u) (h : Near B G y x) : Near B (G * (1 + u)) (f.fl y) x :=
  near_approx h L.nonneg (L.err y)

/-- One operation `c + a * y` with an exact factor and an exact `y`. -/
theorem near_mac {f : FP} {u B C G c x : ℚ} (L : f.Laws u) (a : ℚ) {y : ℚ} (h : Near B G c x) (hy : |y| ≤ C) (hG : 1 + u ≤ G) :
    Near (B + |a| * C) (G * (1 + u)) (f.mac c a y) (x + a * y) := by
  obtain ⟨q, h1, h2, -⟩ := L.mac c a y
  have e : Near (|a| * C) 1 (a * y) (a * y) :=
    Near.exact (by rw [abs_mul]; exact mul_le_mul_of_nonneg_left hy (abs_nonneg _))
  have e2 := near_approx e L.nonneg h1
  rw [one_mul] at e2
  exact near_approx (h.add (e2.mono hG)) L.nonneg h2

/-- A rounded quotient of rounded numbers. -/
theorem quot_err {f : FP} {u B G e n m d d' : ℚ} (L : f.Laws u) (hn : Near B G m n) (hd : d ≠ 0) (he : |d' - d| ≤ e * |d|)
    (he1 : e < 1) : |f.fl (m / d') - n / d| ≤ B / |d| * (G * (1 / (1 - e)) * (1 + u) - 1) := by
  have hd0 : 0 < |d| := abs_pos.mpr hd
  have hd' : (1 - e) * |d| ≤ |d'| := by
    have := abs_sub_abs_le_abs_sub d d'
    rw [abs_sub_comm] at this
    linarith
  have hp : 0 < |d'| := lt_of_lt_of_le (mul_pos (by linarith) hd0) hd'
  have hne : d' ≠ 0 := abs_pos.mp hp
  have hinv : Near (1 / |d|) (1 / (1 - e)) (1 / d') (1 / d) := by
    refine ⟨by rw [abs_div, abs_one], ?_⟩
    have e1 : 1 / d' - 1 / d = (d - d') / (d' * d) := by field_simp
    rw [e1, abs_div, abs_mul, abs_sub_comm, div_le_iff₀ (mul_pos hp hd0)]
    have h1 : 0 < 1 - e := by linarith
    have e2 : 1 / |d| * (1 / (1 - e) - 1) * (|d'| * |d|) = e * (|d'| / (1 - e)) := by field_simp; ring
    rw [e2]
    have h0 : 0 ≤ e := by
      by_contra hc
      have : e * |d| < 0 := mul_neg_of_neg_of_pos (not_le.mp hc) hd0
      linarith [abs_nonneg (d' - d)]
    have h2 : |d| ≤ |d'| / (1 - e) := by rw [le_div_iff₀ h1]; linarith
    exact he.trans (mul_le_mul_of_nonneg_left h2 h0)
  have h := near_fl L (hn.mul hinv)
  have h2 := h.2
  rw [mul_one_div, mul_one_div, mul_one_div] at h2
  exact h2

/-- The unit of rounding of a `float64`. -/
def u53 : ℚ := 1 / 2 ^ 53

theorem u53_laws (fused : Bool) : (fp 53 fused).Laws u53 := fp_laws (by norm_num) fused

/-- A quotient after `k` roundings of a numerator of size `C * M`, and the bound left for `s` roundings. -/
theorem final_bound {C M δ s t : ℚ} {d : ℚ} (hC : 0 ≤ C) (hM : 0 ≤ M) (hδ : 0 < δ) (hd : δ ≤ |d|) (ht : t ≤ s) (hs : 0 ≤ s) :
    C * M / |d| * t ≤ C * s * (M / δ) := by
  have h1 : C * M / |d| ≤ C * M / δ := by gcongr
  have h0 : 0 ≤ C * M / |d| := by positivity
  calc C * M / |d| * t ≤ C * M / |d| * s := mul_le_mul_of_nonneg_left ht h0
    _ ≤ C * M / δ * s := mul_le_mul_of_nonneg_right h1 hs
    _ = _ := by ring

section
variable {fused : Bool} {M δ : ℚ}

theorem start_near (L : (fp 53 fused).Laws u53) {y : ℚ} (h : |y| ≤ M) : Near (3 * M) (1 + u53) ((fp 53 fused).fl (-3 * y)) (-3 * y) := by
  have := near_fl L (Near.exact (B := 3 * M) (x := -3 * y) (by rw [abs_mul]; norm_num; exact h))
  rwa [one_mul] at this

theorem num2_near {a b c : ℚ} (ha : |a| ≤ M) (hb : |b| ≤ M) (hc : |c| ≤ M) :
    Near (8 * M) ((1 + u53) ^ 3) (num2R (fp 53 fused) a b c) (-3 * a + 4 * b - c) := by
  have L := u53_laws fused
  have hu := L.nonneg
  have h1 := near_mac L 4 (start_near L ha) hb le_rfl
  have g : 1 ≤ (1 + u53) * (1 + u53) := by nlinarith
  have h2 := near_fl L (h1.sub ((Near.exact hc).mono g))
  have e1 : 3 * M + |(4 : ℚ)| * M + M = 8 * M := by norm_num; ring
  have e2 : (1 + u53) * (1 + u53) * (1 + u53) = (1 + u53) ^ 3 := by ring
  rw [e1, e2] at h2
  exact h2

theorem den_err (L : (fp 53 fused).Laws u53) (x : ℚ) : |(fp 53 fused).fl x - x| ≤ u53 * |x| := L.err x

theorem den3_err (L : (fp 53 fused).Laws u53) (x : ℚ) :
    |(fp 53 fused).fl (3 * (fp 53 fused).fl x) - 3 * x| ≤ (3 * u53) * |3 * x| := by
  have h1 := L.err x
  have h2 := L.err (3 * (fp 53 fused).fl x)
  have e : (fp 53 fused).fl (3 * (fp 53 fused).fl x) - 3 * x =
      ((fp 53 fused).fl (3 * (fp 53 fused).fl x) - 3 * (fp 53 fused).fl x) + 3 * ((fp 53 fused).fl x - x) := by ring
  have h3 : |(fp 53 fused).fl x| ≤ (1 + u53) * |x| := by
    have := abs_add_le ((fp 53 fused).fl x - x) x
    rw [sub_add_cancel] at this
    linarith
  have hu : u53 ≤ 1 / 1000 := by unfold u53; norm_num
  have hu0 := L.nonneg
  rw [e]
  refine (abs_add_le _ _).trans ?_
  rw [abs_mul 3 ((fp 53 fused).fl x)] at h2
  rw [abs_mul 3, abs_mul 3 x, abs_of_pos (by norm_num : (0 : ℚ) < 3)] at *
  have hx := abs_nonneg x
  have h4 : u53 * |(fp 53 fused).fl x| ≤ u53 * ((1 + u53) * |x|) := mul_le_mul_of_nonneg_left h3 hu0
  have h5 : u53 * (u53 * |x|) ≤ 1 / 1000 * (u53 * |x|) := mul_le_mul_of_nonneg_right hu (mul_nonneg hu0 hx)
  nlinarith

theorem end2_err {a b c d : ℚ} (ha : |a| ≤ M) (hb : |b| ≤ M) (hc : |c| ≤ M) (hδ : 0 < δ) (hd : δ ≤ |d|) :
    |(fp 53 fused).fl (num2R (fp 53 fused) a b c / (fp 53 fused).fl d) - (-3 * a + 4 * b - c) / d| ≤ 8 * (6 * u53) * (M / δ) := by
  have L := u53_laws fused
  have hM : 0 ≤ M := (abs_nonneg a).trans ha
  have hd0 : d ≠ 0 := abs_pos.mp (lt_of_lt_of_le hδ hd)
  refine (quot_err L (num2_near ha hb hc) hd0 (L.err d) (by unfold u53; norm_num)).trans ?_
  exact final_bound (by norm_num) hM hδ hd (by unfold u53; norm_num) (by unfold u53; norm_num)

theorem end2n_err {a b c d : ℚ} (ha : |a| ≤ M) (hb : |b| ≤ M) (hc : |c| ≤ M) (hδ : 0 < δ) (hd : δ ≤ |d|) :
    |(fp 53 fused).fl (-num2R (fp 53 fused) a b c / (fp 53 fused).fl d) - -(-3 * a + 4 * b - c) / d| ≤ 8 * (6 * u53) * (M / δ) := by
  have L := u53_laws fused
  have hM : 0 ≤ M := (abs_nonneg a).trans ha
  have hd0 : d ≠ 0 := abs_pos.mp (lt_of_lt_of_le hδ hd)
  have h := num2_near (fused := fused) ha hb hc
  have h' : Near (8 * M) ((1 + u53) ^ 3) (-num2R (fp 53 fused) a b c) (-(-3 * a + 4 * b - c)) :=
    ⟨by rw [abs_neg]; exact h.1, by rw [← neg_sub_neg, neg_neg, neg_neg, abs_sub_comm, abs_sub_comm]; have := h.2; rwa [abs_sub_comm] at this⟩
  refine (quot_err L h' hd0 (L.err d) (by unfold u53; norm_num)).trans ?_
  exact final_bound (by norm_num) hM hδ hd (by unfold u53; norm_num) (by unfold u53; norm_num)

theorem mid2_near {a b : ℚ} : Near |a - b| (1 + u53) ((fp 53 fused).fl (a - b)) (a - b) := by
  have := near_fl (u53_laws fused) (Near.exact (B := |a - b|) (x := a - b) le_rfl)
  rwa [one_mul] at this

/-- An interior value of order 2 is right up to four roundings of itself. -/
theorem mid2_rel {a b x y : ℚ} (h : x - y ≠ 0) :
    |mid2R (fp 53 fused) a b x y - (a - b) / (x - y)| ≤ 4 * u53 * |(a - b) / (x - y)| := by
  have L := u53_laws fused
  refine (quot_err L mid2_near h (L.err _) (by unfold u53; norm_num)).trans ?_
  rw [abs_div, mul_comm]
  exact mul_le_mul_of_nonneg_right (by unfold u53; norm_num) (by positivity)

theorem mid4_err {a b c d x y : ℚ} (ha : |a| ≤ M) (hb : |b| ≤ M) (hc : |c| ≤ M) (hd : |d| ≤ M) (hδ : 0 < δ) (hx : δ ≤ |x - y|) :
    |mid4R (fp 53 fused) a b c d x y - (-a + 8 * b - 8 * c + d) / (3 * (x - y))| ≤ 18 * (9 * u53) * (M / (3 * δ)) := by
  have L := u53_laws fused
  have hu := L.nonneg
  have hM : 0 ≤ M := (abs_nonneg a).trans ha
  have hx3 : 3 * δ ≤ |3 * (x - y)| := by rw [abs_mul, abs_of_pos (by norm_num : (0 : ℚ) < 3)]; linarith
  have h0 : 3 * (x - y) ≠ 0 := abs_pos.mp (lt_of_lt_of_le (by linarith) hx3)
  have s0 : Near M (1 + u53) (-a) (-a) := (Near.exact (by rw [abs_neg]; exact ha)).mono (by linarith)
  have s1 := near_mac L 8 s0 hb le_rfl
  have s2 := near_mac L (-8) s1 hc (by nlinarith)
  have g : 1 ≤ (1 + u53) * (1 + u53) * (1 + u53) := by
    have : (1 : ℚ) ≤ (1 + u53) ^ 3 := one_le_pow₀ (by linarith)
    linarith [show (1 + u53) ^ 3 = (1 + u53) * (1 + u53) * (1 + u53) by ring]
  have s3 := near_fl L (s2.add ((Near.exact hd).mono g))
  have e1 : M + |(8 : ℚ)| * M + |(-8 : ℚ)| * M + M = 18 * M := by norm_num; ring
  have e2 : -a + 8 * b + -8 * c + d = -a + 8 * b - 8 * c + d := by ring
  rw [e1, e2] at s3
  refine (quot_err L s3 h0 (den3_err L _) (by unfold u53; norm_num)).trans ?_
  exact final_bound (by norm_num) hM (by linarith) hx3 (by unfold u53; norm_num) (by unfold u53; norm_num)

theorem outer4_err {a b c d e x y : ℚ} (ha : |a| ≤ M) (hb : |b| ≤ M) (hc : |c| ≤ M) (hd : |d| ≤ M) (he : |e| ≤ M) (hδ : 0 < δ)
    (hx : δ ≤ |x - y|) :
    |outer4R (fp 53 fused) a b c d e x y - (-3 * a + 16 * b - 36 * c + 48 * d - 25 * e) / (3 * (x - y))| ≤
      128 * (10 * u53) * (M / (3 * δ)) := by
  have L := u53_laws fused
  have hu := L.nonneg
  have hM : 0 ≤ M := (abs_nonneg a).trans ha
  have hx3 : 3 * δ ≤ |3 * (x - y)| := by rw [abs_mul, abs_of_pos (by norm_num : (0 : ℚ) < 3)]; linarith
  have h0 : 3 * (x - y) ≠ 0 := abs_pos.mp (lt_of_lt_of_le (by linarith) hx3)
  have s1 := near_mac L 16 (start_near L ha) hb le_rfl
  have s2 := near_mac L (-36) s1 hc (by unfold u53; norm_num)
  have s3 := near_mac L 48 s2 hd (by unfold u53; norm_num)
  have s4 := near_mac L (-25) s3 he (by unfold u53; norm_num)
  have e1 : 3 * M + |(16 : ℚ)| * M + |(-36 : ℚ)| * M + |(48 : ℚ)| * M + |(-25 : ℚ)| * M = 128 * M := by norm_num; ring
  have e2 : -3 * a + 16 * b + -36 * c + 48 * d + -25 * e = -3 * a + 16 * b - 36 * c + 48 * d - 25 * e := by ring
  rw [e1, e2] at s4
  refine (quot_err L s4 h0 (den3_err L _) (by unfold u53; norm_num)).trans ?_
  exact final_bound (by norm_num) hM (by linarith) hx3 (by unfold u53; norm_num) (by unfold u53; norm_num)

theorem inner4_err {a b c d e x y : ℚ} (ha : |a| ≤ M) (hb : |b| ≤ M) (hc : |c| ≤ M) (hd : |d| ≤ M) (he : |e| ≤ M) (hδ : 0 < δ)
    (hx : δ ≤ |x - y|) :
    |inner4R (fp 53 fused) a b c d e x y - (-3 * a - 10 * b + 18 * c - 6 * d + e) / (3 * (x - y))| ≤
      38 * (10 * u53) * (M / (3 * δ)) := by
  have L := u53_laws fused
  have hu := L.nonneg
  have hM : 0 ≤ M := (abs_nonneg a).trans ha
  have hx3 : 3 * δ ≤ |3 * (x - y)| := by rw [abs_mul, abs_of_pos (by norm_num : (0 : ℚ) < 3)]; linarith
  have h0 : 3 * (x - y) ≠ 0 := abs_pos.mp (lt_of_lt_of_le (by linarith) hx3)
  have s1 := near_mac L (-10) (start_near L ha) hb le_rfl
  have s2 := near_mac L 18 s1 hc (by unfold u53; norm_num)
  have s3 := near_mac L (-6) s2 hd (by unfold u53; norm_num)
  have s4 := near_fl L (s3.add ((Near.exact he).mono (by unfold u53; norm_num)))
  have e1 : 3 * M + |(-10 : ℚ)| * M + |(18 : ℚ)| * M + |(-6 : ℚ)| * M + M = 38 * M := by norm_num; ring
  have e2 : -3 * a + -10 * b + 18 * c + -6 * d + e = -3 * a - 10 * b + 18 * c - 6 * d + e := by ring
  rw [e1, e2] at s4
  refine (quot_err L s4 h0 (den3_err L _) (by unfold u53; norm_num)).trans ?_
  exact final_bound (by norm_num) hM (by linarith) hx3 (by unfold u53; norm_num) (by unfold u53; norm_num)

end

/-! ### The whole table -/

theorem get_getD {l : List ℚ} {i : ℕ} (h : i < l.length) : l[i]? = some (l.getD i 0) := by
  simp [List.getD, List.getElem?_eq_getElem h]

theorem derivR_two (f : FP) (xs ys : List ℚ) (out : Option (List ℚ)) (hy : ys.length = xs.length)
    (ho : OutOk out xs.length) : ∃ o, o.length = xs.length ∧ derivR f xs ys 2 out = deriv2R f xs ys o := by
  unfold derivR
  cases out with
  | none => exact ⟨List.replicate xs.length 0, by simp, by simp [hy]⟩
  | some o => exact ⟨o, ho o rfl, by simp [hy, ho o rfl]⟩

theorem derivR_four (f : FP) (xs ys : List ℚ) (out : Option (List ℚ)) (hy : ys.length = xs.length)
    (ho : OutOk out xs.length) : ∃ o, o.length = xs.length ∧ derivR f xs ys 4 out = deriv4R f xs ys o := by
  unfold derivR
  cases out with
  | none => exact ⟨List.replicate xs.length 0, by simp, by simp [hy]⟩
  | some o => exact ⟨o, ho o rfl, by simp [hy, ho o rfl]⟩

/-- Values of size at most `M`, at places at least `δ` apart. -/
structure Table (xs ys : List ℚ) (M δ : ℚ) : Prop where
  len : ys.length = xs.length
  size : ∀ i < xs.length, |ys.getD i 0| ≤ M
  pos : 0 < δ
  apart : ∀ i j, i < xs.length → j < xs.length → i ≠ j → δ ≤ |xs.getD i 0 - xs.getD j 0|

/-- C199: derivatives of order 2 are those of exact arithmetic up to `48 / 2^53` of the largest value over the smallest distance. -/
theorem C199_order2 (fused : Bool) {xs ys : List ℚ} {M δ : ℚ} (T : Table xs ys M δ) (hn : 3 ≤ xs.length) (out : Option (List ℚ))
    (ho : OutOk out xs.length) :
    ∃ r s, deriv xs ys 2 out = some r ∧ derivR (fp 53 fused) xs ys 2 out = some s ∧ r.length = xs.length ∧ s.length = xs.length ∧
      ∀ i < xs.length, ∃ a b, r[i]? = some a ∧ s[i]? = some b ∧ |b - a| ≤ 48 / 2 ^ 53 * (M / δ) := by
  obtain ⟨o, ol, e⟩ := deriv_two xs ys out T.len ho
  obtain ⟨o', ol', e'⟩ := derivR_two (fp 53 fused) xs ys out T.len ho
  have hx : ∀ i < xs.length, xs[i]? = some (xs.getD i 0) := fun i hi => get_getD hi
  have hy : ∀ i < xs.length, ys[i]? = some (ys.getD i 0) := fun i hi => get_getD (by rw [T.len]; exact hi)
  obtain ⟨r, er, rl, r0, r1, ri⟩ := deriv2_spec _ _ _ hn xs ys o rfl hx hy ol
  obtain ⟨s, es, sl, s0, s1, si⟩ := deriv2R_spec (fp 53 fused) _ _ _ hn xs ys o' rfl hx hy ol'
  refine ⟨r, s, by rw [e, er], by rw [e', es], rl, sl, ?_⟩
  intro i hi
  have ec : 8 * (6 * u53) = 48 / 2 ^ 53 := by unfold u53; norm_num
  have hM : 0 ≤ M := (abs_nonneg _).trans (T.size i hi)
  by_cases h0 : i = 0
  · subst h0
    refine ⟨_, _, r0, s0, ?_⟩
    rw [← ec]
    exact end2_err (T.size _ (by omega)) (T.size _ (by omega)) (T.size _ (by omega)) T.pos (T.apart _ _ (by omega) (by omega) (by omega))
  by_cases h1 : i = xs.length - 1
  · subst h1
    refine ⟨_, _, r1, s1, ?_⟩
    rw [← ec]
    exact end2n_err (T.size _ (by omega)) (T.size _ (by omega)) (T.size _ (by omega)) T.pos (T.apart _ _ (by omega) (by omega) (by omega))
  refine ⟨_, _, ri i (by omega) (by omega), si i (by omega) (by omega), ?_⟩
  have hd := T.apart (i + 1) (i - 1) (by omega) (by omega) (by omega)
  refine (mid2_rel (abs_pos.mp (lt_of_lt_of_le T.pos hd))).trans ?_
  have hnum : |ys.getD (i + 1) 0 - ys.getD (i - 1) 0| ≤ 2 * M := by
    have := abs_sub (ys.getD (i + 1) 0) (ys.getD (i - 1) 0)
    linarith [T.size (i + 1) (by omega), T.size (i - 1) (by omega)]
  rw [abs_div]
  have h2 : |ys.getD (i + 1) 0 - ys.getD (i - 1) 0| / |xs.getD (i + 1) 0 - xs.getD (i - 1) 0| ≤ 2 * M / δ :=
    div_le_div₀ (by linarith) hnum T.pos hd
  have h3 : 0 ≤ M / δ := div_nonneg hM T.pos.le
  have h4 : 2 * M / δ = 2 * (M / δ) := by ring
  rw [h4] at h2
  calc 4 * u53 * (|ys.getD (i + 1) 0 - ys.getD (i - 1) 0| / |xs.getD (i + 1) 0 - xs.getD (i - 1) 0|)
      ≤ 4 * u53 * (2 * (M / δ)) := mul_le_mul_of_nonneg_left h2 (by unfold u53; norm_num)
    _ ≤ 48 / 2 ^ 53 * (M / δ) := by rw [← mul_assoc]; exact mul_le_mul_of_nonneg_right (by unfold u53; norm_num) h3

/-- C199: between the ends, derivatives of order 2 are the slope between the neighbours up to four roundings of the slope itself;
they are 0 exactly if the neighbours have the same value. -/
theorem C199_interior (fused : Bool) {xs ys : List ℚ} (hl : ys.length = xs.length) (hn : 3 ≤ xs.length) (out : Option (List ℚ))
    (ho : OutOk out xs.length) (hx : ∀ i j, i < j → j < xs.length → xs.getD i 0 < xs.getD j 0) :
    ∃ s, derivR (fp 53 fused) xs ys 2 out = some s ∧ ∀ i, 1 ≤ i → i < xs.length - 1 → ∃ b, s[i]? = some b ∧
      (let q := (ys.getD (i + 1) 0 - ys.getD (i - 1) 0) / (xs.getD (i + 1) 0 - xs.getD (i - 1) 0)
       |b - q| ≤ 4 / 2 ^ 53 * |q|) ∧ (b = 0 ↔ ys.getD (i + 1) 0 = ys.getD (i - 1) 0) := by
  obtain ⟨o', ol', e'⟩ := derivR_two (fp 53 fused) xs ys out hl ho
  have hx' : ∀ i < xs.length, xs[i]? = some (xs.getD i 0) := fun i hi => get_getD hi
  have hy : ∀ i < xs.length, ys[i]? = some (ys.getD i 0) := fun i hi => get_getD (by rw [hl]; exact hi)
  obtain ⟨s, es, sl, s0, s1, si⟩ := deriv2R_spec (fp 53 fused) _ _ _ hn xs ys o' rfl hx' hy ol'
  refine ⟨s, by rw [e', es], ?_⟩
  intro i h1 h2
  have hd : xs.getD (i + 1) 0 - xs.getD (i - 1) 0 ≠ 0 := by
    have := hx (i - 1) (i + 1) (by omega) (by omega)
    linarith
  have hr := mid2_rel (fused := fused) (a := ys.getD (i + 1) 0) (b := ys.getD (i - 1) 0) hd
  refine ⟨_, si i h1 h2, ?_, ?_, ?_⟩
  · rw [show (4 : ℚ) / 2 ^ 53 = 4 * u53 by unfold u53; norm_num]; exact hr
  · intro h0
    rw [h0, zero_sub, abs_neg] at hr
    by_contra hne
    have hq : 0 < |(ys.getD (i + 1) 0 - ys.getD (i - 1) 0) / (xs.getD (i + 1) 0 - xs.getD (i - 1) 0)| :=
      abs_pos.mpr (div_ne_zero (sub_ne_zero.mpr hne) hd)
    have : 4 * u53 < 1 := by unfold u53; norm_num
    nlinarith
  · intro h
    rw [h] at hr ⊢
    rw [sub_self, zero_div, abs_zero, mul_zero, sub_zero] at hr
    exact abs_eq_zero.mp (le_antisymm hr (abs_nonneg _))

/-- C199: derivatives of order 4 are those the same formulas give in exact arithmetic, up to `427 / 2^53` of the largest value over the
smallest distance. -/
theorem C199_order4 (fused : Bool) {xs ys : List ℚ} {M δ : ℚ} (T : Table xs ys M δ) (hn : 5 ≤ xs.length) (out : Option (List ℚ))
    (ho : OutOk out xs.length) :
    ∃ r s, deriv xs ys 4 out = some r ∧ derivR (fp 53 fused) xs ys 4 out = some s ∧ r.length = xs.length ∧ s.length = xs.length ∧
      ∀ i < xs.length, ∃ a b, r[i]? = some a ∧ s[i]? = some b ∧ |b - a| ≤ 427 / 2 ^ 53 * (M / δ) := by
  obtain ⟨o, ol, e⟩ := deriv_four xs ys out T.len ho
  obtain ⟨o', ol', e'⟩ := derivR_four (fp 53 fused) xs ys out T.len ho
  have hx : ∀ i < xs.length, xs[i]? = some (xs.getD i 0) := fun i hi => get_getD hi
  have hy : ∀ i < xs.length, ys[i]? = some (ys.getD i 0) := fun i hi => get_getD (by rw [T.len]; exact hi)
  obtain ⟨r, er, rl, r0, r1, r2, r3, ri⟩ := deriv4_spec _ _ _ hn xs ys o rfl hx hy ol
  obtain ⟨s, es, sl, s0, s1, s2, s3, si⟩ := deriv4R_spec (fp 53 fused) _ _ _ hn xs ys o' rfl hx hy ol'
  refine ⟨r, s, by rw [e, er], by rw [e', es], rl, sl, ?_⟩
  intro i hi
  have hM : 0 ≤ M := (abs_nonneg _).trans (T.size i hi)
  have fin : ∀ {c x : ℚ}, x ≤ c * (M / (3 * δ)) → c ≤ 3 * (427 / 2 ^ 53) → x ≤ 427 / 2 ^ 53 * (M / δ) := by
    intro c x h1 h2
    have h3 : 0 ≤ M / δ := div_nonneg hM T.pos.le
    have e3 : c * (M / (3 * δ)) = c / 3 * (M / δ) := by
      have := T.pos.ne'
      field_simp
    rw [e3] at h1
    exact h1.trans (mul_le_mul_of_nonneg_right (by linarith) h3)
  have S := fun i (h : i < xs.length) => T.size i h
  by_cases h0 : i = 0
  · subst h0
    exact ⟨_, _, r0, s0, fin (outer4_err (S _ (by omega)) (S _ (by omega)) (S _ (by omega)) (S _ (by omega)) (S _ (by omega)) T.pos
      (T.apart _ _ (by omega) (by omega) (by omega))) (by unfold u53; norm_num)⟩
  by_cases h3 : i = xs.length - 1
  · subst h3
    exact ⟨_, _, r3, s3, fin (outer4_err (S _ (by omega)) (S _ (by omega)) (S _ (by omega)) (S _ (by omega)) (S _ (by omega)) T.pos
      (T.apart _ _ (by omega) (by omega) (by omega))) (by unfold u53; norm_num)⟩
  by_cases h1 : i = 1
  · subst h1
    exact ⟨_, _, r1, s1, fin (inner4_err (S _ (by omega)) (S _ (by omega)) (S _ (by omega)) (S _ (by omega)) (S _ (by omega)) T.pos
      (T.apart _ _ (by omega) (by omega) (by omega))) (by unfold u53; norm_num)⟩
  by_cases h2 : i = xs.length - 2
  · subst h2
    exact ⟨_, _, r2, s2, fin (inner4_err (S _ (by omega)) (S _ (by omega)) (S _ (by omega)) (S _ (by omega)) (S _ (by omega)) T.pos
      (T.apart _ _ (by omega) (by omega) (by omega))) (by unfold u53; norm_num)⟩
  exact ⟨_, _, ri i (by omega) (by omega), si i (by omega) (by omega), fin (mid4_err (S _ (by omega)) (S _ (by omega)) (S _ (by omega))
    (S _ (by omega)) T.pos (T.apart _ _ (by omega) (by omega) (by omega))) (by unfold u53; norm_num)⟩

/-- The derivative of equal values is not 0 at the ends. -/
theorem C199_constant_counterexample :
    (∀ fused, derivR (fp 53 fused) [0, 1, 2] [1 + 1 / 2 ^ 52, 1 + 1 / 2 ^ 52, 1 + 1 / 2 ^ 52] 2 none =
      some [-1 / 2 ^ 53, 0, 1 / 2 ^ 53]) ∧ Rep 53 (1 + 1 / 2 ^ 52) := by
  constructor
  · decide +kernel
  · have h : rnd 53 (1 + 1 / 2 ^ 52) = 1 + 1 / 2 ^ 52 := by decide +kernel
    rw [← h]; exact rep_rnd (by norm_num) _

/-- The hypotheses of the theorems. -/
example : Table [0, 1, 3, 4, 6] [1, -2, 1 / 3, 5, 0] 5 1 ∧ (∀ i j, i < j → j < 5 → [(0 : ℚ), 1, 3, 4, 6].getD i 0 < [(0 : ℚ), 1, 3, 4, 6].getD j 0) ∧
    OutOk none 5 ∧ derivR (fp 53 false) [0, 1, 3, 4, 6] [1, -2, 1, 5, 0] 4 none ≠ deriv [0, 1, 3, 4, 6] [1, -2, 1, 5, 0] 4 none := by
  refine ⟨⟨rfl, by decide +kernel, by norm_num, ?_⟩, ?_, (by intro o h; cases h), by decide +kernel⟩
  · have h : ∀ i < 5, ∀ j < 5, i ≠ j → (1 : ℚ) ≤ |[(0 : ℚ), 1, 3, 4, 6].getD i 0 - [(0 : ℚ), 1, 3, 4, 6].getD j 0| := by decide +kernel
    intro i j hi hj; exact h i hi j hj
  · have h : ∀ j < 5, ∀ i < j, [(0 : ℚ), 1, 3, 4, 6].getD i 0 < [(0 : ℚ), 1, 3, 4, 6].getD j 0 := by decide +kernel
    intro i j hi hj; exact h j hj i hi

end Verif.Calc
