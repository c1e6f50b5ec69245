import Verif.Interp.RoundModel
import Verif.Interp.Search
import Verif.Mat.Round

/-!
# C142: linear interpolation in machine arithmetic
-/

set_option autoImplicit false

namespace Verif.Interp

open Verif.Go Verif.Mat

/-- A rounded number as a relative error. -/
theorem rel {f : FP} {u : ℚ} (h : f.Laws u) (x : ℚ) : ∃ d, |d| ≤ u ∧ f.fl x = x * (1 + d) := by
  by_cases hx : x = 0
  · refine ⟨0, by simpa using h.nonneg, ?_⟩
    have := h.err x
    rw [hx, abs_zero, mul_zero, sub_zero] at this
    rw [hx, zero_mul]
    exact abs_eq_zero.mp (le_antisymm this (abs_nonneg _))
  · refine ⟨(f.fl x - x) / x, ?_, by field_simp; ring⟩
    rw [abs_div, div_le_iff₀ (abs_pos.mpr hx)]
    exact h.err x

theorem one_mul_one {a b α β : ℚ} (ha : |a - 1| ≤ α) (hb : |b - 1| ≤ β) : |a * b - 1| ≤ α + β + α * β := by
  have h0 := (abs_nonneg _).trans ha
  have e : a * b - 1 = (a - 1) * (b - 1) + ((a - 1) + (b - 1)) := by ring
  have h1 := abs_add_le ((a - 1) * (b - 1)) ((a - 1) + (b - 1))
  have h2 := abs_add_le (a - 1) (b - 1)
  have h3 : |(a - 1) * (b - 1)| ≤ α * β := by
    rw [abs_mul]
    exact mul_le_mul ha hb (abs_nonneg _) h0
  rw [e]
  linarith

/-- The rounding errors of the last line of `Eval`: relative to the slope times the step, and to the value at the left. -/
theorem line_rounded {f : FP} {u : ℚ} (h : f.Laws u) (hu : u ≤ 1 / 64) (v D d w : ℚ) (hd : d ≠ 0) :
    |f.mac v (f.fl (f.fl D / f.fl d)) (f.fl w) - (v + D * (w / d))| ≤ 9 * u * |D * (w / d)| + u * |v| := by
  have u0 := h.nonneg
  obtain ⟨d1, a1, e1⟩ := rel h D
  obtain ⟨d2, a2, e2⟩ := rel h d
  obtain ⟨d3, a3, e3⟩ := rel h (f.fl D / f.fl d)
  obtain ⟨d4, a4, e4⟩ := rel h w
  obtain ⟨q, b1, b2, -⟩ := h.mac v (f.fl (f.fl D / f.fl d)) (f.fl w)
  have p2 : 63 / 64 ≤ 1 + d2 := by
    have := (abs_le.mp a2).1
    linarith
  have p2' : 0 < 1 + d2 := by linarith
  obtain ⟨T, hT⟩ : ∃ T, T = D * (w / d) := ⟨_, rfl⟩
  obtain ⟨P, hP⟩ : ∃ P, P = (1 + d1) * (1 + d3) * (1 + d4) / (1 + d2) := ⟨_, rfl⟩
  have hprod : f.fl (f.fl D / f.fl d) * f.fl w = T * P := by
    rw [e3, e4, e1, e2, hT, hP]
    field_simp
  have hP1 : |P - 1| ≤ 5 * u := by
    have k1 : |(1 + d1) * (1 + d3) - 1| ≤ u + u + u * u :=
      one_mul_one (by rw [add_sub_cancel_left]; exact a1) (by rw [add_sub_cancel_left]; exact a3)
    have k2 : |(1 + d1) * (1 + d3) * (1 + d4) - 1| ≤ (u + u + u * u) + u + (u + u + u * u) * u :=
      one_mul_one k1 (by rw [add_sub_cancel_left]; exact a4)
    have k3 : |(1 + d1) * (1 + d3) * (1 + d4) - (1 + d2)| ≤ (u + u + u * u) + u + (u + u + u * u) * u + u := by
      have := abs_sub ((1 + d1) * (1 + d3) * (1 + d4) - 1) d2
      rw [show (1 + d1) * (1 + d3) * (1 + d4) - (1 + d2) = (1 + d1) * (1 + d3) * (1 + d4) - 1 - d2 by ring]
      linarith
    rw [hP, show (1 + d1) * (1 + d3) * (1 + d4) / (1 + d2) - 1 =
      ((1 + d1) * (1 + d3) * (1 + d4) - (1 + d2)) / (1 + d2) by field_simp, abs_div, abs_of_pos p2', div_le_iff₀ p2']
    refine k3.trans ?_
    have k4 : u * u ≤ u * (1 / 64) := mul_le_mul_of_nonneg_left hu u0
    have k5 : u * u * u ≤ u * (1 / 64) * (1 / 64) := by
      have := mul_le_mul k4 hu u0 (by positivity)
      exact this
    have k6 : 5 * u * (63 / 64) ≤ 5 * u * (1 + d2) := mul_le_mul_of_nonneg_left p2 (by linarith)
    nlinarith
  rw [hprod] at b1
  rw [← hT]
  generalize f.mac v (f.fl (f.fl D / f.fl d)) (f.fl w) = r at *
  have T0 := abs_nonneg T
  have c1 : |T * P - T| ≤ 5 * u * |T| := by
    rw [show T * P - T = T * (P - 1) by ring, abs_mul, mul_comm]
    exact mul_le_mul_of_nonneg_right hP1 T0
  have c2 : |T * P| ≤ (1 + 5 * u) * |T| := by
    have := abs_add_le (T * P - T) T
    rw [sub_add_cancel] at this
    linarith
  have c3 : |q - T| ≤ 5 * u * |T| + u * ((1 + 5 * u) * |T|) := by
    have := abs_add_le (q - T * P) (T * P - T)
    rw [show q - T * P + (T * P - T) = q - T by ring] at this
    have k : u * |T * P| ≤ u * ((1 + 5 * u) * |T|) := mul_le_mul_of_nonneg_left c2 u0
    linarith
  have c4 : |v + q| ≤ |v| + |T| + |q - T| := by
    have k1 := abs_add_le v q
    have k2 := abs_add_le (q - T) T
    rw [sub_add_cancel] at k2
    linarith
  have c5 : |r - (v + T)| ≤ u * |v + q| + |q - T| := by
    have := abs_add_le (r - (v + q)) (q - T)
    rw [show r - (v + q) + (q - T) = r - (v + T) by ring] at this
    linarith
  have c6 : u * |v + q| ≤ u * (|v| + |T| + |q - T|) := mul_le_mul_of_nonneg_left c4 u0
  have uT : u * (u * |T|) ≤ 1 / 64 * (u * |T|) := mul_le_mul_of_nonneg_right hu (mul_nonneg u0 T0)
  have c7 : |q - T| ≤ 7 * (u * |T|) := by nlinarith
  have c8 : u * |q - T| ≤ u * (7 * (u * |T|)) := mul_le_mul_of_nonneg_left c7 u0
  nlinarith

/-! ## Tables -/

theorem getD_lt {xs : List ℚ} {i : ℕ} (h : i < xs.length) : xs.getD i 0 = xs[i] := by
  rw [List.getD_eq_getElem?_getD, List.getElem?_eq_getElem h, Option.getD_some]

/-- **C142.** Interpolation in a strictly increasing table, with rounding of every operation: points outside the table are
refused; for every other point the answer is off the straight line through the two neighbouring entries by at most `9u`
times their difference and `u` times the left one, `u` being the precision. -/
theorem C142_table {f : FP} {u : ℚ} (h : f.Laws u) (hu : u ≤ 1 / 64) (xs vals : List ℚ) (hn : 2 ≤ xs.length)
    (hm : xs.Pairwise (· < ·)) (hv : vals.length = xs.length) :
    ∃ lin, newLinearR f xs vals = some lin ∧ ∀ x,
      ((∀ a ∈ xs, x < a) ∨ (∀ a ∈ xs, a < x) → lin.evalR f x = none) ∧
      ((∃ a ∈ xs, a ≤ x) → (∃ a ∈ xs, x ≤ a) →
        ∃ (i : ℕ) (a b v w r : ℚ), xs[i]? = some a ∧ xs[i + 1]? = some b ∧ vals[i]? = some v ∧ vals[i + 1]? = some w ∧
          a ≤ x ∧ x ≤ b ∧ lin.evalR f x = some r ∧
          |r - (v + (w - v) * ((x - a) / (b - a)))| ≤ 9 * u * |w - v| + u * |v|) := by
  obtain ⟨n, hn'⟩ : ∃ n, xs.length = n + 2 := ⟨xs.length - 2, by omega⟩
  have g0 : xs[0]? = some (xs.getD 0 0) := rd_getD (by omega)
  have g1 : xs[n + 1]? = some (xs.getD (n + 1) 0) := rd_getD (by omega)
  have mono : ∀ i j : ℕ, i < j → j < xs.length → xs.getD i 0 < xs.getD j 0 := by
    intro i j hij hj
    have := List.pairwise_iff_getElem.mp hm i j (by omega) hj hij
    rw [getD_lt (by omega), getD_lt hj]
    exact this
  have dpos : 0 < f.fl (f.fl (xs.getD (n + 1) 0 - xs.getD 0 0) / (((xs.length : Int) - 1 : Int) : ℚ)) := by
    refine h.pos _ (div_pos (h.pos _ (sub_pos.mpr (mono 0 (n + 1) (by omega) (by omega)))) ?_)
    rw [hn', show ((n + 2 : ℕ) : Int) - 1 = ((n + 1 : ℕ) : Int) by push_cast; ring]
    positivity
  have hlast : rd xs ((xs.length : Int) - 1) = some (xs.getD (n + 1) 0) := by
    rw [hn', show ((n + 2 : ℕ) : Int) - 1 = ((n + 1 : ℕ) : Int) by push_cast; ring, rd_natCast]
    exact g1
  have hfirst : rd xs 0 = some (xs.getD 0 0) := by
    rw [show (0 : Int) = ((0 : ℕ) : Int) from rfl, rd_natCast]
    exact g0
  obtain ⟨s, hs⟩ : ∃ s : Searcher, s = ⟨xs, xs.getD 0 0,
      f.fl (f.fl (xs.getD (n + 1) 0 - xs.getD 0 0) / (((xs.length : Int) - 1 : Int) : ℚ)), xs.getD (n + 1) 0, xs.length,
      false, true⟩ := ⟨_, rfl⟩
  have hinit : Searcher.initR f xs = some s := by
    unfold Searcher.initR
    simp only [hlast, hfirst, bind, Option.bind_some, decide_eq_true dpos, hs, gt_iff_lt]
  refine ⟨⟨s, vals⟩, ?_, ?_⟩
  · unfold newLinearR
    rw [if_neg (by omega), hinit]
    rfl
  intro x
  constructor
  · intro hx
    unfold Linear.evalR
    have : s.searchR f x = none := by
      unfold Searcher.searchR
      rw [if_pos]
      rw [hs]
      rcases hx with hx | hx
      · right; exact hx _ (List.mem_of_getElem? g0)
      · left; exact hx _ (List.mem_of_getElem? g1)
    dsimp only
    rw [this]
    rfl
  · rintro ⟨a, ha, hax⟩ ⟨b, hb, hxb⟩
    have lo : xs.getD 0 0 ≤ x := by
      obtain ⟨k, hk, rfl⟩ := List.mem_iff_getElem.mp ha
      refine le_trans ?_ hax
      rcases Nat.eq_zero_or_pos k with h0 | h0
      · subst h0
        rw [getD_lt hk]
      · have := mono 0 k h0 hk
        rw [getD_lt hk] at this
        exact this.le
    have hi : x ≤ xs.getD (n + 1) 0 := by
      obtain ⟨k, hk, rfl⟩ := List.mem_iff_getElem.mp hb
      refine hxb.trans ?_
      rcases Nat.lt_or_ge k (n + 1) with h0 | h0
      · have := mono k (n + 1) h0 (by omega)
        rw [getD_lt hk] at this
        exact this.le
      · have : k = n + 1 := by omega
        subst this
        rw [getD_lt hk]
    obtain ⟨i, p, q, e, hp, hq, hpx, hxq⟩ := C14_any_guess xs hn x _ _
      (by rw [List.head?_eq_getElem?]; exact g0) (by rw [List.getLast?_eq_getElem?, hn']; exact g1) lo hi
      (trunc (f.fl (f.fl (x - xs.getD 0 0) / s.dx)))
    have hi2 : i + 1 < xs.length := (List.getElem?_eq_some_iff.mp hq).1
    have hpq : p < q := by
      have := mono i (i + 1) (by omega) hi2
      rw [rd_getD (by omega)] at hp hq
      cases hp
      cases hq
      exact this
    refine ⟨i, p, q, vals.getD i 0, vals.getD (i + 1) 0,
      f.mac (vals.getD i 0) (f.fl (f.fl (vals.getD (i + 1) 0 - vals.getD i 0) / f.fl (q - p))) (f.fl (x - p)),
      hp, hq, rd_getD (by omega), rd_getD (by omega), hpx, hxq, ?_, ?_⟩
    · have hsearch : s.searchR f x = some (i : Int) := by
        unfold Searcher.searchR
        rw [if_neg (by rw [hs]; push Not; exact ⟨hi, lo⟩)]
        rw [hs] at e ⊢
        simp only [Bool.false_eq_true, if_false, hfirst, bind, Option.bind_some]
        exact e
      unfold Linear.evalR
      have v1 : s.valR f (i : Int) = some p := by
        unfold Searcher.valR
        rw [hs]
        simp only [Bool.false_eq_true, if_false]
        rw [rd_natCast]
        exact hp
      have v2 : s.valR f ((i : Int) + 1) = some q := by
        unfold Searcher.valR
        rw [hs]
        simp only [Bool.false_eq_true, if_false]
        rw [show (i : Int) + 1 = ((i + 1 : ℕ) : Int) by push_cast; ring, rd_natCast]
        exact hq
      have w1 : rd vals (i : Int) = some (vals.getD i 0) := by
        rw [rd_natCast]; exact rd_getD (by omega)
      have w2 : rd vals ((i : Int) + 1) = some (vals.getD (i + 1) 0) := by
        rw [show (i : Int) + 1 = ((i + 1 : ℕ) : Int) by push_cast; ring, rd_natCast]; exact rd_getD (by omega)
      simp only [hsearch, v1, v2, w1, w2, bind, Option.bind_some]
    · refine (line_rounded h hu _ _ _ _ (sub_pos.mpr hpq).ne').trans ?_
      have t0 : 0 ≤ (x - p) / (q - p) := div_nonneg (by linarith) (by linarith)
      have t1 : (x - p) / (q - p) ≤ 1 := by rw [div_le_one (by linarith)]; linarith
      have : |(vals.getD (i + 1) 0 - vals.getD i 0) * ((x - p) / (q - p))| ≤ |vals.getD (i + 1) 0 - vals.getD i 0| := by
        rw [abs_mul, abs_of_nonneg t0]
        exact mul_le_of_le_one_right (abs_nonneg _) t1
      have := mul_le_mul_of_nonneg_left this (show (0 : ℚ) ≤ 9 * u by linarith [h.nonneg])
      linarith

/-- `float64` arithmetic, with fused operations: a table of three entries. -/
example : ∃ lin, newLinearR (fp 53 true) [0, 7, 8] [0, 29, 1 / 3] = some lin ∧ ∃ r, lin.evalR (fp 53 true) 2 = some r ∧
    |r - 58 / 7| ≤ 1 / 2 ^ 44 := by
  obtain ⟨lin, e, h⟩ := C142_table (fp_laws (p := 53) (by norm_num) true) (by norm_num) [0, 7, 8] [0, 29, 1 / 3] (by simp)
    (by simp; norm_num) rfl
  refine ⟨lin, e, ?_⟩
  obtain ⟨i, a, b, v, w, r, h1, h2, h3, h4, h5, h6, h7, h8⟩ := (h 2).2 ⟨0, by simp⟩ ⟨7, by simp; norm_num⟩
  refine ⟨r, h7, ?_⟩
  match i, h1, h2, h3, h4 with
  | 0, h1, h2, h3, h4 =>
    simp at h1 h2 h3 h4
    subst h1 h2 h3 h4
    norm_num at h8 ⊢
    linarith
  | 1, h1, h2, h3, h4 =>
    simp at h1
    subst h1
    norm_num at h5
  | k + 2, h1, h2, h3, h4 => simp at h2

deriving instance DecidableEq for Searcher, Linear

/-- **C142, counterexample.** The answer at an entry of the table need not be the value given there, nor lie between the
values of the neighbours: with entries 0 at 0 and 29 at 7 the answer at 7 is larger than 29, fused or not. -/
theorem C142_overshoot_counterexample (fused : Bool) :
    ∃ lin r, newLinearR (fp 53 fused) [0, 7] [0, 29] = some lin ∧ lin.evalR (fp 53 fused) 7 = some r ∧ 29 < r := by
  cases fused
  · exact ⟨⟨⟨[0, 7], 0, 7, 7, 2, false, true⟩, [0, 29]⟩, 29 + 1 / 2 ^ 48, by decide +kernel, by decide +kernel, by norm_num⟩
  · exact ⟨⟨⟨[0, 7], 0, 7, 7, 2, false, true⟩, [0, 29]⟩, 29 + 1 / 2 ^ 48, by decide +kernel, by decide +kernel, by norm_num⟩

/-! ## Uniform tables -/

/-- The bound on the error of the entries of a uniform table: the precision times the largest abscissa. -/
def spread (u x0 dx : ℚ) (n : ℕ) : ℚ := u * (|x0| + n * dx)

theorem knot_err {f : FP} {u : ℚ} (h : f.Laws u) (hu : u ≤ 1 / 64) {x0 dx : ℚ} (hdx : 0 < dx) {n i : ℕ} (hi : i ≤ n) :
    |f.mac x0 ((i : Int) : ℚ) dx - (x0 + i * dx)| ≤ 3 * spread u x0 dx n := by
  have u0 := h.nonneg
  obtain ⟨q, h1, h2, -⟩ := h.mac x0 ((i : Int) : ℚ) dx
  rw [Int.cast_natCast] at h1
  have hin : (i : ℚ) * dx ≤ n * dx := mul_le_mul_of_nonneg_right (by exact_mod_cast hi) hdx.le
  have hi0 : 0 ≤ (i : ℚ) * dx := by positivity
  rw [abs_of_nonneg hi0] at h1
  generalize f.mac x0 ((i : Int) : ℚ) dx = r at *
  generalize (i : ℚ) * dx = a at *
  have k1 := abs_add_le (r - (x0 + q)) (q - a)
  rw [show r - (x0 + q) + (q - a) = r - (x0 + a) by ring] at k1
  have k2 := abs_add_le x0 q
  have k3 : |q| ≤ |q - a| + a := by
    have := abs_add_le (q - a) a
    rw [sub_add_cancel, abs_of_nonneg hi0] at this
    exact this
  have k4 : u * |x0 + q| ≤ u * (|x0| + (u * a + a)) := mul_le_mul_of_nonneg_left (by linarith) u0
  have k5 : u * a ≤ u * (n * dx) := mul_le_mul_of_nonneg_left hin u0
  have k6 : u * (u * a) ≤ 1 / 64 * (u * a) := mul_le_mul_of_nonneg_right hu (mul_nonneg u0 hi0)
  have k7 : 0 ≤ u * |x0| := mul_nonneg u0 (abs_nonneg _)
  have k8 : 0 ≤ u * a := mul_nonneg u0 hi0
  unfold spread
  nlinarith

/-- The search in a uniform table: no panic inside, and the cell contains the point up to the error of the entries. -/
theorem uniform_search {f : FP} {u : ℚ} (h : f.Laws u) (hu : u ≤ 1 / 64) {x0 dx : ℚ} (hdx : 0 < dx) {n : ℕ} (hn : 2 ≤ n)
    (he : spread u x0 dx n ≤ dx / 64) (x : ℚ) :
    (x < x0 ∨ (Searcher.unifInitR f x0 dx n).lim < x → (Searcher.unifInitR f x0 dx n).searchR f x = none) ∧
    (x0 ≤ x → x ≤ (Searcher.unifInitR f x0 dx n).lim →
      ∃ i : ℕ, (Searcher.unifInitR f x0 dx n).searchR f x = some (i : Int) ∧ i + 1 < n ∧
        x0 + i * dx - 3 * spread u x0 dx n ≤ x ∧ x ≤ x0 + (i + 1) * dx + 3 * spread u x0 dx n) := by
  have u0 := h.nonneg
  have hlim : |(Searcher.unifInitR f x0 dx n).lim - (x0 + ((n : ℚ) - 1) * dx)| ≤ 3 * spread u x0 dx n := by
    have := knot_err h hu (x0 := x0) hdx (n := n) (i := n - 1) (by omega)
    unfold Searcher.unifInitR
    dsimp only
    rw [show (n : Int) - 1 = ((n - 1 : ℕ) : Int) by omega]
    rw [show (n : ℚ) - 1 = ((n - 1 : ℕ) : ℚ) by push_cast [Nat.cast_sub (show 1 ≤ n by omega)]; ring]
    exact this
  have hux : u * (n * dx) ≤ spread u x0 dx n := by
    unfold spread
    have := mul_nonneg u0 (abs_nonneg x0)
    linarith [mul_add u |x0| (n * dx)]
  constructor
  · intro hx
    unfold Searcher.searchR
    rw [if_pos]
    rcases hx with hx | hx
    · right; exact hx
    · left; exact hx
  intro hx0 hxl
  obtain ⟨E, hE⟩ : ∃ E, E = spread u x0 dx n := ⟨_, rfl⟩
  rw [← hE] at he hux hlim ⊢
  obtain ⟨d1, a1, e1⟩ := rel h (x - x0)
  obtain ⟨d2, a2, e2⟩ := rel h (f.fl (x - x0) / dx)
  obtain ⟨y, hy⟩ : ∃ y, y = (x - x0) / dx := ⟨_, rfl⟩
  have hxy : x = x0 + y * dx := by rw [hy]; field_simp; ring
  have hy0 : 0 ≤ y := by rw [hy]; exact div_nonneg (by linarith) hdx.le
  have hq : f.fl (f.fl (x - x0) / dx) = y * ((1 + d1) * (1 + d2)) := by
    rw [e2, e1, hy]
    field_simp
  have hyn : y * dx ≤ (n - 1) * dx + 3 * E := by
    have := (abs_le.mp hlim).2
    linarith
  have hyn' : y ≤ n := by
    have : y * dx ≤ n * dx := by linarith
    exact le_of_mul_le_mul_right this hdx
  have k1 : |(1 + d1) * (1 + d2) - 1| ≤ u + u + u * u :=
    one_mul_one (by rw [add_sub_cancel_left]; exact a1) (by rw [add_sub_cancel_left]; exact a2)
  have k2 : |(1 + d1) * (1 + d2) - 1| ≤ 3 * u := by
    have : u * u ≤ u * (1 / 64) := mul_le_mul_of_nonneg_left hu u0
    linarith
  generalize (1 + d1) * (1 + d2) = P at *
  have hqy : |y * P - y| * dx ≤ 3 * E := by
    rw [show y * P - y = y * (P - 1) by ring, abs_mul, abs_of_nonneg hy0]
    have m1 : y * |P - 1| ≤ n * (3 * u) := mul_le_mul hyn' k2 (abs_nonneg _) (by positivity)
    have m2 := mul_le_mul_of_nonneg_right m1 hdx.le
    linarith
  have hq0 : 0 ≤ y * P := by
    refine mul_nonneg hy0 ?_
    have := (abs_le.mp k2).1
    linarith
  have q1 : y * P * dx ≤ y * dx + 3 * E := by
    have := mul_le_mul_of_nonneg_right (le_abs_self (y * P - y)) hdx.le
    linarith
  have q2 : y * dx - 3 * E ≤ y * P * dx := by
    have := mul_le_mul_of_nonneg_right (neg_le_abs (y * P - y)) hdx.le
    linarith
  obtain ⟨k, hk⟩ : ∃ k : ℕ, ⌊y * P⌋ = (k : Int) := Int.eq_ofNat_of_zero_le (Int.floor_nonneg.mpr hq0)
  have f1 : (k : ℚ) ≤ y * P := by
    have := Int.floor_le (y * P)
    rw [hk] at this
    exact_mod_cast this
  have f2 : y * P < k + 1 := by
    have := Int.lt_floor_add_one (y * P)
    rw [hk] at this
    exact_mod_cast this
  have f1' := mul_le_mul_of_nonneg_right f1 hdx.le
  have f2' := mul_lt_mul_of_pos_right f2 hdx
  have hkn : k < n := by
    have : (k : ℚ) * dx < n * dx := by linarith
    have := lt_of_mul_lt_mul_right this hdx.le
    exact_mod_cast this
  have hs : (Searcher.unifInitR f x0 dx n).searchR f x = some (if (k : Int) = n - 1 then (k : Int) - 1 else k) := by
    unfold Searcher.searchR
    rw [if_neg (by push Not; exact ⟨hxl, hx0⟩)]
    show some _ = _
    unfold Searcher.unifInitR
    dsimp only
    rw [hq, trunc_of_nonneg hq0, hk]
  by_cases hkl : (k : Int) = n - 1
  · refine ⟨k - 1, ?_, by omega, ?_, ?_⟩
    · rw [hs, if_pos hkl]
      congr 1
      omega
    · have : ((k - 1 : ℕ) : ℚ) = k - 1 := by push_cast [Nat.cast_sub (show 1 ≤ k by omega)]; ring
      rw [this, hxy]
      nlinarith
    · have : ((k - 1 : ℕ) : ℚ) = k - 1 := by push_cast [Nat.cast_sub (show 1 ≤ k by omega)]; ring
      have hkn1 : (k : ℚ) = n - 1 := by
        have : ((k : Int) : ℚ) = ((n - 1 : Int) : ℚ) := by rw [hkl]
        push_cast at this
        exact this
      rw [this, hxy, hkn1]
      linarith
  · refine ⟨k, by rw [hs, if_neg hkl], by omega, ?_, ?_⟩
    · rw [hxy]; linarith
    · rw [hxy]; linarith

/-- **C142.** Interpolation in a uniform table, with rounding of every operation. Let `E` be the precision times the largest
abscissa, and suppose that the step of the table is at least `64 E`. Points outside the table are refused (the upper end is
off by at most `3 E`); for every other point the cell used contains the point up to `3 E`, and the answer is off the straight
line through the entries of the cell by at most `17 E / dx` times their difference and `u` times the left one. -/
theorem C142_uniform {f : FP} {u : ℚ} (h : f.Laws u) (hu : u ≤ 1 / 64) (x0 dx E : ℚ) (hdx : 0 < dx) (vals : List ℚ)
    (hn : 2 ≤ vals.length) (hE : E = u * (|x0| + vals.length * dx)) (he : 64 * E ≤ dx) :
    ∃ lim, |lim - (x0 + ((vals.length : ℚ) - 1) * dx)| ≤ 3 * E ∧ ∀ x,
      (x < x0 ∨ lim < x → (newUniformLinearR f x0 dx vals).evalR f x = none) ∧
      (x0 ≤ x → x ≤ lim → ∃ (i : ℕ) (v w r : ℚ), vals[i]? = some v ∧ vals[i + 1]? = some w ∧
        x0 + i * dx - 3 * E ≤ x ∧ x ≤ x0 + (i + 1) * dx + 3 * E ∧ (newUniformLinearR f x0 dx vals).evalR f x = some r ∧
        |r - (v + (w - v) * ((x - (x0 + i * dx)) / dx))| ≤ 17 * (E / dx) * |w - v| + u * |v|) := by
  have u0 := h.nonneg
  obtain ⟨n, hn'⟩ : ∃ n, n = vals.length := ⟨_, rfl⟩
  rw [← hn'] at hn hE ⊢
  have hsp : spread u x0 dx n = E := hE.symm
  refine ⟨(Searcher.unifInitR f x0 dx n).lim, ?_, ?_⟩
  · have := knot_err h hu (x0 := x0) hdx (n := n) (i := n - 1) (by omega)
    unfold Searcher.unifInitR
    dsimp only
    rw [show (n : Int) - 1 = ((n - 1 : ℕ) : Int) by omega]
    rw [show (n : ℚ) - 1 = ((n - 1 : ℕ) : ℚ) by push_cast [Nat.cast_sub (show 1 ≤ n by omega)]; ring, ← hsp]
    exact this
  intro x
  obtain ⟨s1, s2⟩ := uniform_search h hu hdx hn (x0 := x0) (by rw [hsp]; linarith) x
  have hdef : (newUniformLinearR f x0 dx vals) = ⟨Searcher.unifInitR f x0 dx n, vals⟩ := by
    unfold newUniformLinearR
    rw [hn']
  rw [hdef]
  constructor
  · intro hx
    unfold Linear.evalR
    dsimp only
    rw [s1 hx]
    rfl
  intro hx0 hxl
  obtain ⟨i, hs, hi, hx1, hx2⟩ := s2 hx0 hxl
  rw [hsp] at hx1 hx2
  have y1 := knot_err h hu (x0 := x0) hdx (n := n) (i := i) (by omega)
  have y2 := knot_err h hu (x0 := x0) hdx (n := n) (i := i + 1) (by omega)
  rw [hsp] at y1 y2
  refine ⟨i, vals.getD i 0, vals.getD (i + 1) 0, f.mac (vals.getD i 0) (f.fl (f.fl (vals.getD (i + 1) 0 - vals.getD i 0) /
    f.fl (f.mac x0 ((i + 1 : ℕ) : Int) dx - f.mac x0 (i : Int) dx))) (f.fl (x - f.mac x0 (i : Int) dx)),
    rd_getD (by omega), rd_getD (by omega), hx1, hx2, ?_, ?_⟩
  · unfold Linear.evalR
    have e1 : ∀ j : Int, (Searcher.unifInitR f x0 dx n).valR f j = some (f.mac x0 (j : ℚ) dx) := fun j => rfl
    dsimp only
    rw [hs, show (some (i : Int) >>= fun i1 => _) = _ from rfl]
    simp only [e1, bind, Option.bind_some]
    rw [show (i : Int) + 1 = ((i + 1 : ℕ) : Int) by push_cast; ring, rd_natCast, rd_natCast, rd_getD (by omega),
      rd_getD (by omega)]
    rfl
  generalize f.mac x0 ((i + 1 : ℕ) : Int) dx = b at *
  generalize f.mac x0 (i : Int) dx = a at *
  generalize vals.getD i 0 = v at *
  generalize vals.getD (i + 1) 0 = w at *
  push_cast at y1 y2
  obtain ⟨X, hX⟩ : ∃ X, X = x0 + i * dx := ⟨_, rfl⟩
  rw [← hX] at hx1 y1 ⊢
  have y2' : |b - (X + dx)| ≤ 3 * E := by
    rw [hX, show x0 + i * dx + dx = x0 + (i + 1) * dx by ring]
    exact y2
  have hx2' : x ≤ X + dx + 3 * E := by rw [hX]; linarith
  have E0 : 0 ≤ E := by
    rw [hE]
    have := abs_nonneg x0
    positivity
  have a1 := (abs_le.mp y1).1
  have a2 := (abs_le.mp y1).2
  have b1 := (abs_le.mp y2').1
  have b2 := (abs_le.mp y2').2
  have hd : 58 / 64 * dx ≤ b - a := by linarith
  have hd0 : 0 < b - a := by linarith
  have L := line_rounded h hu v (w - v) (b - a) (x - a) hd0.ne'
  obtain ⟨e, hee⟩ : ∃ e, e = E / dx := ⟨_, rfl⟩
  have hEe : E = e * dx := by rw [hee]; field_simp
  have e0 : 0 ≤ e := by rw [hee]; positivity
  have e1 : e ≤ 1 / 64 := by
    rw [hee, div_le_iff₀ hdx]
    linarith
  have ue : 2 * u ≤ e := by
    have k1 : u * (2 * dx) ≤ E := by
      rw [hE]
      refine mul_le_mul_of_nonneg_left ?_ u0
      have : (2 : ℚ) * dx ≤ n * dx := mul_le_mul_of_nonneg_right (by exact_mod_cast hn) hdx.le
      have := abs_nonneg x0
      linarith
    rw [hEe] at k1
    have : 2 * u * dx ≤ e * dx := by linarith
    exact le_of_mul_le_mul_right this hdx
  rw [← hee]
  have ht : |(x - a) / (b - a) - (x - X) / dx| ≤ 11 * e := by
    rw [div_sub_div _ _ hd0.ne' hdx.ne', abs_div, abs_of_pos (mul_pos hd0 hdx), div_le_iff₀ (mul_pos hd0 hdx),
      show (x - a) * dx - (b - a) * (x - X) = (X - a) * dx - (x - X) * (b - a - dx) by ring]
    have k0 := abs_sub ((X - a) * dx) ((x - X) * (b - a - dx))
    rw [abs_mul, abs_mul, abs_of_pos hdx] at k0
    have k1 : |X - a| ≤ 3 * E := by rw [abs_sub_comm]; exact y1
    have k2 : |x - X| ≤ 67 / 64 * dx := by rw [abs_le]; constructor <;> linarith
    have k3 : |b - a - dx| ≤ 6 * E := by rw [abs_le]; constructor <;> linarith
    have k4 : |X - a| * dx ≤ 3 * E * dx := mul_le_mul_of_nonneg_right k1 hdx.le
    have k5 : |x - X| * |b - a - dx| ≤ 67 / 64 * dx * (6 * E) := mul_le_mul k2 k3 (abs_nonneg _) (by positivity)
    have k6 : 11 * e * (58 / 64 * dx * dx) ≤ 11 * e * ((b - a) * dx) :=
      mul_le_mul_of_nonneg_left (mul_le_mul_of_nonneg_right hd hdx.le) (by positivity)
    have k7 : 0 ≤ e * dx * dx := by positivity
    rw [hEe] at k4 k5
    nlinarith
  have ht1 : |(x - X) / dx| ≤ 67 / 64 := by
    rw [abs_div, abs_of_pos hdx, div_le_iff₀ hdx, abs_le]
    constructor <;> linarith
  generalize (x - a) / (b - a) = t' at *
  generalize (x - X) / dx = t at *
  have ht2 : |t'| ≤ 5 / 4 := by
    have := abs_add_le (t' - t) t
    rw [sub_add_cancel] at this
    linarith
  generalize f.mac v (f.fl (f.fl (w - v) / f.fl (b - a))) (f.fl (x - a)) = r at *
  generalize w - v = D at *
  have m1 : |D * t' - D * t| ≤ |D| * (11 * e) := by
    rw [← mul_sub, abs_mul]
    exact mul_le_mul_of_nonneg_left ht (abs_nonneg _)
  have m2 : 9 * u * |D * t'| ≤ 9 * u * (|D| * (5 / 4)) := by
    rw [abs_mul]
    exact mul_le_mul_of_nonneg_left (mul_le_mul_of_nonneg_left ht2 (abs_nonneg _)) (by positivity)
  have m3 : 2 * u * |D| ≤ e * |D| := mul_le_mul_of_nonneg_right ue (abs_nonneg _)
  have m4 := abs_add_le (r - (v + D * t')) (D * t' - D * t)
  rw [show r - (v + D * t') + (D * t' - D * t) = r - (v + D * t) by ring] at m4
  have m5 : 0 ≤ e * |D| := mul_nonneg e0 (abs_nonneg _)
  nlinarith

/-- `float64` arithmetic: a table with four entries from `-1` in steps of `1/10`. -/
example : ∃ lim, |lim - (-7 / 10)| ≤ 1 / 2 ^ 50 ∧ ∀ x, -1 ≤ x → x ≤ lim →
    ∃ r, (newUniformLinearR (fp 53 false) (-1) (1 / 10) [1, 5, 2, 3]).evalR (fp 53 false) x = some r := by
  obtain ⟨lim, h1, h2⟩ := C142_uniform (fp_laws (p := 53) (by norm_num) false) (by norm_num) (-1) (1 / 10)
    (1 / 2 ^ 53 * (14 / 10)) (by norm_num) [1, 5, 2, 3] (by simp) (by norm_num) (by norm_num)
  refine ⟨lim, ?_, fun x a b => ?_⟩
  · norm_num at h1 ⊢
    linarith
  · obtain ⟨i, v, w, r, -, -, -, -, h, -⟩ := (h2 x).2 a b
    exact ⟨r, h⟩

/-- **C142, counterexample.** When the step of a uniform table is not large compared with the spacing of the machine numbers
at its abscissas, the interpolator refuses points of the table: with four entries from `2^53` in steps of 1, the upper end
is not the last entry but the next machine number, and there the evaluation panics although the point is accepted. -/
theorem C142_coarse_counterexample :
    (Searcher.unifInitR (fp 53 false) (2 ^ 53) 1 4).lim = 2 ^ 53 + 4 ∧
    (Searcher.unifInitR (fp 53 false) (2 ^ 53) 1 4).searchR (fp 53 false) (2 ^ 53 + 4) = some 4 ∧
    ∀ a b c d : ℚ, (newUniformLinearR (fp 53 false) (2 ^ 53) 1 [a, b, c, d]).evalR (fp 53 false) (2 ^ 53 + 4) = none := by
  have h1 : (Searcher.unifInitR (fp 53 false) (2 ^ 53) 1 4).searchR (fp 53 false) (2 ^ 53 + 4) = some 4 := by decide +kernel
  refine ⟨by decide +kernel, h1, fun a b c d => ?_⟩
  unfold newUniformLinearR Linear.evalR
  dsimp only [List.length]
  rw [show ((0 + 1 + 1 + 1 + 1 : ℕ) : Int) = 4 from rfl, h1]
  rfl

end Verif.Interp
