import Verif.Interp.RoundMultiModel
import Verif.Interp.RoundSplineErr
import Verif.Interp.Multi

/-!
# C153: bilinear and trilinear interpolation in machine arithmetic
-/

set_option autoImplicit false

namespace Verif.Interp

open Verif.Go Verif.Mat

/-! ## The search in a table -/

/-- What the interpolators need of a searcher on the grid lines `X 0 .. X (n-1)`. -/
structure Searcher.GridR (s : Searcher) (f : FP) (X : ℕ → ℚ) (n : ℕ) : Prop where
  num : s.n = n
  mono : ∀ i j, i < j → j < n → X i < X j
  val : ∀ i : ℕ, i < n → s.valR f (i : Int) = some (X i)
  outside : ∀ x, x < X 0 ∨ X (n - 1) < x → s.searchR f x = none
  inside : ∀ x, X 0 ≤ x → x ≤ X (n - 1) → ∃ i : ℕ, s.searchR f x = some (i : Int) ∧ i + 1 < n ∧ X i ≤ x ∧ x ≤ X (i + 1)

theorem table_gridR {f : FP} {u : ℚ} (h : f.Laws u) (xs : List ℚ) (hn : 2 ≤ xs.length) (hm : xs.Pairwise (· < ·)) :
    ∃ s, Searcher.initR f xs = some s ∧ s.GridR f (fun i => xs.getD i 0) xs.length := by
  obtain ⟨n, hn'⟩ : ∃ n, xs.length = n + 2 := ⟨xs.length - 2, by omega⟩
  have g0 : xs[0]? = some (xs.getD 0 0) := rd_getD (by omega)
  have g1 : xs[n + 1]? = some (xs.getD (n + 1) 0) := rd_getD (by omega)
  have mono : ∀ i j : ℕ, i < j → j < xs.length → xs.getD i 0 < xs.getD j 0 := by
    intro i j hij hj
    have := List.pairwise_iff_getElem.mp hm i j (by omega) hj hij
    rw [getD_lt (by omega), getD_lt hj]
    exact this
  have dpos : 0 < f.fl (f.fl (xs.getD (n + 1) 0 - xs.getD 0 0) / (((xs.length : Int) - 1 : Int) : ℚ)) := by
    refine h.pos _ (div_pos (h.pos _ (sub_pos.mpr (mono 0 (n + 1) (by omega) (by omega)))) ?_)
    rw [hn', show ((n + 2 : ℕ) : Int) - 1 = ((n + 1 : ℕ) : Int) by push_cast; ring]
    positivity
  have hlast : rd xs ((xs.length : Int) - 1) = some (xs.getD (n + 1) 0) := by
    rw [hn', show ((n + 2 : ℕ) : Int) - 1 = ((n + 1 : ℕ) : Int) by push_cast; ring, rd_natCast]
    exact g1
  have hfirst : rd xs 0 = some (xs.getD 0 0) := by
    rw [show (0 : Int) = ((0 : ℕ) : Int) from rfl, rd_natCast]
    exact g0
  obtain ⟨s, hs⟩ : ∃ s : Searcher, s = ⟨xs, xs.getD 0 0,
      f.fl (f.fl (xs.getD (n + 1) 0 - xs.getD 0 0) / (((xs.length : Int) - 1 : Int) : ℚ)), xs.getD (n + 1) 0, xs.length,
      false, true⟩ := ⟨_, rfl⟩
  have hinit : Searcher.initR f xs = some s := by
    unfold Searcher.initR
    simp only [hlast, hfirst, bind, Option.bind_some, decide_eq_true dpos, hs, gt_iff_lt]
  refine ⟨s, hinit, ⟨by rw [hs], mono, fun i hi => ?_, fun x hx => ?_, fun x lo hi => ?_⟩⟩
  · unfold Searcher.valR
    rw [hs]
    simp only [Bool.false_eq_true, if_false]
    rw [rd_natCast]
    exact rd_getD hi
  · unfold Searcher.searchR
    rw [if_pos]
    rw [hs]
    rw [show xs.length - 1 = n + 1 by omega] at hx
    exact hx.symm
  · rw [show xs.length - 1 = n + 1 by omega] at hi
    obtain ⟨i, p, q, e, hp, hq, hpx, hxq⟩ := C14_any_guess xs hn x _ _
      (by rw [List.head?_eq_getElem?]; exact g0) (by rw [List.getLast?_eq_getElem?, hn']; exact g1) lo hi
      (trunc (f.fl (f.fl (x - xs.getD 0 0) / s.dx)))
    have hi2 : i + 1 < xs.length := (List.getElem?_eq_some_iff.mp hq).1
    rw [rd_getD (by omega)] at hp hq
    cases hp
    cases hq
    refine ⟨i, ?_, hi2, hpx, hxq⟩
    unfold Searcher.searchR
    rw [if_neg (by rw [hs]; push Not; exact ⟨hi, lo⟩)]
    rw [hs] at e ⊢
    simp only [Bool.false_eq_true, if_false, hfirst, bind, Option.bind_some]
    exact e

theorem valR_succ {s : Searcher} {f : FP} {X : ℕ → ℚ} {n : ℕ} (g : s.GridR f X n) {j : ℕ} (hj : j + 1 < n) :
    s.valR f ((j : Int) + 1) = some (X (j + 1)) := by
  have := g.val (j + 1) hj
  push_cast at this
  exact this

/-- Being in the range of a list, by its ends. -/
theorem range_ends {xs : List ℚ} (hn : 2 ≤ xs.length) (hm : xs.Pairwise (· < ·)) (x : ℚ) :
    ((∃ a ∈ xs, a ≤ x) → (∃ a ∈ xs, x ≤ a) → xs.getD 0 0 ≤ x ∧ x ≤ xs.getD (xs.length - 1) 0) ∧
    ((∀ a ∈ xs, x < a) ∨ (∀ a ∈ xs, a < x) → x < xs.getD 0 0 ∨ xs.getD (xs.length - 1) 0 < x) := by
  have mono : ∀ i j : ℕ, i ≤ j → j < xs.length → xs.getD i 0 ≤ xs.getD j 0 := by
    intro i j hij hj
    rcases Nat.lt_or_ge i j with h | h
    · have := List.pairwise_iff_getElem.mp hm i j (by omega) hj h
      rw [getD_lt (by omega), getD_lt hj]
      exact this.le
    · rw [show i = j by omega]
  constructor
  · rintro ⟨a, ha, hax⟩ ⟨b, hb, hxb⟩
    obtain ⟨k, hk, rfl⟩ := List.mem_iff_getElem.mp ha
    obtain ⟨l, hl, rfl⟩ := List.mem_iff_getElem.mp hb
    have h1 := mono 0 k (by omega) hk
    have h2 := mono l (xs.length - 1) (by omega) (by omega)
    rw [getD_lt hk] at h1
    rw [getD_lt hl] at h2
    exact ⟨h1.trans hax, hxb.trans h2⟩
  · rintro (h | h)
    · exact Or.inl (h _ (by rw [getD_lt (by omega)]; exact List.getElem_mem _))
    · exact Or.inr (h _ (by rw [getD_lt (by omega)]; exact List.getElem_mem _))

/-! ## Errors -/

/-- A rounded nonnegative number. -/
theorem Ap.ofFl {f : FP} {u : ℚ} (h : f.Laws u) {d : ℚ} (hd : 0 ≤ d) : Ap u d d (f.fl d) d := by
  have := h.err d
  rw [abs_of_nonneg hd] at this
  exact ⟨(abs_of_nonneg hd).le, by linarith⟩

/-- One summand `v·p·q` of the bilinear formula, before the last rounding: rounded factors `v·p` and `q`. -/
theorem Ap.first {f : FP} {u : ℚ} (h : f.Laws u) (hu : u ≤ 1 / 1024) (v : ℚ) {p : ℚ} (hp : 0 ≤ p) :
    Ap u (|v| * p) (2049 / 1024 * (|v| * p)) (f.fl (v * f.fl p)) (v * p) := by
  have h0 := h.nonneg
  rcases h0.eq_or_lt with hz | h0
  · have e : ∀ x, f.fl x = x := by
      intro x
      have := h.err x
      rw [← hz, zero_mul] at this
      linarith [abs_eq_zero.mp (le_antisymm this (abs_nonneg _))]
    rw [e, e]
    refine ⟨by rw [abs_mul, abs_of_nonneg hp], ?_⟩
    rw [← hz]
    simp
  · have a := ((Ap.refl u v).mul (Ap.ofFl h hp) hu h0).fl h hu
    refine a.weaken h0.le le_rfl ?_
    have := mul_nonneg (abs_nonneg v) hp
    linarith

/-- The sum of two products. -/
theorem Ap.two {f : FP} {u : ℚ} (h : f.Laws u) (hu : u ≤ 1 / 1024) (h0 : 0 < u) (left : Bool)
    {A Ka a₁ a₀ S Ks s₁ s₀ B Kb b₁ b₀ T Kt t₁ t₀ M : ℚ} (a : Ap u A Ka a₁ a₀) (s : Ap u S Ks s₁ s₀) (b : Ap u B Kb b₁ b₀)
    (t : Ap u T Kt t₁ t₀)
    (hM : A * S + B * T + (A * S + (Ka * S + Ka * Ks / 1024 + A * Ks) * (1025 / 1024) +
      (B * T + (Kb * T + Kb * Kt / 1024 + B * Kt) * (1025 / 1024))) * (1025 / 1024) ≤ M) :
    Ap u (A * S + B * T) M (twoR f left a₁ s₁ b₁ t₁) (a₀ * s₀ + b₀ * t₀) := by
  unfold twoR
  cases left
  · simp only [Bool.false_eq_true, if_false]
    exact Ap.mac ((a.mul s hu h0).fl h hu) b t h hu h0 hM
  · simp only [if_true]
    have := Ap.mac ((b.mul t hu h0).fl h hu) a s h hu h0 (M := M) (by linarith)
    rw [add_comm (B * T), add_comm (b₀ * t₀)] at this
    exact this

theorem bilin_sum {x1 x2 y1 y2 : ℚ} (hx : x1 < x2) (hy : y1 < y2) (v11 v12 v21 v22 x y : ℚ) :
    bilin x1 x2 y1 y2 v11 v12 v21 v22 x y * ((x2 - x1) * (y2 - y1)) =
      v11 * (x2 - x) * (y2 - y) + v12 * (x2 - x) * (y - y1) + v21 * (x - x1) * (y2 - y) + v22 * (x - x1) * (y - y1) := by
  have dx : x2 - x1 ≠ 0 := (sub_pos.mpr hx).ne'
  have dy : y2 - y1 ≠ 0 := (sub_pos.mpr hy).ne'
  unfold bilin lineThrough
  field_simp
  ring

/-- The numerator of the bilinear formula. -/
theorem numer_err {f : FP} {u : ℚ} (h : f.Laws u) (hu : u ≤ 1 / 1024) (h0 : 0 < u) (left : Bool)
    (v11 v12 v21 v22 : ℚ) {p1 p2 q1 q2 : ℚ} (hp1 : 0 ≤ p1) (hp2 : 0 ≤ p2) (hq1 : 0 ≤ q1) (hq2 : 0 ≤ q2) :
    Ap u (|v11| * p2 * q2 + |v12| * p2 * q1 + |v21| * p1 * q2 + |v22| * p1 * q1)
      (15 / 2 * (|v11| * p2 * q2 + |v12| * p2 * q1 + |v21| * p1 * q2 + |v22| * p1 * q1))
      (f.mac (f.mac (twoR f left (f.fl (v11 * f.fl p2)) (f.fl q2) (f.fl (v12 * f.fl p2)) (f.fl q1))
        (f.fl (v21 * f.fl p1)) (f.fl q2)) (f.fl (v22 * f.fl p1)) (f.fl q1))
      (v11 * p2 * q2 + v12 * p2 * q1 + v21 * p1 * q2 + v22 * p1 * q1) := by
  have s1 : 0 ≤ |v11| * p2 * q2 := by positivity
  have s2 : 0 ≤ |v12| * p2 * q1 := by positivity
  have s3 : 0 ≤ |v21| * p1 * q2 := by positivity
  have s4 : 0 ≤ |v22| * p1 * q1 := by positivity
  have a := Ap.two h hu h0 left (Ap.first h hu v11 hp2) (Ap.ofFl h hq2) (Ap.first h hu v12 hp2) (Ap.ofFl h hq1)
    (M := 21 / 4 * (|v11| * p2 * q2 + |v12| * p2 * q1)) (by linarith)
  have b := Ap.mac a (Ap.first h hu v21 hp1) (Ap.ofFl h hq2) h hu h0
    (M := 51 / 8 * (|v11| * p2 * q2 + |v12| * p2 * q1 + |v21| * p1 * q2)) (by linarith)
  exact Ap.mac b (Ap.first h hu v22 hp1) (Ap.ofFl h hq1) h hu h0 (by linarith)

/-- A quotient by a rounded product of rounded numbers. -/
theorem quot_err {f : FP} {u : ℚ} (h : f.Laws u) (hu : u ≤ 1 / 1024) (h0 : 0 < u) {S N N0 dx dy : ℚ} (hx : 0 < dx)
    (hy : 0 < dy) (a : Ap u S (15 / 2 * S) N N0) :
    |f.fl (N / f.fl (f.fl dx * f.fl dy)) * (dx * dy) - N0| ≤ 12 * u * S := by
  obtain ⟨e1, k1, g1⟩ := rel' h hu dx
  obtain ⟨e2, k2, g2⟩ := rel' h hu dy
  obtain ⟨e3, k3, g3⟩ := rel' h hu (f.fl dx * f.fl dy)
  obtain ⟨e4, k4, g4⟩ := Verif.Interp.rel h (N / f.fl (f.fl dx * f.fl dy))
  have one : ∀ e, |e| ≤ u → Ap u 1 1 (1 + e) 1 := fun e he => ⟨by simp, by rw [add_sub_cancel_left]; linarith⟩
  have hne : f.fl (f.fl dx * f.fl dy) ≠ 0 := (h.pos _ (mul_pos (h.pos _ hx) (h.pos _ hy))).ne'
  have b := ((((a.mul (one _ k1) hu h0).mul (one _ k2) hu h0).mul (one _ k3) hu h0).mul (one _ k4) hu h0)
  have e : f.fl (N / f.fl (f.fl dx * f.fl dy)) * (dx * dy) = N * (1 + e1) * (1 + e2) * (1 + e3) * (1 + e4) := by
    rw [g4]
    generalize f.fl (f.fl dx * f.fl dy) = P at *
    have k : dx * dy = P * (1 + e3) * ((1 + e1) * (1 + e2)) := by
      calc dx * dy = f.fl dx * (1 + e1) * (f.fl dy * (1 + e2)) := by rw [g1, g2]
        _ = f.fl dx * f.fl dy * ((1 + e1) * (1 + e2)) := by ring
        _ = _ := by rw [g3]
    rw [k]
    field_simp
  rw [e]
  have S0 : 0 ≤ S := (abs_nonneg _).trans a.1
  have := b.2
  simp only [mul_one] at this
  refine this.trans ?_
  rw [show 12 * u * S = 12 * S * u by ring]
  refine mul_le_mul_of_nonneg_right ?_ h0.le
  linarith

/-- The bilinear formula. -/
theorem bilinR_err {f : FP} {u : ℚ} (h : f.Laws u) (hu : u ≤ 1 / 1024) (h0 : 0 < u) (left : Bool)
    {x1 x2 y1 y2 x y : ℚ} (hx : x1 < x2) (hy : y1 < y2) (hx1 : x1 ≤ x) (hx2 : x ≤ x2) (hy1 : y1 ≤ y) (hy2 : y ≤ y2)
    (v11 v12 v21 v22 : ℚ) :
    |bilinR f left x1 x2 y1 y2 v11 v12 v21 v22 x y - bilin x1 x2 y1 y2 v11 v12 v21 v22 x y| ≤
      12 * u * bilin x1 x2 y1 y2 |v11| |v12| |v21| |v22| x y := by
  have dx : 0 < x2 - x1 := sub_pos.mpr hx
  have dy : 0 < y2 - y1 := sub_pos.mpr hy
  have a := quot_err h hu h0 dx dy (numer_err h hu h0 left v11 v12 v21 v22 (sub_nonneg.mpr hx1) (sub_nonneg.mpr hx2)
    (sub_nonneg.mpr hy1) (sub_nonneg.mpr hy2))
  rw [← bilin_sum hx hy, ← bilin_sum hx hy] at a
  have D := mul_pos dx dy
  unfold bilinR
  dsimp only
  generalize f.fl _ = r at *
  rw [← sub_mul, abs_mul, abs_of_pos D, ← mul_assoc (12 * u)] at a
  exact le_of_mul_le_mul_right a D

/-- The weight of the right end of a cell, and that of the left end. -/
theorem weight_err {f : FP} {u : ℚ} (h : f.Laws u) (hu : u ≤ 1 / 1024) (h0 : 0 < u) {x1 x2 x : ℚ} (hx : x1 < x2)
    (hx1 : x1 ≤ x) (hx2 : x ≤ x2) :
    Ap u ((x - x1) / (x2 - x1)) (41 / 10) (f.fl (f.fl (x - x1) / f.fl (x2 - x1))) ((x - x1) / (x2 - x1)) ∧
    Ap u (1 - (x - x1) / (x2 - x1)) (41 / 10) (f.fl (1 - f.fl (f.fl (x - x1) / f.fl (x2 - x1))))
      (1 - (x - x1) / (x2 - x1)) := by
  have d : 0 < x2 - x1 := sub_pos.mpr hx
  have d1 : 0 ≤ x - x1 := sub_nonneg.mpr hx1
  have t0 : 0 ≤ (x - x1) / (x2 - x1) := div_nonneg d1 d.le
  have t1 : (x - x1) / (x2 - x1) ≤ 1 := by rw [div_le_one d]; linarith
  have a := ((Ap.ofFl h d1).div_fl h hu h0 d.ne' (M := 301 / 100 * (x - x1)) (by linarith)).smul
    (show 0 ≤ 1 / (x2 - x1) by positivity)
  have e : 1 / (x2 - x1) * (f.fl (f.fl (x - x1) / f.fl (x2 - x1)) * (x2 - x1)) =
      f.fl (f.fl (x - x1) / f.fl (x2 - x1)) := by field_simp
  rw [e, show 1 / (x2 - x1) * (301 / 100 * (x - x1)) = 301 / 100 * ((x - x1) / (x2 - x1)) by ring,
    show 1 / (x2 - x1) * (x - x1) = (x - x1) / (x2 - x1) by ring] at a
  generalize (x - x1) / (x2 - x1) = t at *
  generalize f.fl (f.fl (x - x1) / f.fl (x2 - x1)) = w at *
  refine ⟨a.weaken h0.le le_rfl (by linarith), ?_⟩
  have b : Ap u (1 - t) (301 / 100 * t) (1 - w) (1 - t) := by
    refine ⟨(abs_of_nonneg (by linarith)).le, ?_⟩
    rw [show 1 - w - (1 - t) = -(w - t) by ring, abs_neg]
    exact a.2
  exact (b.fl h hu).weaken h0.le le_rfl (by linarith)

/-- One linear step between two values known up to `K` rounding units. -/
theorem step_err {f : FP} {u : ℚ} (h : f.Laws u) (hu : u ≤ 1 / 1024) (h0 : 0 < u) (left : Bool)
    {V K a₁ a₀ b₁ b₀ s₁ t₁ t : ℚ} (a : Ap u V K a₁ a₀) (b : Ap u V K b₁ b₀) (ws : Ap u (1 - t) (41 / 10) s₁ (1 - t))
    (wt : Ap u t (41 / 10) t₁ t) :
    Ap u V (101 / 100 * K + 11 * V) (twoR f left a₁ s₁ b₁ t₁) (a₀ + (b₀ - a₀) * t) := by
  have V0 : 0 ≤ V := (abs_nonneg _).trans a.1
  have K0 : 0 ≤ K := nonneg_of_mul_nonneg_left a.K_nonneg h0
  have r := Ap.two h hu h0 left a ws b wt (M := 101 / 100 * K + 11 * V) (by linarith)
  rw [show a₀ * (1 - t) + b₀ * t = a₀ + (b₀ - a₀) * t by ring] at r
  exact r.weaken h0.le (by linarith) le_rfl

/-- The trilinear formula. -/
theorem trilinR_err {f : FP} {u : ℚ} (h : f.Laws u) (hu : u ≤ 1 / 1024) (h0 : 0 < u) (left : Bool)
    {x1 x2 y1 y2 z1 z2 x y z : ℚ} (hx : x1 < x2) (hy : y1 < y2) (hz : z1 < z2) (hx1 : x1 ≤ x) (hx2 : x ≤ x2)
    (hy1 : y1 ≤ y) (hy2 : y ≤ y2) (hz1 : z1 ≤ z) (hz2 : z ≤ z2) (v111 v112 v121 v122 v211 v212 v221 v222 V : ℚ)
    (b1 : |v111| ≤ V) (b2 : |v112| ≤ V) (b3 : |v121| ≤ V) (b4 : |v122| ≤ V) (b5 : |v211| ≤ V) (b6 : |v212| ≤ V)
    (b7 : |v221| ≤ V) (b8 : |v222| ≤ V) :
    |trilinR f left x1 x2 y1 y2 z1 z2 v111 v112 v121 v122 v211 v212 v221 v222 x y z -
      trilin x1 x2 y1 y2 z1 z2 v111 v112 v121 v122 v211 v212 v221 v222 x y z| ≤ 34 * u * V := by
  have V0 : 0 ≤ V := (abs_nonneg _).trans b1
  have w : ∀ {v}, |v| ≤ V → Ap u V 0 v v := fun {v} hv => ⟨hv, by simp⟩
  obtain ⟨wx, wx'⟩ := weight_err h hu h0 hx hx1 hx2
  obtain ⟨wy, wy'⟩ := weight_err h hu h0 hy hy1 hy2
  obtain ⟨wz, wz'⟩ := weight_err h hu h0 hz hz1 hz2
  have c11 := step_err h hu h0 left (w b1) (w b5) wx' wx
  have c21 := step_err h hu h0 left (w b3) (w b7) wx' wx
  have c12 := step_err h hu h0 left (w b2) (w b6) wx' wx
  have c22 := step_err h hu h0 left (w b4) (w b8) wx' wx
  have c1 := step_err h hu h0 left c11 c21 wy' wy
  have c2 := step_err h hu h0 left c12 c22 wy' wy
  have c := (step_err h hu h0 left c1 c2 wz' wz).2
  refine c.trans ?_
  rw [show 34 * u * V = 34 * V * u by ring]
  refine mul_le_mul_of_nonneg_right ?_ h0.le
  linarith

theorem bind_none_of {α β : Type} {o : Option α} (h : o = none) (k : α → Option β) : (o >>= k) = none := by
  rw [h]; rfl

theorem bind_none_after {α β : Type} {o : Option α} {k : α → Option β} (h : ∀ a, k a = none) : (o >>= k) = none := by
  cases o
  · rfl
  · exact h _

/-! ## The interpolators -/

/-- **C153.** Bilinear interpolation in a table with strictly increasing grid lines, with rounding of every operation and
any choice of fused products: points outside the grid are refused; for every other point the answer is off the bilinear
interpolant of the corners of a cell around the point by at most `12u` times the interpolant of their absolute values. -/
theorem C153_bilinear {f : FP} {u : ℚ} (h : f.Laws u) (hu : u ≤ 1 / 1024) (h0 : 0 < u) (left : Bool) (xs ys vals : List ℚ)
    (hnx : 2 ≤ xs.length) (hny : 2 ≤ ys.length) (hmx : xs.Pairwise (· < ·)) (hmy : ys.Pairwise (· < ·))
    (hl : vals.length = xs.length * ys.length) :
    ∃ bi, newBiLinearR f xs ys vals = some bi ∧ ∀ x y,
      (((∀ a ∈ xs, x < a) ∨ (∀ a ∈ xs, a < x)) ∨ ((∀ a ∈ ys, y < a) ∨ (∀ a ∈ ys, a < y)) → bi.evalR f left x y = none) ∧
      ((∃ a ∈ xs, a ≤ x) → (∃ a ∈ xs, x ≤ a) → (∃ a ∈ ys, a ≤ y) → (∃ a ∈ ys, y ≤ a) →
        ∃ (i j : ℕ) (x1 x2 y1 y2 v11 v12 v21 v22 r : ℚ), xs[i]? = some x1 ∧ xs[i + 1]? = some x2 ∧ ys[j]? = some y1 ∧
          ys[j + 1]? = some y2 ∧ vals[i + xs.length * j]? = some v11 ∧ vals[i + xs.length * (j + 1)]? = some v12 ∧
          vals[i + 1 + xs.length * j]? = some v21 ∧ vals[i + 1 + xs.length * (j + 1)]? = some v22 ∧
          x1 ≤ x ∧ x ≤ x2 ∧ y1 ≤ y ∧ y ≤ y2 ∧ bi.evalR f left x y = some r ∧
          |r - bilin x1 x2 y1 y2 v11 v12 v21 v22 x y| ≤ 12 * u * bilin x1 x2 y1 y2 |v11| |v12| |v21| |v22| x y) := by
  obtain ⟨sx, ex, gx⟩ := table_gridR h xs hnx hmx
  obtain ⟨sy, ey, gy⟩ := table_gridR h ys hny hmy
  refine ⟨⟨sx, sy, vals, xs.length⟩, ?_, fun x y => ⟨?_, ?_⟩⟩
  · unfold newBiLinearR
    rw [ex, ey]
    simp only [bind, Option.bind_some]
    rw [if_neg (by omega)]
  · rintro (hx | hy)
    · unfold BiLinear.evalR
      simp only [gx.outside x ((range_ends hnx hmx x).2 hx), bind, Option.bind_none]
    · unfold BiLinear.evalR
      simp only [gy.outside y ((range_ends hny hmy y).2 hy), bind, Option.bind_none]
      cases sx.searchR f x <;> rfl
  · intro ha hb hc hd
    obtain ⟨lx, ux⟩ := (range_ends hnx hmx x).1 ha hb
    obtain ⟨ly, uy⟩ := (range_ends hny hmy y).1 hc hd
    obtain ⟨a, ea, ha, a1, a2⟩ := gx.inside x lx ux
    obtain ⟨b, eb, hb, b1, b2⟩ := gy.inside y ly uy
    have lt : ∀ {p q : ℕ}, p < xs.length → q < ys.length → p + xs.length * q < vals.length := by
      intro p q hp hq
      rw [hl]
      exact flat2_lt hp hq
    have rdv : ∀ p q : ℕ, p < xs.length → q < ys.length → ∀ u w : Int, u = p → w = q →
        rd vals (u + (xs.length : Int) * w) = some (vals.getD (p + xs.length * q) 0) := by
      intro p q hp hq u w hu hw
      subst hu hw
      have : (p : Int) + (xs.length : Int) * (q : Int) = ((p + xs.length * q : ℕ) : Int) := by push_cast; ring
      rw [this, rd_natCast]
      exact rd_getD (lt hp hq)
    have n1 : ¬ ((a : Int) + 1 = sx.n) := by rw [gx.num]; omega
    have n2 : ¬ ((b : Int) + 1 = sy.n) := by rw [gy.num]; omega
    refine ⟨a, b, xs.getD a 0, xs.getD (a + 1) 0, ys.getD b 0, ys.getD (b + 1) 0, vals.getD (a + xs.length * b) 0,
      vals.getD (a + xs.length * (b + 1)) 0, vals.getD (a + 1 + xs.length * b) 0, vals.getD (a + 1 + xs.length * (b + 1)) 0,
      _, rd_getD (by omega), rd_getD ha, rd_getD (by omega), rd_getD hb, rd_getD (lt (by omega) (by omega)),
      rd_getD (lt (by omega) hb), rd_getD (lt ha (by omega)), rd_getD (lt ha hb), a1, a2, b1, b2, ?_,
      bilinR_err h hu h0 left (gx.mono a (a + 1) (by omega) ha) (gy.mono b (b + 1) (by omega) hb) a1 a2 b1 b2 _ _ _ _⟩
    unfold BiLinear.evalR
    simp only [ea, eb, bind, Option.bind_some, if_neg n1, if_neg n2, gx.val a (by omega), valR_succ gx ha,
      gy.val b (by omega), valR_succ gy hb,
      rdv a b (by omega) (by omega) a b rfl rfl, rdv a (b + 1) (by omega) (by omega) a (b + 1) rfl (by omega),
      rdv (a + 1) b (by omega) (by omega) (a + 1) b (by omega) rfl,
      rdv (a + 1) (b + 1) (by omega) (by omega) (a + 1) (b + 1) (by omega) (by omega)]

theorem getD_step {xs : List ℚ} (hm : xs.Pairwise (· < ·)) {i : ℕ} (hi : i + 1 < xs.length) :
    xs.getD i 0 < xs.getD (i + 1) 0 := by
  have := List.pairwise_iff_getElem.mp hm i (i + 1) (by omega) hi (by omega)
  rw [getD_lt (by omega), getD_lt hi]
  exact this

/-- An entry within a cell is one of its ends. -/
theorem cell_end {xs : List ℚ} (hm : xs.Pairwise (· < ·)) {i a : ℕ} {x : ℚ} (hx : xs[i]? = some x)
    (ha : a + 1 < xs.length) (h1 : xs.getD a 0 ≤ x) (h2 : x ≤ xs.getD (a + 1) 0) : ∃ e < 2, i = a + e := by
  obtain ⟨hi, ex⟩ := List.getElem?_eq_some_iff.mp hx
  rw [getD_lt (by omega), ← ex] at h1
  rw [getD_lt ha, ← ex] at h2
  refine ⟨i - a, ?_, ?_⟩
  · by_contra hc
    have := List.pairwise_iff_getElem.mp hm (a + 1) i ha hi (by omega)
    linarith
  · by_contra hc
    have := List.pairwise_iff_getElem.mp hm i a hi (by omega) (by omega)
    linarith

theorem end_val {xs : List ℚ} {a e : ℕ} {x : ℚ} (he : e < 2) (hx : xs[a + e]? = some x) :
    x = if e = 0 then xs.getD a 0 else xs.getD (a + 1) 0 := by
  rcases (show e = 0 ∨ e = 1 by omega) with rfl | rfl
  · simp only [Nat.add_zero] at hx
    simp [hx]
  · simp [hx]

/-- The cell that `TriLinear.Eval` uses, and what it computes there, when the third grid is the second one. -/
theorem trilinear_cell {f : FP} {u : ℚ} (h : f.Laws u) (left : Bool)
    (xs ys vals : List ℚ) (hnx : 2 ≤ xs.length) (hny : 2 ≤ ys.length) (hmx : xs.Pairwise (· < ·))
    (hmy : ys.Pairwise (· < ·)) (hl : vals.length = xs.length * ys.length * ys.length) :
    ∃ tri, newTriLinearR f xs ys ys vals = some tri ∧ ∀ x y z,
      (((∀ a ∈ xs, x < a) ∨ (∀ a ∈ xs, a < x)) ∨ ((∀ a ∈ ys, y < a) ∨ (∀ a ∈ ys, a < y)) ∨
        ((∀ a ∈ ys, z < a) ∨ (∀ a ∈ ys, a < z)) → tri.evalR f left x y z = none) ∧
      ((∃ a ∈ xs, a ≤ x) → (∃ a ∈ xs, x ≤ a) → (∃ a ∈ ys, a ≤ y) → (∃ a ∈ ys, y ≤ a) →
        (∃ a ∈ ys, a ≤ z) → (∃ a ∈ ys, z ≤ a) →
        ∃ (i j k : ℕ) (v : ℕ → ℕ → ℕ → ℚ), i + 1 < xs.length ∧ j + 1 < ys.length ∧ k + 1 < ys.length ∧
          xs.getD i 0 ≤ x ∧ x ≤ xs.getD (i + 1) 0 ∧ ys.getD j 0 ≤ y ∧ y ≤ ys.getD (j + 1) 0 ∧
          ys.getD k 0 ≤ z ∧ z ≤ ys.getD (k + 1) 0 ∧
          (∀ a < 2, ∀ b < 2, ∀ c < 2,
            vals[i + a + xs.length * (j + b) + xs.length * ys.length * (k + c)]? = some (v a b c)) ∧
          tri.evalR f left x y z = some (trilinR f left (xs.getD i 0) (xs.getD (i + 1) 0) (ys.getD j 0) (ys.getD (j + 1) 0)
            (ys.getD k 0) (ys.getD (k + 1) 0) (v 0 0 0) (v 0 0 1) (v 0 1 0) (v 0 1 1) (v 1 0 0) (v 1 0 1) (v 1 1 0)
            (v 1 1 1) x y z)) := by
  obtain ⟨sx, ex, gx⟩ := table_gridR h xs hnx hmx
  obtain ⟨sy, ey, gy⟩ := table_gridR h ys hny hmy
  refine ⟨⟨sx, sy, sy, vals, xs.length, ys.length⟩, ?_, fun x y z => ⟨?_, ?_⟩⟩
  · unfold newTriLinearR
    rw [ex, ey]
    simp only [bind, Option.bind_some]
    rw [if_neg (by omega)]
  · rintro (hx | hy | hz)
    · unfold TriLinear.evalR
      exact bind_none_of (gx.outside x ((range_ends hnx hmx x).2 hx)) _
    · unfold TriLinear.evalR
      refine bind_none_after fun _ => ?_
      exact bind_none_of (gy.outside y ((range_ends hny hmy y).2 hy)) _
    · unfold TriLinear.evalR
      refine bind_none_after fun _ => ?_
      refine bind_none_after fun _ => ?_
      exact bind_none_of (gy.outside z ((range_ends hny hmy z).2 hz)) _
  · intro ha hb hc hd he hf
    obtain ⟨lx, ux⟩ := (range_ends hnx hmx x).1 ha hb
    obtain ⟨ly, uy⟩ := (range_ends hny hmy y).1 hc hd
    obtain ⟨lz, uz⟩ := (range_ends hny hmy z).1 he hf
    obtain ⟨a, ea, ha, a1, a2⟩ := gx.inside x lx ux
    obtain ⟨b, eb, hb, b1, b2⟩ := gy.inside y ly uy
    obtain ⟨c, ec, hc, c1, c2⟩ := gy.inside z lz uz
    obtain ⟨v, hv⟩ : ∃ v : ℕ → ℕ → ℕ → ℚ,
        v = fun p q r => vals.getD (a + p + xs.length * (b + q) + xs.length * ys.length * (c + r)) 0 := ⟨_, rfl⟩
    have gv : ∀ p < 2, ∀ q < 2, ∀ r < 2,
        vals[a + p + xs.length * (b + q) + xs.length * ys.length * (c + r)]? = some (v p q r) := by
      intro p hp q hq r hr
      rw [hv]
      refine rd_getD ?_
      rw [hl]
      exact flat3_lt (by omega) (by omega) (by omega)
    have rdv : ∀ p < 2, ∀ q < 2, ∀ r < 2, ∀ w : Int,
        w = ((a + p + xs.length * (b + q) + xs.length * ys.length * (c + r) : ℕ) : Int) → rd vals w = some (v p q r) := by
      intro p hp q hq r hr w hw
      rw [hw, rd_natCast, gv p hp q hq r hr]
    refine ⟨a, b, c, v, ha, hb, hc, a1, a2, b1, b2, c1, c2, gv, ?_⟩
    have r1 := rdv 0 (by omega) 0 (by omega) 0 (by omega)
      ((a : Int) + b * xs.length + c * ys.length * xs.length + 0 + 0 + 0) (by push_cast; ring)
    have r2 := rdv 0 (by omega) 0 (by omega) 1 (by omega)
      ((a : Int) + b * xs.length + c * ys.length * xs.length + 0 + 0 + (xs.length : Int) * ys.length) (by push_cast; ring)
    have r3 := rdv 0 (by omega) 1 (by omega) 0 (by omega)
      ((a : Int) + b * xs.length + c * ys.length * xs.length + 0 + xs.length + 0) (by push_cast; ring)
    have r4 := rdv 0 (by omega) 1 (by omega) 1 (by omega)
      ((a : Int) + b * xs.length + c * ys.length * xs.length + 0 + xs.length + (xs.length : Int) * ys.length)
      (by push_cast; ring)
    have r5 := rdv 1 (by omega) 0 (by omega) 0 (by omega)
      ((a : Int) + b * xs.length + c * ys.length * xs.length + 1 + 0 + 0) (by push_cast; ring)
    have r6 := rdv 1 (by omega) 0 (by omega) 1 (by omega)
      ((a : Int) + b * xs.length + c * ys.length * xs.length + 1 + 0 + (xs.length : Int) * ys.length) (by push_cast; ring)
    have r7 := rdv 1 (by omega) 1 (by omega) 0 (by omega)
      ((a : Int) + b * xs.length + c * ys.length * xs.length + 1 + xs.length + 0) (by push_cast; ring)
    have r8 := rdv 1 (by omega) 1 (by omega) 1 (by omega)
      ((a : Int) + b * xs.length + c * ys.length * xs.length + 1 + xs.length + (xs.length : Int) * ys.length)
      (by push_cast; ring)
    unfold TriLinear.evalR
    refine bind_of ea ?_
    refine bind_of eb ?_
    refine bind_of ec ?_
    refine bind_of r1 ?_
    refine bind_of r2 ?_
    refine bind_of r3 ?_
    refine bind_of r4 ?_
    refine bind_of r5 ?_
    refine bind_of r6 ?_
    refine bind_of r7 ?_
    refine bind_of r8 ?_
    refine bind_of (gx.val a (by omega)) ?_
    refine bind_of (valR_succ gx ha) ?_
    refine bind_of (gy.val b (by omega)) ?_
    refine bind_of (valR_succ gy hb) ?_
    refine bind_of (gy.val c (by omega)) ?_
    refine bind_of (valR_succ gy hc) ?_
    rfl

/-- **C153.** Trilinear interpolation in a table whose `z` lines are its `y` lines, with rounding: points outside the grid
are refused; for every other point the answer is off the trilinear interpolant of the corners of a cell around the point
by at most `34u` times the largest absolute value at the corners. Missing: other `z` lines, for which `Eval` is wrong
even without rounding (`C16_trilinear_counterexample`). -/
theorem C153_trilinear_partial {f : FP} {u : ℚ} (h : f.Laws u) (hu : u ≤ 1 / 1024) (h0 : 0 < u) (left : Bool)
    (xs ys vals : List ℚ) (hnx : 2 ≤ xs.length) (hny : 2 ≤ ys.length) (hmx : xs.Pairwise (· < ·))
    (hmy : ys.Pairwise (· < ·)) (hl : vals.length = xs.length * ys.length * ys.length) :
    ∃ tri, newTriLinearR f xs ys ys vals = some tri ∧ ∀ x y z,
      (((∀ a ∈ xs, x < a) ∨ (∀ a ∈ xs, a < x)) ∨ ((∀ a ∈ ys, y < a) ∨ (∀ a ∈ ys, a < y)) ∨
        ((∀ a ∈ ys, z < a) ∨ (∀ a ∈ ys, a < z)) → tri.evalR f left x y z = none) ∧
      ((∃ a ∈ xs, a ≤ x) → (∃ a ∈ xs, x ≤ a) → (∃ a ∈ ys, a ≤ y) → (∃ a ∈ ys, y ≤ a) →
        (∃ a ∈ ys, a ≤ z) → (∃ a ∈ ys, z ≤ a) →
        ∃ (i j k : ℕ) (x1 x2 y1 y2 z1 z2 : ℚ) (v : ℕ → ℕ → ℕ → ℚ) (r : ℚ), xs[i]? = some x1 ∧ xs[i + 1]? = some x2 ∧
          ys[j]? = some y1 ∧ ys[j + 1]? = some y2 ∧ ys[k]? = some z1 ∧ ys[k + 1]? = some z2 ∧
          (∀ a < 2, ∀ b < 2, ∀ c < 2,
            vals[i + a + xs.length * (j + b) + xs.length * ys.length * (k + c)]? = some (v a b c)) ∧
          x1 ≤ x ∧ x ≤ x2 ∧ y1 ≤ y ∧ y ≤ y2 ∧ z1 ≤ z ∧ z ≤ z2 ∧ tri.evalR f left x y z = some r ∧
          ∀ V, (∀ a < 2, ∀ b < 2, ∀ c < 2, |v a b c| ≤ V) →
            |r - trilin x1 x2 y1 y2 z1 z2 (v 0 0 0) (v 0 0 1) (v 0 1 0) (v 0 1 1) (v 1 0 0) (v 1 0 1) (v 1 1 0) (v 1 1 1)
              x y z| ≤ 34 * u * V) := by
  obtain ⟨tri, e, H⟩ := trilinear_cell h left xs ys vals hnx hny hmx hmy hl
  refine ⟨tri, e, fun x y z => ⟨(H x y z).1, fun p1 p2 p3 p4 p5 p6 => ?_⟩⟩
  obtain ⟨a, b, c, v, ha, hb, hc, a1, a2, b1, b2, c1, c2, gv, er⟩ := (H x y z).2 p1 p2 p3 p4 p5 p6
  refine ⟨a, b, c, xs.getD a 0, xs.getD (a + 1) 0, ys.getD b 0, ys.getD (b + 1) 0, ys.getD c 0, ys.getD (c + 1) 0, v,
    _, rd_getD (by omega), rd_getD ha, rd_getD (by omega), rd_getD hb, rd_getD (by omega), rd_getD hc, gv, a1, a2, b1, b2,
    c1, c2, er, fun V hV => trilinR_err h hu h0 left (getD_step hmx ha) (getD_step hmy hb)
      (getD_step hmy hc) a1 a2 b1 b2 c1 c2 _ _ _ _ _ _ _ _ V (hV 0 (by omega) 0 (by omega) 0 (by omega))
      (hV 0 (by omega) 0 (by omega) 1 (by omega)) (hV 0 (by omega) 1 (by omega) 0 (by omega))
      (hV 0 (by omega) 1 (by omega) 1 (by omega)) (hV 1 (by omega) 0 (by omega) 0 (by omega))
      (hV 1 (by omega) 0 (by omega) 1 (by omega)) (hV 1 (by omega) 1 (by omega) 0 (by omega))
      (hV 1 (by omega) 1 (by omega) 1 (by omega))⟩

/-! ### Grid points -/

/-- The computed weights at the ends of a cell are exactly 0 and 1. -/
theorem weight_end {p : ℕ} (hp : 0 < p) {x1 x2 : ℚ} (h : x1 < x2) (e : ℕ) (he : e < 2) :
    rnd p (rnd p ((if e = 0 then x1 else x2) - x1) / rnd p (x2 - x1)) = e := by
  have d := rnd_pos hp (sub_pos.mpr h)
  rcases (show e = 0 ∨ e = 1 by omega) with rfl | rfl
  · simp [rnd_zero]
  · simp only [Nat.one_ne_zero, if_false, Nat.cast_one]
    rw [div_self d.ne', rnd_of_rep (rep_one hp)]

theorem weight_other {p : ℕ} (hp : 0 < p) (e : ℕ) (he : e < 2) : rnd p (1 - (e : ℚ)) = ((1 - e : ℕ) : ℚ) := by
  rcases (show e = 0 ∨ e = 1 by omega) with rfl | rfl
  · simp [rnd_of_rep (rep_one hp)]
  · simp [rnd_zero]

/-- A step with weights 0 and 1 picks one of the two values. -/
theorem twoR_end {p : ℕ} (fused left : Bool) (v : ℕ → ℚ) (h0 : Rep p (v 0)) (h1 : Rep p (v 1)) (e : ℕ) (he : e < 2) :
    twoR (fp p fused) left (v 0) ((1 - e : ℕ) : ℚ) (v 1) (e : ℚ) = v e := by
  rcases (show e = 0 ∨ e = 1 by omega) with rfl | rfl <;> cases left <;> cases fused <;>
    simp [twoR, fp, mulAdd, rnd_zero, rnd_of_rep h0, rnd_of_rep h1]

/-- **C153.** At a grid point the trilinear interpolator returns exactly the value of the table, for values that are
numbers of `p` bits, fused or not. Missing: `z` lines other than the `y` lines, as above. -/
theorem C153_trilinear_nodes_partial {p : ℕ} (hp : 0 < p) (fused left : Bool)
    (xs ys vals : List ℚ) (hnx : 2 ≤ xs.length) (hny : 2 ≤ ys.length) (hmx : xs.Pairwise (· < ·))
    (hmy : ys.Pairwise (· < ·)) (hl : vals.length = xs.length * ys.length * ys.length) (hr : ∀ v ∈ vals, Rep p v) :
    ∃ tri, newTriLinearR (fp p fused) xs ys ys vals = some tri ∧
      ∀ (i j k : ℕ) (x y z v : ℚ), xs[i]? = some x → ys[j]? = some y → ys[k]? = some z →
        vals[i + xs.length * j + xs.length * ys.length * k]? = some v → tri.evalR (fp p fused) left x y z = some v := by
  obtain ⟨tri, e, H⟩ := trilinear_cell (fp_laws hp fused) left xs ys vals hnx hny hmx hmy hl
  refine ⟨tri, e, fun i j k x y z w hx hy hz hw => ?_⟩
  have mx := List.mem_of_getElem? hx
  have my := List.mem_of_getElem? hy
  have mz := List.mem_of_getElem? hz
  obtain ⟨a, b, c, v, ha, hb, hc, a1, a2, b1, b2, c1, c2, gv, er⟩ :=
    (H x y z).2 ⟨x, mx, le_rfl⟩ ⟨x, mx, le_rfl⟩ ⟨y, my, le_rfl⟩ ⟨y, my, le_rfl⟩ ⟨z, mz, le_rfl⟩ ⟨z, mz, le_rfl⟩
  obtain ⟨ei, hei, rfl⟩ := cell_end hmx hx ha a1 a2
  obtain ⟨ej, hej, rfl⟩ := cell_end hmy hy hb b1 b2
  obtain ⟨ek, hek, rfl⟩ := cell_end hmy hz hc c1 c2
  rw [er]
  have hv : v ei ej ek = w := by
    have := gv ei hei ej hej ek hek
    rw [hw] at this
    exact (Option.some.inj this).symm
  have rv : ∀ p' < 2, ∀ q < 2, ∀ r < 2, Rep p (v p' q r) := fun p' h1 q h2 r h3 =>
    hr _ (List.mem_of_getElem? (gv p' h1 q h2 r h3))
  have vx : x = if ei = 0 then xs.getD a 0 else xs.getD (a + 1) 0 := end_val hei hx
  have vy : y = if ej = 0 then ys.getD b 0 else ys.getD (b + 1) 0 := end_val hej hy
  have vz : z = if ek = 0 then ys.getD c 0 else ys.getD (c + 1) 0 := end_val hek hz
  refine congrArg some ?_
  unfold trilinR
  have wx := weight_end hp (getD_step hmx ha) ei hei
  have wy := weight_end hp (getD_step hmy hb) ej hej
  have wz := weight_end hp (getD_step hmy hc) ek hek
  rw [← vx] at wx
  rw [← vy] at wy
  rw [← vz] at wz
  have z0 : (0 : ℕ) < 2 := by omega
  have z1 : (1 : ℕ) < 2 := by omega
  have t1 : ∀ q < 2, ∀ r < 2, twoR (fp p fused) left (v 0 q r) ((1 - ei : ℕ) : ℚ) (v 1 q r) (ei : ℚ) = v ei q r :=
    fun q hq r hr => twoR_end fused left (fun s => v s q r) (rv 0 z0 q hq r hr) (rv 1 z1 q hq r hr) ei hei
  have t2 : ∀ r < 2, twoR (fp p fused) left (v ei 0 r) ((1 - ej : ℕ) : ℚ) (v ei 1 r) (ej : ℚ) = v ei ej r :=
    fun r hr => twoR_end fused left (fun s => v ei s r) (rv ei hei 0 z0 r hr) (rv ei hei 1 z1 r hr) ej hej
  have t3 : twoR (fp p fused) left (v ei ej 0) ((1 - ek : ℕ) : ℚ) (v ei ej 1) (ek : ℚ) = v ei ej ek :=
    twoR_end fused left (fun s => v ei ej s) (rv ei hei ej hej 0 z0) (rv ei hei ej hej 1 z1) ek hek
  have ef : (fp p fused).fl = rnd p := rfl
  simp only [ef, wx, wy, wz, weight_other hp ei hei, weight_other hp ej hej, weight_other hp ek hek]
  rw [t1 0 z0 0 z0, t1 1 z1 0 z0, t1 0 z0 1 z1, t1 1 z1 1 z1, t2 0 z0, t2 1 z1, t3, hv]

/-- **C153, counterexample.** Not so for the bilinear interpolator, fused or not: at a grid point of a table that has the
same value everywhere the answer is larger than all its values. -/
theorem C153_bilinear_nodes_counterexample (fused left : Bool) :
    ∃ bi r, newBiLinearR (fp 53 fused) [0, 53] [0, 11] (List.replicate 4 (15 * 2 ^ 40 + 1)) = some bi ∧
      bi.evalR (fp 53 fused) left 0 0 = some r ∧ 15 * 2 ^ 40 + 1 < r := by
  refine ⟨_, 15 * 2 ^ 40 + 1 + 1 / 2 ^ 9, rfl, ?_, by norm_num⟩
  cases fused <;> cases left <;> decide +kernel

/-- `float64` arithmetic: a table of six values, bilinear. -/
example : ∃ bi, newBiLinearR (fp 53 true) [0, 1, 4] [0, 2] [0, 1, 4, 10, 13, 22] = some bi ∧
    ∃ r, bi.evalR (fp 53 true) false (1 / 2) 1 = some r := by
  obtain ⟨bi, e, h⟩ := C153_bilinear (fp_laws (p := 53) (by norm_num) true) (by norm_num) (by norm_num) false
    [0, 1, 4] [0, 2] [0, 1, 4, 10, 13, 22] (by simp) (by simp) (by simp) (by simp) rfl
  refine ⟨bi, e, ?_⟩
  obtain ⟨i, j, x1, x2, y1, y2, v11, v12, v21, v22, r, -, -, -, -, -, -, -, -, -, -, -, -, er, -⟩ :=
    (h (1 / 2) 1).2 ⟨0, by simp⟩ ⟨1, by simp; norm_num⟩ ⟨0, by simp⟩ ⟨2, by simp⟩
  exact ⟨r, er⟩

example : ∃ tri, newTriLinearR (fp 53 true) [0, 3] [0, 7] [0, 7] [1, 2, 3, 4, 5, 6, 7, 8] = some tri ∧
    tri.evalR (fp 53 true) false 3 7 0 = some 4 ∧ tri.evalR (fp 53 true) false 4 7 0 = none := by
  refine ⟨_, rfl, ?_⟩
  decide +kernel

end Verif.Interp
