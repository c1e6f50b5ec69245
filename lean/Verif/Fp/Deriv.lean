import Verif.Fp.DerivModel
import Verif.Fp.Sample
import Verif.Fp.Pixels
import Verif.Render.Buffers

/-! # C148: means, derivatives and vector operators in machine arithmetic -/

set_option autoImplicit false

namespace Verif.Fp

open Verif.Go Verif.Geom Verif.Render

/-! ## Specification -/

/-- The centred difference quotient with all weights and values made positive. -/
def centredAbs (order : ℤ) (h : ℚ) (L : ℤ → ℚ) (i : ℤ) : ℚ :=
  if order = 2 then (|L (i + 1)| + |L (i - 1)|) / (2 * h)
  else (|L (i - 2)| + 8 * |L (i - 1)| + 8 * |L (i + 1)| + |L (i + 2)|) / (12 * h)

/-- The same for the one-sided difference quotient. -/
def oneSidedAbs (order : ℤ) (h : ℚ) (n : ℤ) (L : ℤ → ℚ) (i : ℤ) : ℚ :=
  if order = 2 then
    if i = 0 then (3 * |L 0| + 4 * |L 1| + |L 2|) / (2 * h)
    else if i = n - 1 then (3 * |L i| + 4 * |L (i - 1)| + |L (i - 2)|) / (2 * h)
    else centredAbs 2 h L i
  else
    if i = 0 then (25 * |L 0| + 48 * |L 1| + 36 * |L 2| + 16 * |L 3| + 3 * |L 4|) / (12 * h)
    else if i = 1 then (3 * |L 0| + 10 * |L 1| + 18 * |L 2| + 6 * |L 3| + |L 4|) / (12 * h)
    else if i = n - 2 then
      (3 * |L (i + 1)| + 10 * |L i| + 18 * |L (i - 1)| + 6 * |L (i - 2)| + |L (i - 3)|) / (12 * h)
    else if i = n - 1 then
      (25 * |L i| + 48 * |L (i - 1)| + 36 * |L (i - 2)| + 16 * |L (i - 3)| + 3 * |L (i - 4)|) / (12 * h)
    else centredAbs 4 h L i

/-- The same for the derivative of the property. -/
def absSpec (order : ℤ) (periodic : Prop) [Decidable periodic] (h : ℚ) (n : ℤ) (L : ℤ → ℚ) (i : ℤ) : ℚ :=
  if periodic then centredAbs order h (fun j => L (j % n)) i else oneSidedAbs order h n L i

/-- The size of the terms that make up the derivative at a cell: what rounding errors are compared to. -/
def absAt (g : GridLocation) (axis : ℤ) (opt : DerivOptions) (V : ℤ → ℤ → ℤ → ℚ) (x y z : ℤ) : ℚ :=
  absSpec opt.order (Wraps g axis opt) (g.boxWidth / g.cells) (widthOf g.toGrid axis) (along axis V x y z)
    (coordOf axis x y z)

/-! ## One stencil -/

theorem term32_err (b : Bool) (c v : ℚ) : |term32 b c v - c * v| ≤ 1 / 2 ^ 24 * |c * v| := by
  unfold term32
  cases b
  · have := f32_err (c * v)
    simp only [Bool.false_eq_true, if_false]
    linarith
  · rw [if_pos rfl, sub_self, abs_zero]
    positivity

theorem sum32_err (fused : ℕ → Bool) (ts : List (ℚ × ℚ)) : ∀ (k m : ℕ) (s S M : ℚ), 1 ≤ m → |S| ≤ M →
    |s - S| ≤ ((1 + 1 / 2 ^ 24) ^ m - 1) * M →
    |S + (ts.map fun t => t.1 * t.2).sum| ≤ M + (ts.map fun t => |t.1 * t.2|).sum ∧
    |sum32 fused k ts s - (S + (ts.map fun t => t.1 * t.2).sum)| ≤
      ((1 + 1 / 2 ^ 24) ^ (m + ts.length) - 1) * (M + (ts.map fun t => |t.1 * t.2|).sum) := by
  induction ts with
  | nil =>
    intro k m s S M hm hS hs
    simp only [sum32, List.map_nil, List.sum_nil, add_zero, List.length_nil]
    exact ⟨hS, hs⟩
  | cons t ts ih =>
    intro k m s S M hm hS hs
    have ht := term32_err (fused k) t.1 t.2
    set q := term32 (fused k) t.1 t.2 with hq
    have hr := f32_err (s + q)
    have hM : 0 ≤ M := (abs_nonneg _).trans hS
    have hu : (1 : ℚ) + 1 / 2 ^ 24 ≤ (1 + 1 / 2 ^ 24) ^ m := by
      calc (1 : ℚ) + 1 / 2 ^ 24 = (1 + 1 / 2 ^ 24) ^ 1 := (pow_one _).symm
        _ ≤ _ := pow_le_pow_right₀ (by norm_num) hm
    have h1 : |S + t.1 * t.2| ≤ M + |t.1 * t.2| := (abs_add_le _ _).trans (by linarith)
    have h2 : |f32 (s + q) - (S + t.1 * t.2)| ≤ ((1 + 1 / 2 ^ 24) ^ (m + 1) - 1) * (M + |t.1 * t.2|) := by
      have e1 : f32 (s + q) - (S + t.1 * t.2) = (f32 (s + q) - (s + q)) + ((s - S) + (q - t.1 * t.2)) := by ring
      have e2 : s + q = (S + t.1 * t.2) + ((s - S) + (q - t.1 * t.2)) := by ring
      have a1 := abs_add_le (f32 (s + q) - (s + q)) ((s - S) + (q - t.1 * t.2))
      have a2 := abs_add_le (S + t.1 * t.2) ((s - S) + (q - t.1 * t.2))
      have a3 := abs_add_le (s - S) (q - t.1 * t.2)
      rw [← e1] at a1
      rw [← e2] at a2
      rw [pow_succ]
      have hT : 0 ≤ |t.1 * t.2| := abs_nonneg _
      generalize |t.1 * t.2| = T at *
      generalize ((1 : ℚ) + 1 / 2 ^ 24) ^ m = g at *
      have h3 : 1 / 2 ^ 24 * T ≤ (g - 1) * T := mul_le_mul_of_nonneg_right (by linarith) hT
      nlinarith
    obtain ⟨i1, i2⟩ := ih (k + 1) (m + 1) (f32 (s + q)) (S + t.1 * t.2) (M + |t.1 * t.2|) (by omega) h1 h2
    rw [List.map_cons, List.map_cons, List.sum_cons, List.sum_cons, ← add_assoc, ← add_assoc, List.length_cons]
    refine ⟨i1, ?_⟩
    rw [show m + (ts.length + 1) = m + 1 + ts.length by omega]
    exact i2

/-- A quotient of nearly right numbers. -/
theorem quot32 {s S M d d' : ℚ} (hS : |S| ≤ M) (hs : |s - S| ≤ 51 / 10 / 2 ^ 24 * M) (hd : d' ≠ 0)
    (hdd : |d - d'| ≤ 11 / 10 / 2 ^ 24 * |d'|) : |f32 (s / d) - S / d'| ≤ 1 / 2 ^ 21 * (M / |d'|) := by
  have hd0 : 0 < |d'| := abs_pos.mpr hd
  have hdl : (1 - 11 / 10 / 2 ^ 24) * |d'| ≤ |d| := by
    have := abs_sub_abs_le_abs_sub d' d
    rw [abs_sub_comm] at this
    linarith
  have hdp : 0 < |d| := lt_of_lt_of_le (mul_pos (by norm_num) hd0) hdl
  have hdn : d ≠ 0 := abs_pos.mp hdp
  have hM : 0 ≤ M := (abs_nonneg _).trans hS
  have e : s / d - S / d' = ((s - S) * d' - S * (d - d')) / (d * d') := by
    field_simp
    ring
  have h1 : |s / d - S / d'| ≤ 63 / 10 / 2 ^ 24 * (M / |d'|) := by
    rw [e, abs_div, abs_mul, div_le_iff₀ (by positivity)]
    have a1 := abs_sub ((s - S) * d') (S * (d - d'))
    rw [abs_mul, abs_mul] at a1
    have a2 : |s - S| * |d'| ≤ 51 / 10 / 2 ^ 24 * M * |d'| := mul_le_mul_of_nonneg_right hs hd0.le
    have a3 : |S| * |d - d'| ≤ M * (11 / 10 / 2 ^ 24 * |d'|) := mul_le_mul hS hdd (abs_nonneg _) hM
    have a4 : 63 / 10 / 2 ^ 24 * (M / |d'|) * (|d| * |d'|) = 63 / 10 / 2 ^ 24 * M * |d| := by
      field_simp
    rw [a4]
    have a5 : 63 / 10 / 2 ^ 24 * M * ((1 - 11 / 10 / 2 ^ 24) * |d'|) ≤ 63 / 10 / 2 ^ 24 * M * |d| :=
      mul_le_mul_of_nonneg_left hdl (by positivity)
    have a6 : 0 ≤ M * |d'| := by positivity
    nlinarith
  have h2 := f32_err (s / d)
  have h3 : |S / d'| ≤ M / |d'| := by
    rw [abs_div]
    exact div_le_div_of_nonneg_right hS hd0.le
  have b1 := abs_add_le (f32 (s / d) - s / d) (s / d - S / d')
  rw [sub_add_sub_cancel] at b1
  have b2 := abs_add_le (s / d - S / d') (S / d')
  rw [sub_add_cancel] at b2
  have hX : 0 ≤ M / |d'| := by positivity
  generalize M / |d'| = X at *
  linarith

/-- A stencil of at most five terms. -/
theorem comb32_err (fusing : DFusing) (site : DerivSite) {ts : List (ℚ × ℚ)} (h5 : ts.length ≤ 5) {d d' : ℚ} (hd : d' ≠ 0)
    (hdd : |d - d'| ≤ 11 / 10 / 2 ^ 24 * |d'|) :
    |comb32 fusing site ts d - (ts.map fun t => t.1 * t.2).sum / d'| ≤
      1 / 2 ^ 21 * ((ts.map fun t => |t.1 * t.2|).sum / |d'|) := by
  cases ts with
  | nil => simp [comb32]
  | cons t ts =>
    rw [List.length_cons] at h5
    obtain ⟨a, b⟩ := sum32_err (fusing site) ts 1 1 (term32 (fusing site 0) t.1 t.2) (t.1 * t.2) |t.1 * t.2| le_rfl le_rfl
      (by
        have := term32_err (fusing site 0) t.1 t.2
        rw [pow_one]
        linarith)
    simp only [comb32, List.map_cons, List.sum_cons]
    refine quot32 a (b.trans ?_) hd hdd
    refine mul_le_mul_of_nonneg_right ?_ ((abs_nonneg _).trans a)
    have : ((1 : ℚ) + 1 / 2 ^ 24) ^ (1 + ts.length) ≤ (1 + 1 / 2 ^ 24) ^ 5 := pow_le_pow_right₀ (by norm_num) (by omega)
    refine (sub_le_sub_right this 1).trans ?_
    norm_num

theorem denom32_rel {L : ℚ} {cells : ℤ} (hL : 0 < L) (h0 : 0 < cells) (h1 : cells ≤ 2 ^ 53) (order : ℤ) :
    0 < exactD.denom order L cells ∧
    |denom32 order L cells - exactD.denom order L cells| ≤ 11 / 10 / 2 ^ 24 * |exactD.denom order L cells| := by
  obtain ⟨hp, hr⟩ := cellWidth_rel hL h0 h1
  have hk : ∃ k : ℚ, 0 < k ∧ exactD.denom order L cells = L / cells * k ∧
      denom32 order L cells = f32 (f64 (f64 (L / f64 cells) * k)) := by
    unfold denom32 exactD
    by_cases h : order = 2
    · exact ⟨2, by norm_num, by simp [h], by simp [h]⟩
    · exact ⟨12, by norm_num, by simp [h], by simp [h]⟩
  obtain ⟨k, k0, e1, e2⟩ := hk
  rw [e1, e2]
  generalize f64 (L / f64 cells) = dx at *
  generalize L / (cells : ℚ) = D at *
  have hX : 0 < D * k := mul_pos hp k0
  refine ⟨hX, ?_⟩
  have a1 : |dx * k - D * k| ≤ D * k / 2 ^ 53 := by
    rw [← sub_mul, abs_mul, abs_of_pos k0]
    calc |dx - D| * k ≤ D / 2 ^ 53 * k := mul_le_mul_of_nonneg_right hr k0.le
      _ = _ := by ring
  have a2 := f64_err (dx * k)
  have a3 := f32_err (f64 (dx * k))
  rw [abs_of_pos hX]
  generalize f64 (dx * k) = y at *
  generalize f32 y = r at *
  generalize dx * k = x at *
  generalize D * k = X at *
  have b1 := abs_add_le (r - y) (y - x + (x - X))
  have b2 := abs_add_le (y - x) (x - X)
  have b3 := abs_add_le (y - x + (x - X)) X
  have b4 := abs_add_le (x - X) X
  rw [show r - y + (y - x + (x - X)) = r - X by ring] at b1
  rw [show y - x + (x - X) + X = y by ring] at b3
  rw [sub_add_cancel] at b4
  rw [abs_of_pos hX] at b3 b4
  linarith

/-- The terms with all signs positive. -/
def absD : DArith where
  comb _ ts d := (ts.map fun t => |t.1 * t.2|).sum / |d|
  denom := exactD.denom
  add a _ := a
  sub a _ := a

theorem absD_exact {order : ℤ} (ho : order = 2 ∨ order = 4) (P : Prop) [Decidable P] {L : ℚ} {cells : ℤ}
    (hp : 0 < L / cells) {n i : ℤ} (hn : ¬ P → order + 1 ≤ n) (F : ℤ → ℚ) (h0 : 0 ≤ i) (h1 : i < n) :
    stencilValue absD order P (exactD.denom order L cells) n F i = absSpec order P (L / cells) n F i := by
  have hc : ∀ (site : DerivSite) (F : ℤ → ℚ), absD.comb site (centredTerms order F i) (exactD.denom order L cells) =
      centredAbs order (L / cells) F i := by
    intro site F
    rcases ho with rfl | rfl
    · simp only [absD, centredTerms, centredAbs, exactD, if_true, List.map_cons, List.map_nil, List.sum_cons,
        List.sum_nil, abs_mul, abs_of_pos hp]
      norm_num
      ring
    · simp only [absD, centredTerms, centredAbs, exactD, List.map_cons, List.map_nil, List.sum_cons,
        List.sum_nil, abs_mul, abs_of_pos hp]
      norm_num [abs_mul, abs_of_pos hp]
      ring
  unfold stencilValue
  have hin' : (order / 2 ≤ i ∧ i < n - order / 2) → absSpec order P (L / cells) n F i = centredAbs order (L / cells) F i := by
    rintro ⟨a, b⟩
    unfold absSpec
    split
    · rcases ho with rfl | rfl
      · norm_num at a b
        simp only [centredAbs, if_pos]
        rw [Int.emod_eq_of_lt (by omega) (by omega), Int.emod_eq_of_lt (by omega) (by omega)]
      · norm_num at a b
        simp only [centredAbs]
        rw [Int.emod_eq_of_lt (by omega) (by omega), Int.emod_eq_of_lt (by omega) (by omega),
          Int.emod_eq_of_lt (by omega) (by omega), Int.emod_eq_of_lt (by omega) (by omega)]
    · rcases ho with rfl | rfl
      · norm_num at a b
        unfold oneSidedAbs
        rw [if_pos rfl, if_neg (by omega), if_neg (by omega)]
      · norm_num at a b
        unfold oneSidedAbs
        rw [if_neg (by norm_num), if_neg (by omega), if_neg (by omega), if_neg (by omega), if_neg (by omega)]
  by_cases hin : order / 2 ≤ i ∧ i < n - order / 2
  · rw [if_pos hin, hc, hin' hin]
  rw [if_neg hin]
  unfold absSpec
  by_cases hP : P
  · rw [if_pos hP, if_pos hP, hc]
  rw [if_neg hP, if_neg hP]
  have hn := hn hP
  have fin : ∀ (ts : List (ℚ × ℚ)) (k : ℚ) (site : DerivSite), 0 < k →
      absD.comb site ts (L / cells * k) = (ts.map fun t => |t.1| * |t.2|).sum / (k * (L / cells)) ∧
      absD.comb site ts (-(L / cells * k)) = (ts.map fun t => |t.1| * |t.2|).sum / (k * (L / cells)) := by
    intro ts k site hk
    simp only [absD, abs_mul, abs_neg, abs_of_pos hp, abs_of_pos hk, mul_comm k, and_self]
  rcases ho with rfl | rfl
  · norm_num at hin hn
    rw [show exactD.denom 2 L cells = L / cells * 2 by simp [exactD]]
    unfold edgeValue oneSidedAbs
    rw [if_pos rfl, if_pos rfl]
    split_ifs with a b
    · rw [(fin _ 2 _ (by norm_num)).1]; norm_num; ring
    · rw [(fin _ 2 _ (by norm_num)).2]; norm_num; ring
    · omega
  · norm_num at hin hn
    rw [show exactD.denom 4 L cells = L / cells * 12 by simp [exactD]]
    unfold edgeValue oneSidedAbs
    rw [if_neg (show ¬ (4 : ℤ) = 2 by norm_num), if_neg (show ¬ (4 : ℤ) = 2 by norm_num)]
    split_ifs with a b c d
    · rw [(fin _ 12 _ (by norm_num)).1]; norm_num; ring
    · rw [(fin _ 12 _ (by norm_num)).1]; norm_num; ring
    · rw [(fin _ 12 _ (by norm_num)).2]; norm_num; ring
    · rw [(fin _ 12 _ (by norm_num)).2]; norm_num; ring
    · omega

/-- What the machine computes is near the stencil in exact arithmetic. -/
theorem stencil_err (fusing : DFusing) {order : ℤ} (P : Prop) [Decidable P] {L : ℚ}
    {cells : ℤ} (hL : 0 < L) (hc0 : 0 < cells) (hc1 : cells ≤ 2 ^ 53) (n i : ℤ) (F : ℤ → ℚ) :
    |stencilValue (machineD fusing) order P (denom32 order L cells) n F i -
        stencilValue exactD order P (exactD.denom order L cells) n F i| ≤
      1 / 2 ^ 21 * stencilValue absD order P (exactD.denom order L cells) n F i := by
  obtain ⟨h0, h1⟩ := denom32_rel hL hc0 hc1 order
  have key : ∀ (site : DerivSite) (ts : List (ℚ × ℚ)), ts.length ≤ 5 →
      |(machineD fusing).comb site ts (denom32 order L cells) - exactD.comb site ts (exactD.denom order L cells)| ≤
        1 / 2 ^ 21 * absD.comb site ts (exactD.denom order L cells) ∧
      |(machineD fusing).comb site ts (-denom32 order L cells) - exactD.comb site ts (-exactD.denom order L cells)| ≤
        1 / 2 ^ 21 * absD.comb site ts (-exactD.denom order L cells) := fun site ts h5 =>
    ⟨comb32_err fusing site h5 h0.ne' h1, comb32_err fusing site h5 (neg_ne_zero.mpr h0.ne') (by
      rw [abs_neg, neg_sub_neg, abs_sub_comm]
      exact h1)⟩
  have hlen : ∀ F, (centredTerms order F i).length ≤ 5 := by
    intro F
    unfold centredTerms
    split <;> simp
  unfold stencilValue
  split_ifs
  · exact (key _ _ (hlen _)).1
  · exact (key _ _ (hlen _)).1
  · unfold edgeValue
    split_ifs
    · exact (key _ _ (by simp)).1
    · exact (key _ _ (by simp)).2
    · exact (key _ _ (by simp)).1
    · exact (key _ _ (by simp)).1
    · exact (key _ _ (by simp)).2
    · exact (key _ _ (by simp)).2

/-! ## Fields that are nearly right -/

theorem centred_near {order : ℤ} {h ε : ℚ} (hh : 0 < h) {A B : ℤ → ℚ}
    (hL : ∀ j, |A j - B j| ≤ ε * |B j|) (i : ℤ) :
    |centred order h A i - centred order h B i| ≤ ε * centredAbs order h B i ∧
      centredAbs order h A i ≤ (1 + ε) * centredAbs order h B i := by
  have hA : ∀ j, |A j| ≤ (1 + ε) * |B j| := by
    intro j
    have := abs_add_le (A j - B j) (B j)
    rw [sub_add_cancel] at this
    linarith [hL j]
  unfold centred centredAbs
  split_ifs
  · have h2 : 0 < 2 * h := by positivity
    have a := abs_le.mp (hL (i + 1))
    have b := abs_le.mp (hL (i - 1))
    rw [← sub_div, abs_div, abs_of_pos h2, ← mul_div_assoc, ← mul_div_assoc]
    refine ⟨div_le_div_of_nonneg_right (abs_le.mpr ⟨by linarith, by linarith⟩) h2.le,
      div_le_div_of_nonneg_right (by linarith [hA (i + 1), hA (i - 1)]) h2.le⟩
  · have h2 : 0 < 12 * h := by positivity
    have a := abs_le.mp (hL (i + 1))
    have b := abs_le.mp (hL (i - 1))
    have c := abs_le.mp (hL (i + 2))
    have d := abs_le.mp (hL (i - 2))
    rw [← sub_div, abs_div, abs_of_pos h2, ← mul_div_assoc, ← mul_div_assoc]
    refine ⟨div_le_div_of_nonneg_right (abs_le.mpr ⟨by linarith, by linarith⟩) h2.le,
      div_le_div_of_nonneg_right (by linarith [hA (i + 1), hA (i - 1), hA (i + 2), hA (i - 2)]) h2.le⟩

theorem oneSided_near {order n : ℤ} {h ε : ℚ} (hh : 0 < h) {A B : ℤ → ℚ}
    (hL : ∀ j, |A j - B j| ≤ ε * |B j|) (i : ℤ) :
    |oneSided order h n A i - oneSided order h n B i| ≤ ε * oneSidedAbs order h n B i ∧
      oneSidedAbs order h n A i ≤ (1 + ε) * oneSidedAbs order h n B i := by
  have h2 : 0 < 2 * h := by positivity
  have h12 : 0 < 12 * h := by positivity
  have hA : ∀ j, |A j| ≤ (1 + ε) * |B j| := by
    intro j
    have := abs_add_le (A j - B j) (B j)
    rw [sub_add_cancel] at this
    linarith [hL j]
  unfold oneSided oneSidedAbs
  split_ifs
  · have q0 := abs_le.mp (hL (0))
    have q1 := abs_le.mp (hL (1))
    have q2 := abs_le.mp (hL (2))
    rw [← sub_div, abs_div, abs_of_pos h2, ← mul_div_assoc, ← mul_div_assoc]
    refine ⟨div_le_div_of_nonneg_right (abs_le.mpr ⟨by linarith, by linarith⟩) h2.le,
      div_le_div_of_nonneg_right (by linarith [hA (0), hA (1), hA (2)]) h2.le⟩
  · have q0 := abs_le.mp (hL (i))
    have q1 := abs_le.mp (hL (i - 1))
    have q2 := abs_le.mp (hL (i - 2))
    rw [← sub_div, abs_div, abs_of_pos h2, ← mul_div_assoc, ← mul_div_assoc]
    refine ⟨div_le_div_of_nonneg_right (abs_le.mpr ⟨by linarith, by linarith⟩) h2.le,
      div_le_div_of_nonneg_right (by linarith [hA (i), hA (i - 1), hA (i - 2)]) h2.le⟩
  · exact centred_near hh hL i
  · have q0 := abs_le.mp (hL (0))
    have q1 := abs_le.mp (hL (1))
    have q2 := abs_le.mp (hL (2))
    have q3 := abs_le.mp (hL (3))
    have q4 := abs_le.mp (hL (4))
    rw [← sub_div, abs_div, abs_of_pos h12, ← mul_div_assoc, ← mul_div_assoc]
    refine ⟨div_le_div_of_nonneg_right (abs_le.mpr ⟨by linarith, by linarith⟩) h12.le,
      div_le_div_of_nonneg_right (by linarith [hA (0), hA (1), hA (2), hA (3), hA (4)]) h12.le⟩
  · have q0 := abs_le.mp (hL (0))
    have q1 := abs_le.mp (hL (1))
    have q2 := abs_le.mp (hL (2))
    have q3 := abs_le.mp (hL (3))
    have q4 := abs_le.mp (hL (4))
    rw [← sub_div, abs_div, abs_of_pos h12, ← mul_div_assoc, ← mul_div_assoc]
    refine ⟨div_le_div_of_nonneg_right (abs_le.mpr ⟨by linarith, by linarith⟩) h12.le,
      div_le_div_of_nonneg_right (by linarith [hA (0), hA (1), hA (2), hA (3), hA (4)]) h12.le⟩
  · have q0 := abs_le.mp (hL (i + 1))
    have q1 := abs_le.mp (hL (i))
    have q2 := abs_le.mp (hL (i - 1))
    have q3 := abs_le.mp (hL (i - 2))
    have q4 := abs_le.mp (hL (i - 3))
    rw [← sub_div, abs_div, abs_of_pos h12, ← mul_div_assoc, ← mul_div_assoc]
    refine ⟨div_le_div_of_nonneg_right (abs_le.mpr ⟨by linarith, by linarith⟩) h12.le,
      div_le_div_of_nonneg_right (by linarith [hA (i + 1), hA (i), hA (i - 1), hA (i - 2), hA (i - 3)]) h12.le⟩
  · have q0 := abs_le.mp (hL (i))
    have q1 := abs_le.mp (hL (i - 1))
    have q2 := abs_le.mp (hL (i - 2))
    have q3 := abs_le.mp (hL (i - 3))
    have q4 := abs_le.mp (hL (i - 4))
    rw [← sub_div, abs_div, abs_of_pos h12, ← mul_div_assoc, ← mul_div_assoc]
    refine ⟨div_le_div_of_nonneg_right (abs_le.mpr ⟨by linarith, by linarith⟩) h12.le,
      div_le_div_of_nonneg_right (by linarith [hA (i), hA (i - 1), hA (i - 2), hA (i - 3), hA (i - 4)]) h12.le⟩
  · exact centred_near hh hL i

theorem derivSpec_near {order n : ℤ} (P : Prop) [Decidable P] {h ε : ℚ} (hh : 0 < h) {A B : ℤ → ℚ}
    (hL : ∀ j, |A j - B j| ≤ ε * |B j|) (i : ℤ) :
    |derivSpec order P h n A i - derivSpec order P h n B i| ≤ ε * absSpec order P h n B i ∧
      absSpec order P h n A i ≤ (1 + ε) * absSpec order P h n B i := by
  unfold derivSpec absSpec
  split_ifs
  · exact centred_near hh (fun j => hL (j % n)) i
  · exact oneSided_near hh hL i

theorem derivAt_near {g : GridLocation} {axis : ℤ} {opt : DerivOptions} {ε : ℚ} (hh : 0 < g.boxWidth / g.cells)
    {V W : ℤ → ℤ → ℤ → ℚ} (hV : ∀ x y z, |V x y z - W x y z| ≤ ε * |W x y z|) (x y z : ℤ) :
    |derivAt g axis opt V x y z - derivAt g axis opt W x y z| ≤ ε * absAt g axis opt W x y z ∧
      absAt g axis opt V x y z ≤ (1 + ε) * absAt g axis opt W x y z := by
  refine derivSpec_near _ hh (fun j => ?_) _
  unfold along
  split_ifs
  · exact hV _ _ _
  · exact hV _ _ _
  · exact hV _ _ _

/-- The terms are at least as large as their sum. -/
theorem derivAt_le {g : GridLocation} {axis : ℤ} {opt : DerivOptions} (hh : 0 < g.boxWidth / g.cells)
    (V : ℤ → ℤ → ℤ → ℚ) (x y z : ℤ) : |derivAt g axis opt V x y z| ≤ absAt g axis opt V x y z := by
  have h := (derivAt_near (g := g) (axis := axis) (opt := opt) (ε := 1) hh (V := fun _ _ _ => 0) (W := V)
    (fun x y z => by rw [zero_sub, abs_neg, one_mul]) x y z).1
  have h0 : derivAt g axis opt (fun _ _ _ => 0) x y z = 0 := by
    simp [derivAt, derivSpec, centred, oneSided, along]
  rw [h0, zero_sub, abs_neg, one_mul] at h
  exact h

/-- The stencil of the machine on a nearly right field. -/
theorem stencilAt_near (fusing : DFusing) {o w : IVec} {boxWidth : ℚ} {cells axis : ℤ}
    (ha : axis = 0 ∨ axis = 1 ∨ axis = 2) {opt : DerivOptions} (ho : opt.order = 2 ∨ opt.order = 4)
    (hw : WideEnough (newGridLocation o w boxWidth cells) axis opt) (hL : 0 < boxWidth) (hc0 : 0 < cells)
    (hc1 : cells ≤ 2 ^ 53) {V W : ℤ → ℤ → ℤ → ℚ} (hV : ∀ x y z, |V x y z - W x y z| ≤ 31 / 10 / 2 ^ 24 * |W x y z|)
    {x y z : ℤ} (hc : IsCell w x y z) :
    |stencilAt (machineD fusing) (newGridLocation o w boxWidth cells) axis opt V x y z -
        derivAt (newGridLocation o w boxWidth cells) axis opt W x y z| ≤
      112 / 10 / 2 ^ 24 * absAt (newGridLocation o w boxWidth cells) axis opt W x y z := by
  have hh : 0 < boxWidth / cells := div_pos hL (by exact_mod_cast hc0)
  have hr := coordOf_range (o := o) ha hc
  have h1 := stencil_err fusing (order := opt.order) (Wraps (newGridLocation o w boxWidth cells) axis opt) hL hc0 hc1
    (widthOf (newGridLocation o w boxWidth cells).toGrid axis) (coordOf axis x y z) (along axis V x y z)
  rw [absD_exact ho _ hh hw.2.2 _ hr.1 hr.2, stencilValue_exact ho _ _ _ hw.2.2 _ hr.1 hr.2] at h1
  obtain ⟨h2, h3⟩ := derivAt_near (g := newGridLocation o w boxWidth cells) (axis := axis) (opt := opt) hh hV x y z
  have h1 : |stencilAt (machineD fusing) (newGridLocation o w boxWidth cells) axis opt V x y z -
      derivAt (newGridLocation o w boxWidth cells) axis opt V x y z| ≤
      1 / 2 ^ 21 * absAt (newGridLocation o w boxWidth cells) axis opt V x y z := h1
  have h4 := (abs_nonneg _).trans (derivAt_le (g := newGridLocation o w boxWidth cells) (axis := axis) (opt := opt) hh W x y z)
  have a := abs_add_le (stencilAt (machineD fusing) (newGridLocation o w boxWidth cells) axis opt V x y z -
    derivAt (newGridLocation o w boxWidth cells) axis opt V x y z)
    (derivAt (newGridLocation o w boxWidth cells) axis opt V x y z - derivAt (newGridLocation o w boxWidth cells) axis opt W x y z)
  rw [sub_add_sub_cancel] at a
  linarith

/-- The stencil of the machine. -/
theorem stencilAt_err (fusing : DFusing) {o w : IVec} {boxWidth : ℚ} {cells axis : ℤ}
    (ha : axis = 0 ∨ axis = 1 ∨ axis = 2) {opt : DerivOptions} (ho : opt.order = 2 ∨ opt.order = 4)
    (hw : WideEnough (newGridLocation o w boxWidth cells) axis opt) (hL : 0 < boxWidth) (hc0 : 0 < cells)
    (hc1 : cells ≤ 2 ^ 53) (V : ℤ → ℤ → ℤ → ℚ) {x y z : ℤ} (hc : IsCell w x y z) :
    |stencilAt (machineD fusing) (newGridLocation o w boxWidth cells) axis opt V x y z -
        derivAt (newGridLocation o w boxWidth cells) axis opt V x y z| ≤
      absAt (newGridLocation o w boxWidth cells) axis opt V x y z / 2 ^ 21 := by
  have hh : 0 < boxWidth / cells := div_pos hL (by exact_mod_cast hc0)
  have hr := coordOf_range (o := o) ha hc
  have h1 := stencil_err fusing (order := opt.order) (Wraps (newGridLocation o w boxWidth cells) axis opt) hL hc0 hc1
    (widthOf (newGridLocation o w boxWidth cells).toGrid axis) (coordOf axis x y z) (along axis V x y z)
  rw [absD_exact ho _ hh hw.2.2 _ hr.1 hr.2, stencilValue_exact ho _ _ _ hw.2.2 _ hr.1 hr.2] at h1
  have h1 : |stencilAt (machineD fusing) (newGridLocation o w boxWidth cells) axis opt V x y z -
      derivAt (newGridLocation o w boxWidth cells) axis opt V x y z| ≤
      1 / 2 ^ 21 * absAt (newGridLocation o w boxWidth cells) axis opt V x y z := h1
  linarith

/-- Storing, adding or subtracting a nearly right number. -/
theorem ap_near (fusing : DFusing) (op : DerivOp) {F s D E : ℚ} (h : |s - D| ≤ E / 2 ^ 21) :
    |(machineD fusing).ap op F s - op.apply F D| ≤ E / 2 ^ 20 + |op.apply F D| / 2 ^ 24 ∧
      (op = .none → |(machineD fusing).ap op F s - op.apply F D| ≤ E / 2 ^ 21) := by
  have hE : 0 ≤ E := by
    have := (abs_nonneg _).trans h
    linarith
  cases op
  · refine ⟨?_, fun h => by cases h⟩
    show |f32 (F + s) - (F + D)| ≤ E / 2 ^ 20 + |F + D| / 2 ^ 24
    have a := f32_err (F + s)
    have b := abs_add_le (f32 (F + s) - (F + s)) (s - D)
    have c := abs_add_le (F + D) (s - D)
    rw [show f32 (F + s) - (F + s) + (s - D) = f32 (F + s) - (F + D) by ring] at b
    rw [show F + D + (s - D) = F + s by ring] at c
    linarith
  · refine ⟨?_, fun h => by cases h⟩
    show |f32 (F - s) - (F - D)| ≤ E / 2 ^ 20 + |F - D| / 2 ^ 24
    have a := f32_err (F - s)
    rw [abs_sub_comm] at h
    have b := abs_add_le (f32 (F - s) - (F - s)) (D - s)
    have c := abs_add_le (F - D) (D - s)
    rw [show f32 (F - s) - (F - s) + (D - s) = f32 (F - s) - (F - D) by ring] at b
    rw [show F - D + (D - s) = F - s by ring] at c
    linarith
  · refine ⟨?_, fun _ => h⟩
    show |s - D| ≤ E / 2 ^ 20 + |D| / 2 ^ 24
    have := abs_nonneg D
    linarith

/-! ## C148 -/

/-- In machine arithmetic too `Deriv` gives, along the first two axes, the derivative of the property C43 at every cell, up
to a rounding error of at most `2⁻²¹` of the sum of the sizes of the terms of the stencil; when the derivative is added to
or subtracted from what is there, twice that and the rounding of the result. Whatever the compiler fuses. Missing: the third
axis (whose faces are wrong, see C43), and grids that are too narrow. -/
theorem C148_deriv_partial (fusing : DFusing) (o w : IVec) (boxWidth : ℚ) (hL : 0 < boxWidth) (cells axis : ℤ)
    (hc0 : 0 < cells) (hc1 : cells ≤ 2 ^ 53) (ha : axis = 0 ∨ axis = 1)
    (opt : DerivOptions) (ho : opt.order = 2 ∨ opt.order = 4)
    (hw : WideEnough (newGridLocation o w boxWidth cells) axis opt)
    (vals out : List ℚ) (V F : ℤ → ℤ → ℤ → ℚ) (hv : HoldsField w vals V) (hf : HoldsField w out F) :
    ∃ out' G, (newGridLocation o w boxWidth cells).deriv vals out axis opt (machineD fusing) = some out' ∧
      HoldsField w out' G ∧ ∀ x y z, IsCell w x y z →
        let D := opt.op.apply (F x y z) (derivAt (newGridLocation o w boxWidth cells) axis opt V x y z)
        let E := absAt (newGridLocation o w boxWidth cells) axis opt V x y z
        |G x y z - D| ≤ E / 2 ^ 20 + |D| / 2 ^ 24 ∧ (opt.op = .none → |G x y z - D| ≤ E / 2 ^ 21) := by
  obtain ⟨out', e, h⟩ := deriv_value (machineD fusing) o w boxWidth cells axis ha opt ho hw vals out V F hv hf
  exact ⟨out', _, e, h, fun x y z hc => ap_near fusing opt.op (stencilAt_err fusing (by omega) ho hw hL hc0 hc1 V hc)⟩

/-- Along the third axis the same holds away from its faces, when the call returns. Missing: the faces (see C43). -/
theorem C148_third_axis_partial (fusing : DFusing) (o w : IVec) (boxWidth : ℚ) (hL : 0 < boxWidth) (cells : ℤ)
    (hc0 : 0 < cells) (hc1 : cells ≤ 2 ^ 53) (opt : DerivOptions)
    (hw : WideEnough (newGridLocation o w boxWidth cells) 2 opt) (hw0 : 0 ≤ w 0) (hw1 : 0 ≤ w 1)
    (vals out out' : List ℚ) (V F : ℤ → ℤ → ℤ → ℚ) (hv : HoldsField w vals V) (hf : HoldsField w out F)
    (e : (newGridLocation o w boxWidth cells).deriv vals out 2 opt (machineD fusing) = some out') :
    (out'.length : ℤ) = w 0 * w 1 * w 2 ∧ ∀ x y z, IsCell w x y z → opt.order / 2 ≤ z → z < w 2 - opt.order / 2 →
      let D := opt.op.apply (F x y z) (derivAt (newGridLocation o w boxWidth cells) 2 opt V x y z)
      let E := absAt (newGridLocation o w boxWidth cells) 2 opt V x y z
      ∃ G, rd out' (x + w 0 * (y + w 1 * z)) = some G ∧
        |G - D| ≤ E / 2 ^ 20 + |D| / 2 ^ 24 ∧ (opt.op = .none → |G - D| ≤ E / 2 ^ 21) := by
  have ho : opt.order = 2 ∨ opt.order = 4 := by
    by_contra hcon
    unfold GridLocation.deriv at e
    rw [if_neg (by norm_num)] at e
    split_ifs at e
    all_goals first | cases e | omega
  obtain ⟨hl, h⟩ := deriv_value3 (machineD fusing) o w boxWidth cells opt hw hw0 hw1 vals out out' V F hv hf e
  exact ⟨hl, fun x y z hc h1 h2 => ⟨_, h x y z hc h1 h2,
    ap_near fusing opt.op (stencilAt_err fusing (by omega) ho hw hL hc0 hc1 V hc)⟩⟩

example (fusing : DFusing) : WideEnough (newGridLocation ![0, 0, 0] ![5, 6, 7] 10 20) 1 ⟨false, .add, 4⟩ ∧
    WideEnough (newGridLocation ![0, 0, 0] ![5, 6, 7] 10 7) 2 ⟨true, .none, 4⟩ ∧
    ((newGridLocation ![0, 0, 0] ![5, 6, 7] 10 7).deriv (fieldList ![5, 6, 7] fun x y z => x * y + z)
      (fieldList ![5, 6, 7] fun _ _ _ => 0) 0 ⟨true, .none, 4⟩ (machineD fusing)).isSome := by
  refine ⟨⟨by decide, by decide, fun _ => by decide⟩, ⟨by decide, by decide, fun _ => by decide⟩, ?_⟩
  obtain ⟨out', G, e, -⟩ := C148_deriv_partial fusing ![0, 0, 0] ![5, 6, 7] 10 (by norm_num) 7 0 (by norm_num) (by norm_num)
    (Or.inl rfl) ⟨true, .none, 4⟩ (Or.inr rfl) ⟨by decide, by decide, fun _ => by decide⟩ _ _ _ _
    (fieldList_holds (by decide) fun x y z => x * y + z) (fieldList_holds (by decide) fun _ _ _ => 0)
  rw [e]
  rfl

/-! ### Second order -/

theorem term32_one {b : Bool} {v : ℚ} (h : F32 v) : term32 b 1 v = v := by
  unfold term32
  rw [one_mul, f32_of h, ite_self]

theorem term32_neg {b : Bool} {v : ℚ} (h : F32 v) : term32 b (-1) v = -v := by
  unfold term32
  rw [neg_one_mul, f32_of (rep_neg h), ite_self]

theorem second_order {L a b : ℚ} {cells : ℤ} (hL : 0 < L) (h0 : 0 < cells) (h1 : cells ≤ 2 ^ 53) (fusing : DFusing)
    (site : DerivSite) (ha : F32 a) (hb : F32 b) :
    |comb32 fusing site [(1, a), (-1, b)] (denom32 2 L cells) - (a - b) / (2 * (L / cells))| ≤
      |(a - b) / (2 * (L / cells))| / 2 ^ 22 := by
  obtain ⟨d0, d1⟩ := denom32_rel hL h0 h1 2
  rw [show exactD.denom 2 L cells = 2 * (L / cells) by simp [exactD]; ring] at d0 d1
  simp only [comb32, sum32, term32_one ha, term32_neg hb, ← sub_eq_add_neg]
  have hs := f32_err (a - b)
  generalize f32 (a - b) = s at *
  generalize a - b = S at *
  generalize denom32 2 L cells = d at *
  generalize 2 * (L / (cells : ℚ)) = d' at *
  have hdl := (abs_le.mp d1).1
  rw [abs_of_pos d0] at d1 hdl
  have hd : 0 < d := by
    have : 0 < d' * (1 - 11 / 10 / 2 ^ 24) := mul_pos d0 (by norm_num)
    linarith
  have e : s / d - S / d' = ((s - S) * d' - S * (d - d')) / (d * d') := by
    field_simp
    ring
  have h1 : |s / d - S / d'| ≤ 22 / 10 / 2 ^ 24 * |S / d'| := by
    rw [e, abs_div, abs_of_pos (mul_pos hd d0), div_le_iff₀ (mul_pos hd d0), abs_div, abs_of_pos d0]
    have a1 := abs_sub ((s - S) * d') (S * (d - d'))
    rw [abs_mul, abs_mul, abs_of_pos d0] at a1
    have a2 : |s - S| * d' ≤ |S| / 2 ^ 24 * d' := mul_le_mul_of_nonneg_right hs d0.le
    have a3 : |S| * |d - d'| ≤ |S| * (11 / 10 / 2 ^ 24 * d') := mul_le_mul_of_nonneg_left d1 (abs_nonneg _)
    have a4 : 22 / 10 / 2 ^ 24 * (|S| / d') * (d * d') = 22 / 10 / 2 ^ 24 * |S| * d := by field_simp
    rw [a4]
    have a5 : 22 / 10 / 2 ^ 24 * |S| * ((1 - 11 / 10 / 2 ^ 24) * d') ≤ 22 / 10 / 2 ^ 24 * |S| * d :=
      mul_le_mul_of_nonneg_left (by linarith) (by positivity)
    have a6 : 0 ≤ |S| * d' := by positivity
    nlinarith
  have h2 := f32_err (s / d)
  have b1 := abs_add_le (f32 (s / d) - s / d) (s / d - S / d')
  rw [sub_add_sub_cancel] at b1
  have b2 := abs_add_le (s / d - S / d') (S / d')
  rw [sub_add_cancel] at b2
  have b3 := abs_nonneg (S / d')
  linarith

/-- The second-order derivative of `float32` values, at cells that have both neighbours, is right to a relative error of
`2⁻²²`: in particular its sign is right, and it is zero exactly where the neighbours are equal. -/
theorem C148_second_order_partial (fusing : DFusing) (o w : IVec) (boxWidth : ℚ) (hL : 0 < boxWidth) (cells axis : ℤ)
    (hc0 : 0 < cells) (hc1 : cells ≤ 2 ^ 53) (ha : axis = 0 ∨ axis = 1) (opt : DerivOptions) (ho : opt.order = 2)
    (hop : opt.op = .none) (hw : WideEnough (newGridLocation o w boxWidth cells) axis opt)
    (vals out : List ℚ) (V F : ℤ → ℤ → ℤ → ℚ) (hv : HoldsField w vals V) (hf : HoldsField w out F)
    (hV : ∀ x y z, F32 (V x y z)) :
    ∃ out' G, (newGridLocation o w boxWidth cells).deriv vals out axis opt (machineD fusing) = some out' ∧
      HoldsField w out' G ∧ ∀ x y z, IsCell w x y z → Wraps (newGridLocation o w boxWidth cells) axis opt ∨
        (1 ≤ coordOf axis x y z ∧ coordOf axis x y z < widthOf (newGridLocation o w boxWidth cells).toGrid axis - 1) →
        let D := derivAt (newGridLocation o w boxWidth cells) axis opt V x y z
        |G x y z - D| ≤ |D| / 2 ^ 22 ∧ (0 < G x y z ↔ 0 < D) ∧ (G x y z = 0 ↔ D = 0) := by
  obtain ⟨out', e, h⟩ := deriv_value (machineD fusing) o w boxWidth cells axis ha opt (Or.inl ho) hw vals out V F hv hf
  refine ⟨out', _, e, h, fun x y z hc hin => ?_⟩
  have key : |stencilAt (machineD fusing) (newGridLocation o w boxWidth cells) axis opt V x y z -
      derivAt (newGridLocation o w boxWidth cells) axis opt V x y z| ≤
      |derivAt (newGridLocation o w boxWidth cells) axis opt V x y z| / 2 ^ 22 := by
    have hF : ∀ j, F32 (along axis V x y z j) := by
      intro j
      unfold along
      split_ifs <;> exact hV _ _ _
    rw [← stencilAt_exact (by omega) (Or.inl ho) hw V hc]
    unfold stencilAt stencilValue
    have hcen : ∀ (site : DerivSite) (L : ℤ → ℚ) (i : ℤ), (∀ j, F32 (L j)) →
        |(machineD fusing).comb site (centredTerms opt.order L i) ((machineD fusing).denom opt.order boxWidth cells) -
          exactD.comb site (centredTerms opt.order L i) (exactD.denom opt.order boxWidth cells)| ≤
        |exactD.comb site (centredTerms opt.order L i) (exactD.denom opt.order boxWidth cells)| / 2 ^ 22 := by
      intro site L i hF
      rw [ho]
      have := second_order hL hc0 hc1 fusing site (hF (i + 1)) (hF (i - 1))
      have e : exactD.comb site (centredTerms 2 L i) (exactD.denom 2 boxWidth cells) =
          (L (i + 1) - L (i - 1)) / (2 * (boxWidth / cells)) := by
        simp [exactD, centredTerms]
        ring
      rw [e]
      exact this
    by_cases h1 : opt.order / 2 ≤ coordOf axis x y z ∧
        coordOf axis x y z < widthOf (newGridLocation o w boxWidth cells).toGrid axis - opt.order / 2
    · rw [if_pos h1, if_pos h1]
      exact hcen _ _ _ hF
    · rw [if_neg h1, if_neg h1]
      have hwr : Wraps (newGridLocation o w boxWidth cells) axis opt := by
        rcases hin with h | h
        · exact h
        · rw [ho] at h1
          exact absurd ⟨by norm_num; exact h.1, by norm_num; exact h.2⟩ h1
      rw [if_pos hwr, if_pos hwr]
      exact hcen _ _ _ fun j => hF _
  rw [hop]
  show |stencilAt (machineD fusing) (newGridLocation o w boxWidth cells) axis opt V x y z -
      derivAt (newGridLocation o w boxWidth cells) axis opt V x y z| ≤ _ ∧ (0 < stencilAt (machineD fusing) _ _ _ _ _ _ _ ↔ _) ∧
      (stencilAt (machineD fusing) _ _ _ _ _ _ _ = 0 ↔ _)
  generalize stencilAt (machineD fusing) (newGridLocation o w boxWidth cells) axis opt V x y z = s at *
  generalize derivAt (newGridLocation o w boxWidth cells) axis opt V x y z = D at *
  refine ⟨key, ?_, ?_⟩
  · have k := abs_le.mp key
    constructor
    · intro hs
      by_contra hD
      rw [abs_of_nonpos (not_lt.mp hD)] at k
      linarith
    · intro hD
      rw [abs_of_pos hD] at k
      linarith
  · constructor
    · rintro rfl
      rw [zero_sub, abs_neg] at key
      have := abs_nonneg D
      exact abs_eq_zero.mp (by linarith)
    · rintro rfl
      rw [abs_zero, zero_div, sub_zero] at key
      exact abs_nonpos_iff.mp key

example : WideEnough (newGridLocation ![0, 0, 0] ![3, 4, 5] 10 3) 0 ⟨true, .none, 2⟩ ∧
    Wraps (newGridLocation ![0, 0, 0] ![3, 4, 5] 10 3) 0 ⟨true, .none, 2⟩ ∧
    ∀ x y z : ℤ, F32 ((fun x _ _ => if x = 1 then 3 / 4 else 1 : ℤ → ℤ → ℤ → ℚ) x y z) := by
  refine ⟨⟨by decide, by decide, fun h => absurd (by decide) h⟩, by decide, fun x y z => ?_⟩
  dsimp only
  split_ifs
  · exact ⟨3, -2, by norm_num, by norm_num⟩
  · exact ⟨1, 0, by norm_num, by norm_num⟩

/-- Not so at fourth order: a uniform field of `float32` values has a derivative that is not zero, in every cell of the
periodic box and whatever the compiler fuses. -/
theorem C148_uniform_counterexample (fusing : DFusing) (x y z : ℤ) (hc : IsCell ![5, 5, 5] x y z) :
    ∃ out' G, F32 16777215 ∧ (newGridLocation ![0, 0, 0] ![5, 5, 5] 5 5).deriv (fieldList ![5, 5, 5] fun _ _ _ => 16777215)
        (fieldList ![5, 5, 5] fun _ _ _ => 0) 0 ⟨true, .none, 4⟩ (machineD fusing) = some out' ∧
      rd out' (x + 5 * (y + 5 * z)) = some G ∧ G ≠ 0 ∧
      derivAt (newGridLocation ![0, 0, 0] ![5, 5, 5] 5 5) 0 ⟨true, .none, 4⟩ (fun _ _ _ => 16777215) x y z = 0 := by
  obtain ⟨out', e, h⟩ := deriv_value (machineD fusing) ![0, 0, 0] ![5, 5, 5] 5 5 0 (Or.inl rfl) ⟨true, .none, 4⟩ (Or.inr rfl)
    ⟨by decide, by decide, fun _ => by decide⟩ _ _ _ _
    (fieldList_holds (by decide) fun _ _ _ => 16777215) (fieldList_holds (by decide) fun _ _ _ => 0)
  refine ⟨out', _, ⟨16777215, 0, by norm_num, by norm_num⟩, e, h.2 x y z hc, ?_, ?_⟩
  · have ht : ∀ (site : DerivSite), comb32 fusing site [(-1, 16777215), (8, 16777215), (-8, 16777215), (1, 16777215)] 12 =
        f32 (f32 (f32 (f32 (-16777215 + 134217720) + -134217720) + 16777215) / 12) := by
      intro site
      have t1 : ∀ b, term32 b (-1) 16777215 = -16777215 := fun b => by cases b <;> decide +kernel
      have t2 : ∀ b, term32 b 8 16777215 = 134217720 := fun b => by cases b <;> decide +kernel
      have t3 : ∀ b, term32 b (-8) 16777215 = -134217720 := fun b => by cases b <;> decide +kernel
      have t4 : ∀ b, term32 b 1 16777215 = 16777215 := fun b => by cases b <;> decide +kernel
      simp only [comb32, sum32, t1, t2, t3, t4]
    have hd : denom32 4 5 5 = 12 := by decide +kernel
    have hne : f32 (f32 (f32 (f32 (-16777215 + 134217720) + -134217720) + 16777215) / 12) ≠ 0 := by decide +kernel
    have hs : stencilAt (machineD fusing) (newGridLocation ![0, 0, 0] ![5, 5, 5] 5 5) 0 ⟨true, .none, 4⟩
        (fun _ _ _ => 16777215) x y z ≠ 0 := by
      unfold stencilAt stencilValue
      have hwr : Wraps (newGridLocation ![0, 0, 0] ![5, 5, 5] 5 5) 0 ⟨true, .none, 4⟩ := by decide
      rw [if_pos hwr]
      have hct : ∀ i, centredTerms 4 (along 0 (fun _ _ _ => 16777215) x y z) i =
          [(-1, 16777215), (8, 16777215), (-8, 16777215), (1, 16777215)] := fun _ => rfl
      have hct' : ∀ i n, centredTerms 4 (fun j => along 0 (fun _ _ _ => 16777215) x y z (j % n)) i =
          [(-1, 16777215), (8, 16777215), (-8, 16777215), (1, 16777215)] := fun _ _ => rfl
      have hden : (machineD fusing).denom (DerivOptions.order ⟨true, .none, 4⟩)
          (newGridLocation ![0, 0, 0] ![5, 5, 5] 5 5).boxWidth (newGridLocation ![0, 0, 0] ![5, 5, 5] 5 5).cells = 12 := hd
      rw [hden]
      split_ifs
      · rw [show DerivOptions.order ⟨true, .none, 4⟩ = 4 from rfl, hct]
        rw [show (machineD fusing).comb = comb32 fusing from rfl, ht]
        exact hne
      · rw [show DerivOptions.order ⟨true, .none, 4⟩ = 4 from rfl, hct']
        rw [show (machineD fusing).comb = comb32 fusing from rfl, ht]
        exact hne
    exact hs
  · simp [derivAt, derivSpec, centred, oneSided, along]
    norm_num

example : IsCell ![5, 5, 5] 2 2 2 ∧ IsCell ![5, 5, 5] 0 4 1 := by
  refine ⟨⟨⟨by decide, by decide⟩, ⟨by decide, by decide⟩, by decide, by decide⟩,
    ⟨by decide, by decide⟩, ⟨by decide, by decide⟩, by decide, by decide⟩

/-! ### Finalised buffers -/

theorem mean32_err {v : ℚ} {n : ℤ} (hn : n ≠ 0) : |mean32 v n - v / n| ≤ 31 / 10 / 2 ^ 24 * |v / n| := by
  have hq : (n : ℚ) ≠ 0 := by exact_mod_cast hn
  have d0 : 0 < |(n : ℚ)| := abs_pos.mpr hq
  unfold mean32
  have hs := f32_err v
  have hd := f32_err (n : ℚ)
  generalize f32 v = s at *
  generalize f32 (n : ℚ) = d at *
  generalize (n : ℚ) = d' at *
  have hdl : (1 - 1 / 2 ^ 24) * |d'| ≤ |d| := by
    have := abs_sub_abs_le_abs_sub d' d
    rw [abs_sub_comm] at this
    linarith
  have hdp : 0 < |d| := lt_of_lt_of_le (mul_pos (by norm_num) d0) hdl
  have hdn : d ≠ 0 := abs_pos.mp hdp
  have e : s / d - v / d' = ((s - v) * d' - v * (d - d')) / (d * d') := by
    field_simp
    ring
  have h1 : |s / d - v / d'| ≤ 201 / 100 / 2 ^ 24 * |v / d'| := by
    rw [e, abs_div, abs_mul, div_le_iff₀ (mul_pos hdp d0), abs_div]
    have a1 := abs_sub ((s - v) * d') (v * (d - d'))
    rw [abs_mul, abs_mul] at a1
    have a2 : |s - v| * |d'| ≤ |v| / 2 ^ 24 * |d'| := mul_le_mul_of_nonneg_right hs d0.le
    have a3 : |v| * |d - d'| ≤ |v| * (|d'| / 2 ^ 24) := mul_le_mul_of_nonneg_left hd (abs_nonneg _)
    have a4 : 201 / 100 / 2 ^ 24 * (|v| / |d'|) * (|d| * |d'|) = 201 / 100 / 2 ^ 24 * |v| * |d| := by field_simp
    rw [a4]
    have a5 : 201 / 100 / 2 ^ 24 * |v| * ((1 - 1 / 2 ^ 24) * |d'|) ≤ 201 / 100 / 2 ^ 24 * |v| * |d| :=
      mul_le_mul_of_nonneg_left hdl (by positivity)
    have a6 : 0 ≤ |v| * |d'| := by positivity
    nlinarith
  have h2 := f32_err (s / d)
  have b1 := abs_add_le (f32 (s / d) - s / d) (s / d - v / d')
  rw [sub_add_sub_cancel] at b1
  have b2 := abs_add_le (s / d - v / d') (v / d')
  rw [sub_add_cancel] at b2
  have b3 := abs_nonneg (v / d')
  linarith

/-- A velocity image: in every cell the mean velocity to a relative error of `2⁻²²`, and zero where there is nothing.
Missing: images of 1 to 29 cells, for which the call panics (C56). -/
theorem C148_velocity_partial (fusing : DFusing) (vecs : List Vec) (num : List ℤ) (hn : num.length = vecs.length)
    (hlen : vecs.length = 0 ∨ 30 ≤ vecs.length) :
    ∃ out, velFinalize vecs num (machineB fusing) = some out ∧ (∀ j, (out j).length = vecs.length) ∧
      ∀ (i : ℤ) v n, rd vecs i = some v → rd num i = some n →
        ∀ j, ∃ m, rd (out j) i = some m ∧ (n = 0 → m = 0) ∧ (n ≠ 0 → |m - v j / n| ≤ |v j / n| / 2 ^ 22) := by
  obtain ⟨out, e, hl, hv⟩ := means_with (machineB fusing) id vecs num hn
  refine ⟨out, ?_, hl, fun i v n h1 h2 j => ⟨_, hv i v n h1 h2 j, fun h => ?_, fun h => ?_⟩⟩
  · rw [← e]
    unfold velFinalize
    rcases hlen with h | h
    · rw [h]
      rw [forRange_empty (by simp), forRange_empty (by simp)]
    · have : ¬ (vecs.length : ℤ).tdiv 30 = 0 := by
        rw [Int.tdiv_eq_ediv_of_nonneg (by positivity)]
        omega
      simp only [if_neg this]
  · unfold meanWith
    rw [if_pos h]
  · unfold meanWith
    rw [if_neg h]
    have a := mean32_err (v := v j) h
    have b := abs_nonneg (v j / (n : ℚ))
    show |mean32 (v j) n - v j / n| ≤ _
    linarith

example : (List.replicate 64 3 : List ℤ).length = (List.replicate 64 (![1, 1 / 3, 7] : Vec)).length ∧
    30 ≤ (List.replicate 64 (![1, 1 / 3, 7] : Vec)).length := by simp

theorem fieldWith_near (fusing : DFusing) (w : IVec) (vecs : List Vec) (num : List ℤ) (j : Fin 3) (x y z : ℤ) :
    |fieldWith (machineB fusing) w vecs num j x y z - meanField w vecs num j x y z| ≤
      31 / 10 / 2 ^ 24 * |meanField w vecs num j x y z| := by
  unfold fieldWith meanField meanWith meanOf
  split_ifs with h
  · simp
  · exact mean32_err h

/-- A density gradient image holds the gradient of the density (its third component away from the faces), to `2⁻²⁰` of the
sum of the sizes of the terms. Missing: the faces of the third axis (C43). -/
theorem C148_gradient_partial (fusing : DFusing) (o w : IVec) (boxWidth : ℚ) (hL : 0 < boxWidth) (cells : ℤ)
    (hc0 : 0 < cells) (hc1 : cells ≤ 2 ^ 53) (hw : ∀ i, 0 < w i) (dflt : DerivOptions)
    (hu : Usable (newGridLocation o w boxWidth cells) ⟨true, .none, 4⟩) (vals : List ℚ) (V : ℤ → ℤ → ℤ → ℚ)
    (hv : HoldsField w vals V) (out : Fin 3 → List ℚ)
    (e : gradFinalize (newGridLocation o w boxWidth cells) dflt vals (machineB fusing) = some out)
    (x y z : ℤ) (hc : IsCell w x y z) :
    let D := fun axis => derivAt (newGridLocation o w boxWidth cells) axis ⟨true, .none, 4⟩ V x y z
    let E := fun axis => absAt (newGridLocation o w boxWidth cells) axis ⟨true, .none, 4⟩ V x y z
    (∃ G, rd (out 0) (x + w 0 * (y + w 1 * z)) = some G ∧ |G - D 0| ≤ E 0 / 2 ^ 20) ∧
    (∃ G, rd (out 1) (x + w 0 * (y + w 1 * z)) = some G ∧ |G - D 1| ≤ E 1 / 2 ^ 20) ∧
    (2 ≤ z → z < w 2 - 2 → ∃ G, rd (out 2) (x + w 0 * (y + w 1 * z)) = some G ∧ |G - D 2| ≤ E 2 / 2 ^ 20) := by
  unfold gradFinalize at e
  obtain ⟨r, er, e⟩ := Option.bind_eq_some_iff.mp e
  cases e
  obtain ⟨h0, h1, h2⟩ := gradient_value (machineD fusing) o w boxWidth cells hw (some ⟨true, .none, 4⟩) dflt hu rfl _ _
    (HoldsField.map hv (machineB fusing).conv) _
    (fun j => by rw [List.length_replicate]; exact hv.1) r er x y z hc
  have near : ∀ axis, 0 ≤ axis → axis ≤ 2 →
      |stencilAt (machineD fusing) (newGridLocation o w boxWidth cells) axis ⟨true, .none, 4⟩
        (fun x y z => (machineB fusing).conv (V x y z)) x y z -
        derivAt (newGridLocation o w boxWidth cells) axis ⟨true, .none, 4⟩ V x y z| ≤
        absAt (newGridLocation o w boxWidth cells) axis ⟨true, .none, 4⟩ V x y z / 2 ^ 20 := by
    intro axis a0 a1
    have n := stencilAt_near fusing (axis := axis) (by omega) hu.1 (hu.2 axis a0 a1) hL hc0 hc1
      (V := fun x y z => (machineB fusing).conv (V x y z)) (W := V) (fun x y z => by
        have a := f32_err (V x y z)
        have b := abs_nonneg (V x y z)
        show |f32 (V x y z) - V x y z| ≤ _
        linarith) hc
    have m := (abs_nonneg _).trans (derivAt_le (g := newGridLocation o w boxWidth cells) (axis := axis)
      (opt := ⟨true, .none, 4⟩) (div_pos hL (by exact_mod_cast hc0)) V x y z)
    linarith
  exact ⟨⟨_, h0, near 0 (by norm_num) (by norm_num)⟩, ⟨_, h1, near 1 (by norm_num) (by norm_num)⟩,
    fun z1 z2 => ⟨_, h2 z1 z2, near 2 (by norm_num) (by norm_num)⟩⟩

theorem sub32_near {a b A B E F : ℚ} (ha : |a - A| ≤ 112 / 10 / 2 ^ 24 * E) (hb : |b - B| ≤ 112 / 10 / 2 ^ 24 * F)
    (hA : |A| ≤ E) (hB : |B| ≤ F) : |f32 (a - b) - (A - B)| ≤ (E + F) / 2 ^ 20 := by
  have h := f32_err (a - b)
  have c1 := abs_add_le (f32 (a - b) - (a - b)) ((a - A) - (b - B))
  have c2 := abs_sub (a - A) (b - B)
  have c3 := abs_add_le (A - B) ((a - A) - (b - B))
  have c4 := abs_sub A B
  rw [show f32 (a - b) - (a - b) + (a - A - (b - B)) = f32 (a - b) - (A - B) by ring] at c1
  rw [show A - B + (a - A - (b - B)) = a - b by ring] at c3
  have e0 := (abs_nonneg _).trans hA
  have e1 := (abs_nonneg _).trans hB
  linarith

theorem add32_near {a b c A B C E F G : ℚ} (ha : |a - A| ≤ 112 / 10 / 2 ^ 24 * E) (hb : |b - B| ≤ 112 / 10 / 2 ^ 24 * F)
    (hc : |c - C| ≤ 112 / 10 / 2 ^ 24 * G) (hA : |A| ≤ E) (hB : |B| ≤ F) (hC : |C| ≤ G) :
    |f32 (f32 (a + b) + c) - (A + B + C)| ≤ (E + F + G) / 2 ^ 20 := by
  have h := f32_err (a + b)
  generalize f32 (a + b) = s at *
  have h' := f32_err (s + c)
  generalize f32 (s + c) = t at *
  have e0 := (abs_nonneg _).trans hA
  have e1 := (abs_nonneg _).trans hB
  have e2 := (abs_nonneg _).trans hC
  have c1 := abs_add_le (s - (a + b)) ((a - A) + (b - B))
  have c2 := abs_add_le (a - A) (b - B)
  have c3 := abs_add_le (A + B) ((a - A) + (b - B))
  have c4 := abs_add_le A B
  rw [show s - (a + b) + (a - A + (b - B)) = s - (A + B) by ring] at c1
  rw [show A + B + (a - A + (b - B)) = a + b by ring] at c3
  have d1 := abs_add_le (t - (s + c)) ((s - (A + B)) + (c - C))
  have d2 := abs_add_le (s - (A + B)) (c - C)
  have d3 := abs_add_le (A + B + C) ((s - (A + B)) + (c - C))
  have d4 := abs_add_le (A + B) C
  rw [show t - (s + c) + (s - (A + B) + (c - C)) = t - (A + B + C) by ring] at d1
  rw [show A + B + C + (s - (A + B) + (c - C)) = s + c by ring] at d3
  linarith

/-- A curl image holds, away from the faces of the third axis, the curl of the mean velocity field to `2⁻²⁰` of the sum of
the sizes of the terms. Missing: those faces (C43). -/
theorem C148_curl_partial (fusing : DFusing) (o w : IVec) (boxWidth : ℚ) (hL : 0 < boxWidth) (cells : ℤ)
    (hc0 : 0 < cells) (hc1 : cells ≤ 2 ^ 53) (hw : ∀ i, 0 < w i) (dflt : DerivOptions)
    (hu : Usable (newGridLocation o w boxWidth cells) ⟨true, .none, 4⟩) (vecs : List Vec) (num : List ℤ)
    (hn : num.length = vecs.length) (hv : (vecs.length : ℤ) = w 0 * w 1 * w 2) (out : Fin 3 → List ℚ)
    (e : curlFinalize (newGridLocation o w boxWidth cells) dflt vecs num (machineB fusing) = some out)
    (x y z : ℤ) (hc : IsCell w x y z) (hz1 : 2 ≤ z) (hz2 : z < w 2 - 2) :
    let D := fun axis j => derivAt (newGridLocation o w boxWidth cells) axis ⟨true, .none, 4⟩ (meanField w vecs num j) x y z
    let E := fun axis j => absAt (newGridLocation o w boxWidth cells) axis ⟨true, .none, 4⟩ (meanField w vecs num j) x y z
    (∃ G, rd (out 0) (x + w 0 * (y + w 1 * z)) = some G ∧ |G - (D 1 2 - D 2 1)| ≤ (E 1 2 + E 2 1) / 2 ^ 20) ∧
    (∃ G, rd (out 1) (x + w 0 * (y + w 1 * z)) = some G ∧ |G - (D 2 0 - D 0 2)| ≤ (E 2 0 + E 0 2) / 2 ^ 20) ∧
    (∃ G, rd (out 2) (x + w 0 * (y + w 1 * z)) = some G ∧ |G - (D 0 1 - D 1 0)| ≤ (E 0 1 + E 1 0) / 2 ^ 20) := by
  unfold curlFinalize at e
  obtain ⟨m, em, e⟩ := Option.bind_eq_some_iff.mp e
  obtain ⟨r, er, e⟩ := Option.bind_eq_some_iff.mp e
  cases e
  obtain ⟨m', em', hl, ho⟩ := means_with (machineB fusing) id vecs num hn
  rw [em] at em'
  cases em'
  obtain ⟨h0, h1, h2⟩ := curl_value (machineD fusing) o w boxWidth cells hw (some ⟨true, .none, 4⟩) dflt hu rfl m
    (fieldWith (machineB fusing) w vecs num) (fun j => means_hold_with hn hv hl ho j) _
    (fun j => by rw [List.length_replicate]; exact hv) r er x y z hc hz1 hz2
  have hh : 0 < boxWidth / cells := div_pos hL (by exact_mod_cast hc0)
  have near : ∀ axis : ℤ, 0 ≤ axis → axis ≤ 2 → ∀ j, _ := fun axis a0 a1 j =>
    stencilAt_near fusing (axis := axis) (by omega) hu.1 (hu.2 axis a0 a1) hL hc0 hc1 (fieldWith_near fusing w vecs num j) hc
  have big : ∀ axis j, _ := fun axis j => derivAt_le (g := newGridLocation o w boxWidth cells) (axis := axis)
    (opt := ⟨true, .none, 4⟩) hh (meanField w vecs num j) x y z
  exact ⟨⟨_, h0, sub32_near (near 1 (by norm_num) (by norm_num) 2) (near 2 (by norm_num) (by norm_num) 1) (big 1 2) (big 2 1)⟩,
    ⟨_, h1, sub32_near (near 2 (by norm_num) (by norm_num) 0) (near 0 (by norm_num) (by norm_num) 2) (big 2 0) (big 0 2)⟩,
    ⟨_, h2, sub32_near (near 0 (by norm_num) (by norm_num) 1) (near 1 (by norm_num) (by norm_num) 0) (big 0 1) (big 1 0)⟩⟩

/-- A divergence image holds, away from the faces of the third axis, ∂x v₀ + ∂y v₀ + ∂z v₂ to `2⁻²⁰` of the sum of the
sizes of the terms. Missing: those faces, and the second component of the velocity, which is not used (C93). -/
theorem C148_divergence_partial (fusing : DFusing) (o w : IVec) (boxWidth : ℚ) (hL : 0 < boxWidth) (cells : ℤ)
    (hc0 : 0 < cells) (hc1 : cells ≤ 2 ^ 53) (hw : ∀ i, 0 < w i) (dflt : DerivOptions)
    (hu : Usable (newGridLocation o w boxWidth cells) ⟨true, .none, 4⟩) (vecs : List Vec) (num : List ℤ)
    (hn : num.length = vecs.length) (hv : (vecs.length : ℤ) = w 0 * w 1 * w 2) (out : List ℚ)
    (e : divFinalize (newGridLocation o w boxWidth cells) dflt vecs num (machineB fusing) = some out)
    (x y z : ℤ) (hc : IsCell w x y z) (hz1 : 2 ≤ z) (hz2 : z < w 2 - 2) :
    let D := fun axis j => derivAt (newGridLocation o w boxWidth cells) axis ⟨true, .none, 4⟩ (meanField w vecs num j) x y z
    let E := fun axis j => absAt (newGridLocation o w boxWidth cells) axis ⟨true, .none, 4⟩ (meanField w vecs num j) x y z
    ∃ G, rd out (x + w 0 * (y + w 1 * z)) = some G ∧
      |G - (D 0 0 + D 1 0 + D 2 2)| ≤ (E 0 0 + E 1 0 + E 2 2) / 2 ^ 20 := by
  unfold divFinalize at e
  obtain ⟨m, em, e⟩ := Option.bind_eq_some_iff.mp e
  obtain ⟨r, er, e⟩ := Option.bind_eq_some_iff.mp e
  cases e
  obtain ⟨m', em', hl, ho⟩ := means_with (machineB fusing) ![0, 0, 2] vecs num hn
  rw [em] at em'
  cases em'
  have h0 := divergence_value (machineD fusing) o w boxWidth cells hw (some ⟨true, .none, 4⟩) dflt hu rfl m
    (fun j => fieldWith (machineB fusing) w vecs num ((![0, 0, 2] : Fin 3 → Fin 3) j))
    (fun j => means_hold_with hn hv hl ho j) _
    (by rw [List.length_replicate]; exact hv) r er x y z hc hz1 hz2
  have hh : 0 < boxWidth / cells := div_pos hL (by exact_mod_cast hc0)
  have near : ∀ axis : ℤ, 0 ≤ axis → axis ≤ 2 → ∀ j, _ := fun axis a0 a1 j =>
    stencilAt_near fusing (axis := axis) (by omega) hu.1 (hu.2 axis a0 a1) hL hc0 hc1 (fieldWith_near fusing w vecs num j) hc
  have big : ∀ axis j, _ := fun axis j => derivAt_le (g := newGridLocation o w boxWidth cells) (axis := axis)
    (opt := ⟨true, .none, 4⟩) hh (meanField w vecs num j) x y z
  exact ⟨_, h0, add32_near (near 0 (by norm_num) (by norm_num) 0) (near 1 (by norm_num) (by norm_num) 0)
    (near 2 (by norm_num) (by norm_num) 2) (big 0 0) (big 1 0) (big 2 2)⟩

example : Usable (newGridLocation ![0, 0, 0] ![6, 6, 7] 10 20) ⟨true, .none, 4⟩ ∧ IsCell ![6, 6, 7] 0 3 4 ∧
    ((List.replicate 252 (![1, 1 / 3, 7] : Vec)).length : ℤ) = (![6, 6, 7] : IVec) 0 * (![6, 6, 7] : IVec) 1 * (![6, 6, 7] : IVec) 2 := by
  refine ⟨⟨Or.inr rfl, ?_⟩, ⟨⟨by decide, by decide⟩, ⟨by decide, by decide⟩, by decide, by decide⟩,
    by rw [List.length_replicate]; decide⟩
  intro axis h0 h1
  rcases (by omega : axis = 0 ∨ axis = 1 ∨ axis = 2) with rfl | rfl | rfl <;>
    exact ⟨by decide, by decide, fun _ => by decide⟩

example : (divFinalize (newGridLocation ![0, 0, 0] ![5, 5, 5] 10 10) derivOptionsDefault
    ((List.range 125).map fun i => ![((i / 5 % 5 : ℕ) : ℚ), 0, 0]) (List.replicate 125 3) (machineB fun _ _ => false)).isSome ∧
    (curlFinalize (newGridLocation ![0, 0, 0] ![5, 5, 5] 10 10) derivOptionsDefault
    ((List.range 125).map fun i => ![((i / 5 % 5 : ℕ) : ℚ), 0, 0]) (List.replicate 125 3) (machineB fun _ _ => true)).isSome ∧
    (gradFinalize (newGridLocation ![0, 0, 0] ![5, 5, 5] 10 10) derivOptionsDefault
    ((List.range 125).map fun i => ((i / 5 % 5 : ℕ) : ℚ) / 3) (machineB fun _ _ => true)).isSome := by
  decide +kernel

end Verif.Fp
