import Verif.Py.PennaModel
import Mathlib.Data.List.GetD
import Mathlib.LinearAlgebra.Matrix.DotProduct
import Mathlib.Tactic.Linarith
import Mathlib.Tactic.FieldSimp
import Mathlib.Tactic.Ring

/-! # Properties of the shells fitted to points -/

set_option autoImplicit false

namespace Verif.Py

/-! ## Specification -/

/-- The shell in the direction `(u, v, w)`: a polynomial of degree `n` in `u` and in `v` and 1 in `w`; coefficients
are ordered by the power of `w`, then that of `v`, then that of `u`. -/
noncomputable def shellPoly (I J K : Nat) (c : List ℝ) (u v w : ℝ) : ℝ :=
  ∑ k ∈ Finset.range K, ∑ j ∈ Finset.range J, ∑ i ∈ Finset.range I,
    c.getD ((k * J + j) * I + i) 0 * (u ^ i * v ^ j * w ^ k)

/-- The Moore-Penrose conditions on `linalg.pinv(M)`. -/
structure IsPinv {a b : Nat} (M : Matrix (Fin a) (Fin b) ℝ) (P : Matrix (Fin b) (Fin a) ℝ) : Prop where
  mpm : M * P * M = M
  pmp : P * M * P = P
  symL : (M * P).transpose = M * P
  symR : (P * M).transpose = P * M

/-! ## Sums -/

/-- `Σ c (o + i) * l i`. -/
noncomputable def dotAt (c : List ℝ) : Nat → List ℝ → ℝ
  | _, [] => 0
  | o, t :: l => c.getD o 0 * t + dotAt c (o + 1) l

theorem sumCoeffs_eq (c : List ℝ) (l : List ℝ) : ∀ (o : Nat) (s : ℝ), o + l.length ≤ c.length →
    sumCoeffs c o s l = some (s + dotAt c o l) := by
  induction l with
  | nil => intro o s _; simp [sumCoeffs, dotAt]
  | cons t l ih =>
    intro o s h
    simp only [List.length_cons] at h
    have ho : o < c.length := by omega
    simp only [sumCoeffs, dotAt]
    rw [List.getElem?_eq_getElem ho, Option.bind_some, ih _ _ (by omega), List.getD_eq_getElem _ _ ho]
    congr 1; ring

theorem sumCoeffs_none (c : List ℝ) (l : List ℝ) : ∀ (o : Nat) (s : ℝ), o ≤ c.length → c.length < o + l.length →
    sumCoeffs c o s l = none := by
  induction l with
  | nil => intro o s h h'; simp at h'; omega
  | cons t l ih =>
    intro o s h h'
    simp only [List.length_cons] at h'
    simp only [sumCoeffs]
    rcases Nat.lt_or_ge o c.length with ho | ho
    · rw [List.getElem?_eq_getElem ho, Option.bind_some]
      exact ih _ _ (by omega) (by omega)
    · rw [List.getElem?_eq_none ho]; rfl

theorem dotAt_append (c : List ℝ) (a b : List ℝ) : ∀ o, dotAt c o (a ++ b) = dotAt c o a + dotAt c (o + a.length) b := by
  induction a with
  | nil => intro o; simp [dotAt]
  | cons t a ih =>
    intro o
    simp only [List.cons_append, dotAt, List.length_cons, ih]
    rw [show o + 1 + a.length = o + (a.length + 1) by omega]
    ring

theorem dotAt_map (c : List ℝ) (f : Nat → ℝ) (o m : Nat) :
    dotAt c o ((List.range m).map f) = ∑ i ∈ Finset.range m, c.getD (o + i) 0 * f i := by
  induction m with
  | zero => simp [dotAt]
  | succ m ih =>
    rw [List.range_succ, List.map_append, dotAt_append, ih, Finset.sum_range_succ]
    simp [dotAt]

theorem length_flatMap_range (m w : Nat) (f : Nat → List ℝ) (h : ∀ i, (f i).length = w) :
    ((List.range m).flatMap f).length = m * w := by
  induction m with
  | zero => simp
  | succ m ih => rw [List.range_succ, List.flatMap_append, List.length_append, ih]; simp [h]; ring

theorem dotAt_flatMap (c : List ℝ) (w : Nat) (f : Nat → List ℝ) (h : ∀ i, (f i).length = w) (o m : Nat) :
    dotAt c o ((List.range m).flatMap f) = ∑ i ∈ Finset.range m, dotAt c (o + i * w) (f i) := by
  induction m with
  | zero => simp [dotAt]
  | succ m ih =>
    rw [List.range_succ, List.flatMap_append, dotAt_append, ih, Finset.sum_range_succ, length_flatMap_range m w f h]
    simp

/-- The terms in the order of the three loops. -/
noncomputable def triple (I J K : Nat) (t : Nat → Nat → Nat → ℝ) : List ℝ :=
  (List.range K).flatMap fun k => (List.range J).flatMap fun j => (List.range I).map fun i => t i j k

theorem triple_length (I J K : Nat) (t : Nat → Nat → Nat → ℝ) : (triple I J K t).length = K * (J * I) := by
  refine length_flatMap_range K (J * I) _ fun k => ?_
  exact length_flatMap_range J I _ fun j => by simp

theorem dotAt_triple (c : List ℝ) (I J K : Nat) (t : Nat → Nat → Nat → ℝ) :
    dotAt c 0 (triple I J K t) = ∑ k ∈ Finset.range K, ∑ j ∈ Finset.range J, ∑ i ∈ Finset.range I,
      c.getD ((k * J + j) * I + i) 0 * t i j k := by
  unfold triple
  rw [dotAt_flatMap c (J * I) _ (fun k => length_flatMap_range J I _ fun j => by simp)]
  refine Finset.sum_congr rfl fun k _ => ?_
  rw [dotAt_flatMap c I _ (fun j => by simp)]
  refine Finset.sum_congr rfl fun j _ => ?_
  rw [dotAt_map]
  refine Finset.sum_congr rfl fun i _ => ?_
  rw [show 0 + k * (J * I) + j * I + i = (k * J + j) * I + i by ring]

theorem dotAt_getD (c l : List ℝ) : ∀ o, dotAt c o l = ∑ i ∈ Finset.range l.length, c.getD (o + i) 0 * l.getD i 0 := by
  induction l with
  | nil => intro o; simp [dotAt]
  | cons t l ih =>
    intro o
    rw [dotAt, ih, List.length_cons, Finset.sum_range_succ']
    simp only [List.getD_cons_succ, List.getD_cons_zero, Nat.add_zero]
    rw [add_comm]
    congr 1
    refine Finset.sum_congr rfl fun i _ => ?_
    rw [show o + 1 + i = o + (i + 1) by omega]

/-! ## Directions -/

theorem radius_pos {x y z : ℝ} (h : (x, y, z) ≠ 0) : 0 < radius x y z := by
  unfold radius
  apply Real.sqrt_pos.2
  by_contra hn
  have h1 := sq_nonneg x; have h2 := sq_nonneg y; have h3 := sq_nonneg z
  have hx : x ^ 2 = 0 := by linarith
  have hy : y ^ 2 = 0 := by linarith
  have hz : z ^ 2 = 0 := by linarith
  apply h
  simp only [pow_eq_zero_iff, ne_eq, OfNat.ofNat_ne_zero, not_false_eq_true] at hx hy hz
  simp [hx, hy, hz]

theorem radius_sq (x y z : ℝ) : radius x y z ^ 2 = x ^ 2 + y ^ 2 + z ^ 2 :=
  Real.sq_sqrt (by positivity)

theorem atan2_cos (x y : ℝ) : Real.sqrt (x ^ 2 + y ^ 2) * Real.cos (atan2 y x) = x := by
  have h := Complex.norm_mul_cos_arg (⟨x, y⟩ : ℂ)
  rw [Complex.norm_def, Complex.normSq_apply] at h
  simpa [atan2, sq] using h

theorem atan2_sin (x y : ℝ) : Real.sqrt (x ^ 2 + y ^ 2) * Real.sin (atan2 y x) = y := by
  have h := Complex.norm_mul_sin_arg (⟨x, y⟩ : ℂ)
  rw [Complex.norm_def, Complex.normSq_apply] at h
  simpa [atan2, sq] using h

/-- The polar angle and the azimuth of a direction. -/
theorem angles_unit {u v w : ℝ} (h : u ^ 2 + v ^ 2 + w ^ 2 = 1) :
    Real.sin (Real.arccos w) * Real.cos (atan2 v u) = u ∧ Real.sin (Real.arccos w) * Real.sin (atan2 v u) = v ∧
      Real.cos (Real.arccos w) = w := by
  have hw : w ^ 2 ≤ 1 := by nlinarith [sq_nonneg u, sq_nonneg v]
  have h1 : -1 ≤ w := by nlinarith
  have h2 : w ≤ 1 := by nlinarith
  have hs : Real.sin (Real.arccos w) = Real.sqrt (u ^ 2 + v ^ 2) := by
    rw [Real.sin_arccos]; congr 1; linarith
  rw [hs]
  exact ⟨atan2_cos u v, atan2_sin u v, Real.cos_arccos h1 h2⟩

theorem atan2_scale {x y r : ℝ} (hr : 0 < r) : atan2 (y / r) (x / r) = atan2 y x := by
  unfold atan2
  have : (⟨x / r, y / r⟩ : ℂ) = ((r⁻¹ : ℝ) : ℂ) * ⟨x, y⟩ := by
    apply Complex.ext
    · rw [Complex.re_ofReal_mul]; simp [div_eq_inv_mul]
    · rw [Complex.im_ofReal_mul]; simp [div_eq_inv_mul]
  rw [this, Complex.arg_real_mul _ (inv_pos.2 hr)]

theorem dir_unit {x y z : ℝ} (h : (x, y, z) ≠ 0) :
    (x / radius x y z) ^ 2 + (y / radius x y z) ^ 2 + (z / radius x y z) ^ 2 = 1 := by
  have h1 := radius_pos h
  have h2 := radius_sq x y z
  field_simp
  linarith

theorem term_eq {s cθ cφ sφ u v w : ℝ} (h1 : s * cφ = u) (h2 : s * sφ = v) (h3 : cθ = w) (i j k : Nat) :
    s ^ (i + j) * cθ ^ k * sφ ^ j * cφ ^ i = u ^ i * v ^ j * w ^ k := by
  rw [← h1, ← h2, ← h3]; ring

theorem trig_eq (n : Nat) (φ θ : ℝ) : trigCoeffs n φ θ =
    triple (n + 1) (n + 1) 2 fun i j k => Real.sin θ ^ (i + j) * Real.cos θ ^ k * Real.sin φ ^ j * Real.cos φ ^ i := rfl

theorem fast_eq (n : Nat) (x y z : ℝ) : fastTerms n x y z =
    triple (n + 1) (n + 1) 2 fun i j k => radius x y z ^ (2 * n + 1 - i - j - k) * x ^ i * y ^ j * z ^ k := rfl

/-! ## C172 -/

/-- The function of a shell is the polynomial of its coefficients in the direction of the two angles, and raises exactly
when coefficients are missing. -/
theorem C172_function (c : List ℝ) (n : Nat) (φ θ : ℝ) :
    pennaFunc c n φ θ = if 2 * ((n + 1) * (n + 1)) ≤ c.length then
      some (shellPoly (n + 1) (n + 1) 2 c (Real.sin θ * Real.cos φ) (Real.sin θ * Real.sin φ) (Real.cos θ)) else none := by
  unfold pennaFunc
  have hl : (trigCoeffs n φ θ).length = 2 * ((n + 1) * (n + 1)) := by rw [trig_eq, triple_length]
  split
  · next h =>
    rw [sumCoeffs_eq _ _ _ _ (by omega), zero_add, trig_eq, dotAt_triple, shellPoly]
    congr 1
    refine Finset.sum_congr rfl fun k _ => Finset.sum_congr rfl fun j _ => Finset.sum_congr rfl fun i _ => ?_
    rw [term_eq rfl rfl rfl]
  · next h => exact sumCoeffs_none _ _ _ _ (by omega) (by omega)

/-- The residual of a point is its radius less the shell in its direction. -/
theorem C172_residual (n : Nat) (p : List ℝ) (x y z : ℝ) (h : (x, y, z) ≠ 0) (hp : 2 * ((n + 1) * (n + 1)) ≤ p.length) :
    errFunc n p x y z = some (radius x y z -
      shellPoly (n + 1) (n + 1) 2 p (x / radius x y z) (y / radius x y z) (z / radius x y z)) := by
  have e := C172_function p n (atan2 y x) (polar x y z)
  unfold pennaFunc at e
  rw [if_pos hp] at e
  unfold errFunc
  rw [e]
  obtain ⟨h1, h2, h3⟩ := angles_unit (dir_unit h)
  rw [atan2_scale (radius_pos h)] at h1 h2
  simp only [polar, Option.map_some, h1, h2, h3]

/-- Drawn curves: at every angle of the plane of an axis the curve is as far from the centre as the shell in that
direction. -/
theorem C172_curve (c : List ℝ) (n axis : Nat) (t : ℝ) (hc : 2 * ((n + 1) * (n + 1)) ≤ c.length) :
    plotFunc (pennaFunc c n) axis t =
      let d := planeDir axis t
      let r := shellPoly (n + 1) (n + 1) 2 c d.1 d.2.1 d.2.2
      some (Real.cos t * r, Real.sin t * r) := by
  have hu : (planeDir axis t).1 ^ 2 + (planeDir axis t).2.1 ^ 2 + (planeDir axis t).2.2 ^ 2 = 1 := by
    have := Real.sin_sq_add_cos_sq t
    unfold planeDir
    split
    · simp only; linarith
    · split
      · simp only; linarith
      · simp only; linarith
  obtain ⟨h1, h2, h3⟩ := angles_unit hu
  simp only [plotFunc, C172_function, if_pos hc, h1, h2, h3, Option.map_some]

theorem fast_col (c : List ℝ) (n : Nat) (x y z : ℝ) (h : (x, y, z) ≠ 0) :
    dotAt c 0 (fastTerms n x y z) = radius x y z ^ (2 * n + 1) *
      shellPoly (n + 1) (n + 1) 2 c (x / radius x y z) (y / radius x y z) (z / radius x y z) := by
  have hr := radius_pos h
  rw [fast_eq, dotAt_triple, shellPoly, Finset.mul_sum]
  refine Finset.sum_congr rfl fun k hk => ?_
  rw [Finset.mul_sum]
  refine Finset.sum_congr rfl fun j hj => ?_
  rw [Finset.mul_sum]
  refine Finset.sum_congr rfl fun i hi => ?_
  simp only [Finset.mem_range] at hk hj hi
  have he : radius x y z ^ (2 * n + 1) =
      radius x y z ^ (2 * n + 1 - i - j - k) * radius x y z ^ i * radius x y z ^ j * radius x y z ^ k := by
    rw [← pow_add, ← pow_add, ← pow_add]; congr 1; omega
  rw [he, div_pow, div_pow, div_pow]
  field_simp

theorem fast_vecMul (n : Nat) {m : Nat} (pts : Fin m → ℝ × ℝ × ℝ) (c : Fin (2 * ((n + 1) * (n + 1))) → ℝ) (p : Fin m)
    (h : pts p ≠ 0) : Matrix.vecMul c (fastMatrix n pts) p =
      radius (pts p).1 (pts p).2.1 (pts p).2.2 ^ (2 * n + 1) *
        shellPoly (n + 1) (n + 1) 2 (List.ofFn c) ((pts p).1 / radius (pts p).1 (pts p).2.1 (pts p).2.2)
          ((pts p).2.1 / radius (pts p).1 (pts p).2.1 (pts p).2.2)
          ((pts p).2.2 / radius (pts p).1 (pts p).2.1 (pts p).2.2) := by
  rw [← fast_col _ _ _ _ _ h, dotAt_getD]
  have hl : (fastTerms n (pts p).1 (pts p).2.1 (pts p).2.2).length = 2 * ((n + 1) * (n + 1)) := by
    rw [fast_eq, triple_length]
  rw [hl, Finset.sum_range]
  simp only [Matrix.vecMul, dotProduct, fastMatrix, Matrix.of_apply]
  refine Finset.sum_congr rfl fun a _ => ?_
  congr 1
  rw [Nat.zero_add, List.getD_eq_getElem _ _ (by rw [List.length_ofFn]; exact a.2), List.getElem_ofFn]

/-- Least squares by a pseudo-inverse. -/
theorem pinv_least {a b : Nat} {M : Matrix (Fin a) (Fin b) ℝ} {P : Matrix (Fin b) (Fin a) ℝ} (h : IsPinv M P)
    (t : Fin b → ℝ) (c : Fin a → ℝ) :
    ∑ p, (Matrix.vecMul (Matrix.vecMul t P) M p - t p) ^ 2 ≤ ∑ p, (Matrix.vecMul c M p - t p) ^ 2 := by
  set c0 := Matrix.vecMul t P with hc0
  set e : Fin b → ℝ := Matrix.vecMul c0 M - t with he
  have he0 : Matrix.mulVec M e = 0 := by
    rw [he, Matrix.mulVec_sub, hc0, Matrix.vecMul_vecMul, ← Matrix.mulVec_transpose, h.symR, Matrix.mulVec_mulVec,
      ← Matrix.mul_assoc, h.mpm, sub_self]
  have hx : dotProduct (Matrix.vecMul (c - c0) M) e = 0 := by
    rw [← Matrix.dotProduct_mulVec, he0, dotProduct_zero]
  have hpt : ∀ p, (Matrix.vecMul c M p - t p) ^ 2 =
      (Matrix.vecMul c0 M p - t p) ^ 2 + Matrix.vecMul (c - c0) M p ^ 2 + 2 * (Matrix.vecMul (c - c0) M p * e p) := by
    intro p
    have h1 : Matrix.vecMul (c - c0) M p = Matrix.vecMul c M p - Matrix.vecMul c0 M p := by
      rw [Matrix.sub_vecMul]; rfl
    have h2 : e p = Matrix.vecMul c0 M p - t p := rfl
    rw [h1, h2]; ring
  have hs : ∑ p, (Matrix.vecMul c M p - t p) ^ 2 =
      ∑ p, (Matrix.vecMul c0 M p - t p) ^ 2 + ∑ p, Matrix.vecMul (c - c0) M p ^ 2 := by
    rw [Finset.sum_congr rfl (fun p _ => hpt p), Finset.sum_add_distrib, Finset.sum_add_distrib, ← Finset.mul_sum]
    have : ∑ p, Matrix.vecMul (c - c0) M p * e p = 0 := hx
    rw [this]; ring
  rw [hs]
  exact le_add_of_nonneg_right (Finset.sum_nonneg fun p _ => sq_nonneg _)

/-- The shell of coefficients `c` in the direction of a point, less its radius. -/
noncomputable def miss (n : Nat) (c : List ℝ) (q : ℝ × ℝ × ℝ) : ℝ :=
  let r := Real.sqrt (q.1 ^ 2 + q.2.1 ^ 2 + q.2.2 ^ 2)
  shellPoly (n + 1) (n + 1) 2 c (q.1 / r) (q.2.1 / r) (q.2.2 / r) - r

theorem fast_miss (n : Nat) {m : Nat} (pts : Fin m → ℝ × ℝ × ℝ) (c : Fin (2 * ((n + 1) * (n + 1))) → ℝ) (p : Fin m)
    (h : pts p ≠ 0) : Matrix.vecMul c (fastMatrix n pts) p - fastTarget n pts p =
      radius (pts p).1 (pts p).2.1 (pts p).2.2 ^ (2 * n + 1) * miss n (List.ofFn c) (pts p) := by
  rw [fast_vecMul n pts c p h]
  simp only [fastTarget, miss, radius, pow_succ _ (2 * n + 1)]
  ring

/-- The fast fit has the least sum of squares weighted by the radii to the power `2 (2 n + 1)`, and fits exactly if any
coefficients do. Missing: the weights should be 1, see the counterexample. -/
theorem C172_fast_partial (n : Nat) {m : Nat} (pts : Fin m → ℝ × ℝ × ℝ) (hp : ∀ p, pts p ≠ 0)
    (P : Matrix (Fin m) (Fin (2 * ((n + 1) * (n + 1)))) ℝ) (hP : IsPinv (fastMatrix n pts) P) :
    (fastCoeffs n pts P).length = 2 * ((n + 1) * (n + 1)) ∧
    (∀ c : List ℝ, c.length = 2 * ((n + 1) * (n + 1)) →
      ∑ p, (Real.sqrt ((pts p).1 ^ 2 + (pts p).2.1 ^ 2 + (pts p).2.2 ^ 2) ^ (2 * n + 1) *
          miss n (fastCoeffs n pts P) (pts p)) ^ 2 ≤
        ∑ p, (Real.sqrt ((pts p).1 ^ 2 + (pts p).2.1 ^ 2 + (pts p).2.2 ^ 2) ^ (2 * n + 1) * miss n c (pts p)) ^ 2) ∧
    ((∃ c : List ℝ, c.length = 2 * ((n + 1) * (n + 1)) ∧ ∀ p, miss n c (pts p) = 0) →
      ∀ p, miss n (fastCoeffs n pts P) (pts p) = 0) := by
  have hmin : ∀ c : List ℝ, c.length = 2 * ((n + 1) * (n + 1)) →
      ∑ p, (Real.sqrt ((pts p).1 ^ 2 + (pts p).2.1 ^ 2 + (pts p).2.2 ^ 2) ^ (2 * n + 1) *
          miss n (fastCoeffs n pts P) (pts p)) ^ 2 ≤
        ∑ p, (Real.sqrt ((pts p).1 ^ 2 + (pts p).2.1 ^ 2 + (pts p).2.2 ^ 2) ^ (2 * n + 1) * miss n c (pts p)) ^ 2 := by
    intro c hc
    have h := pinv_least hP (fastTarget n pts) (fun a => c.getD a 0)
    have e1 : List.ofFn (fun a : Fin (2 * ((n + 1) * (n + 1))) => c.getD a 0) = c := by
      apply List.ext_getElem
      · rw [List.length_ofFn, hc]
      · intro i h1 h2
        rw [List.getElem_ofFn]
        exact List.getD_eq_getElem _ _ h2
    simp only [fast_miss n pts _ _ (hp _), e1] at h
    exact h
  refine ⟨by rw [fastCoeffs, List.length_ofFn], hmin, ?_⟩
  rintro ⟨c, hc, h0⟩ p
  have h := hmin c hc
  simp only [h0, mul_zero, ne_eq, OfNat.ofNat_ne_zero, not_false_eq_true, zero_pow, Finset.sum_const_zero] at h
  have h1 := (Finset.sum_eq_zero_iff_of_nonneg (fun p _ => sq_nonneg _)).1
    (le_antisymm h (Finset.sum_nonneg fun p _ => sq_nonneg _)) p (Finset.mem_univ p)
  have h2 := radius_pos (x := (pts p).1) (y := (pts p).2.1) (z := (pts p).2.2) (hp p)
  unfold radius at h2
  have h3 := pow_eq_zero_iff (two_ne_zero) |>.1 h1
  rcases mul_eq_zero.1 h3 with h4 | h4
  · exact absurd h4 (pow_pos h2 _).ne'
  · exact h4

/-! ### Cases -/

theorem shell0 (a b u v w : ℝ) : shellPoly 1 1 2 [a, b] u v w = a + b * w := by
  simp [shellPoly, Finset.sum_range_succ]

/-- Two points at different distances. -/
def twoPts : Fin 2 → ℝ × ℝ × ℝ := ![(1, 0, 0), (0, 2, 0)]

theorem twoPts_ne : ∀ p, twoPts p ≠ 0 := by
  intro p; fin_cases p <;> simp [twoPts]

theorem radius_one : radius 1 0 0 = 1 := by simp [radius]

theorem radius_two : radius 0 2 0 = 2 := by
  unfold radius
  rw [show (0 : ℝ) ^ 2 + 2 ^ 2 + 0 ^ 2 = 2 ^ 2 by norm_num]
  exact Real.sqrt_sq (by norm_num)

/-- Their matrix. -/
theorem twoPts_matrix : fastMatrix 0 twoPts = (!![1, 2; 0, 0] : Matrix (Fin 2) (Fin 2) ℝ) := by
  have hp : ∀ x y z : ℝ, fastTerms 0 x y z = [radius x y z, z] := by
    intro x y z; simp [fastTerms, List.range_succ]
  ext a p
  change Fin 2 at a
  simp only [fastMatrix, Matrix.of_apply, hp]
  fin_cases a <;> fin_cases p <;> simp [twoPts, radius_one, radius_two]

/-- Its pseudo-inverse. -/
noncomputable def twoPinv : Matrix (Fin 2) (Fin (2 * ((0 + 1) * (0 + 1)))) ℝ :=
  (!![1 / 5, 0; 2 / 5, 0] : Matrix (Fin 2) (Fin 2) ℝ)

theorem twoPinv_is : IsPinv (fastMatrix 0 twoPts) twoPinv := by
  rw [twoPts_matrix]
  have h : IsPinv (!![1, 2; 0, 0] : Matrix (Fin 2) (Fin 2) ℝ) !![1 / 5, 0; 2 / 5, 0] := by
    constructor
    all_goals
      ext a b
      fin_cases a <;> fin_cases b <;> norm_num [Matrix.mul_apply, Fin.sum_univ_two, Matrix.transpose_apply]
  exact h

theorem twoPts_coeffs : fastCoeffs 0 twoPts twoPinv = [9 / 5, 0] := by
  have ht : fastTarget 0 twoPts = ![1, 4] := by
    ext p; fin_cases p <;> norm_num [fastTarget, twoPts, radius_one, radius_two]
  have : Matrix.vecMul (![1, 4] : Fin 2 → ℝ) (!![1 / 5, 0; 2 / 5, 0] : Matrix (Fin 2) (Fin 2) ℝ) = ![9 / 5, 0] := by
    ext a; fin_cases a <;> norm_num [Matrix.vecMul, dotProduct, Fin.sum_univ_two]
  unfold fastCoeffs
  rw [ht]
  change List.ofFn (Matrix.vecMul (![1, 4] : Fin 2 → ℝ) (!![1 / 5, 0; 2 / 5, 0] : Matrix (Fin 2) (Fin 2) ℝ)) = _
  rw [this]
  simp [List.ofFn_succ]

theorem twoPts_miss (a b : ℝ) : ∑ p, miss 0 [a, b] (twoPts p) ^ 2 = (a - 1) ^ 2 + (a - 2) ^ 2 := by
  have h1 := radius_one; have h2 := radius_two
  unfold radius at h1 h2
  rw [Fin.sum_univ_two]
  simp only [miss, twoPts, Matrix.cons_val_zero, Matrix.cons_val_one, h1, h2, zero_add, shell0]
  norm_num

/-- The fast fit does not have the least sum of squares. -/
theorem C172_counterexample : ¬ ∀ (n m : Nat) (pts : Fin m → ℝ × ℝ × ℝ), (∀ p, pts p ≠ 0) →
    ∀ P : Matrix (Fin m) (Fin (2 * ((n + 1) * (n + 1)))) ℝ, IsPinv (fastMatrix n pts) P →
    ∀ c : List ℝ, c.length = 2 * ((n + 1) * (n + 1)) →
      ∑ p, miss n (fastCoeffs n pts P) (pts p) ^ 2 ≤ ∑ p, miss n c (pts p) ^ 2 := by
  intro h
  have := h 0 2 twoPts twoPts_ne twoPinv twoPinv_is [3 / 2, 0] rfl
  rw [twoPts_coeffs, twoPts_miss, twoPts_miss] at this
  norm_num at this

/-- The hypotheses of `C172_fast_partial` hold for two points. -/
example : (∀ p, twoPts p ≠ 0) ∧ IsPinv (fastMatrix 0 twoPts) twoPinv := ⟨twoPts_ne, twoPinv_is⟩

/-- `C172_function` and `C172_residual`: a shell `5 + 2 w` and a point on it. -/
example : pennaFunc [5, 2] 0 0 0 = some 7 := by
  rw [C172_function]; simp [shell0]; norm_num

example : pennaFunc [5] 0 0 0 = none := by
  rw [C172_function]; simp

example : errFunc 0 [1, 2] 0 0 3 = some 0 := by
  have h3 : radius 0 0 3 = 3 := by
    unfold radius
    rw [show (0 : ℝ) ^ 2 + 0 ^ 2 + 3 ^ 2 = 3 ^ 2 by norm_num]
    exact Real.sqrt_sq (by norm_num)
  rw [C172_residual 0 [1, 2] 0 0 3 (by simp) (by simp), h3]
  norm_num [shell0]

example : plotFunc (pennaFunc [5, 2] 0) 0 0 = some (5, 0) := by
  rw [C172_curve _ _ _ _ (by simp)]; simp [planeDir, shell0]

/-- The second script: its matrix is that of the fast fit (five powers each: `n = 4`), and the surface drawn has the
distance of the shell in every direction. -/
theorem C172_surface (n I J K : Nat) (c : List ℝ) (φ θ x y z : ℝ) (hc : K * (J * I) ≤ c.length) :
    andreyTerms (n + 1) (n + 1) 2 x y z = fastTerms n x y z ∧
    ∃ d : ℝ × ℝ × ℝ, d = (Real.sin φ * Real.cos θ, Real.sin φ * Real.sin θ, Real.cos φ) ∧
      andreyPoint I J K c φ θ = some (shellPoly I J K c d.1 d.2.1 d.2.2 • d) := by
  refine ⟨?_, _, rfl, ?_⟩
  · unfold andreyTerms fastTerms
    rw [show n + 1 + (n + 1) + 2 - 3 = 2 * n + 1 by omega]
  · have e : andreyTrig I J K φ θ =
      triple I J K fun i j k => Real.sin φ ^ (i + j) * Real.cos φ ^ k * Real.sin θ ^ j * Real.cos θ ^ i := rfl
    unfold andreyPoint
    rw [sumCoeffs_eq _ _ _ _ (by rw [e, triple_length]; omega), zero_add, e, dotAt_triple]
    have hs : ∑ k ∈ Finset.range K, ∑ j ∈ Finset.range J, ∑ i ∈ Finset.range I, c.getD ((k * J + j) * I + i) 0 *
        (Real.sin φ ^ (i + j) * Real.cos φ ^ k * Real.sin θ ^ j * Real.cos θ ^ i) =
        shellPoly I J K c (Real.sin φ * Real.cos θ) (Real.sin φ * Real.sin θ) (Real.cos φ) := by
      refine Finset.sum_congr rfl fun k _ => Finset.sum_congr rfl fun j _ => Finset.sum_congr rfl fun i _ => ?_
      rw [term_eq rfl rfl rfl]
    rw [hs]
    simp [mul_assoc]

example : andreyPoint 1 1 2 [5, 2] 0 0 = some (0, 0, 7) := by
  obtain ⟨d, rfl, h⟩ := (C172_surface 0 1 1 2 [5, 2] 0 0 1 1 1 (by simp)).2
  rw [h]; simp [shell0]; norm_num

theorem misses_nonneg (vals : List ℝ) : ∀ rs : List ℝ, 0 ≤ (List.zipWith (fun v r => (v - r) ^ 2) vals rs).sum := by
  induction vals with
  | nil => simp
  | cons v vals ih =>
    rintro (_ | ⟨r, rs⟩)
    · simp
    · rw [List.zipWith_cons_cons, List.sum_cons]
      exact add_nonneg (sq_nonneg _) (ih rs)

/-- The measure of the fit is 0 exactly if every radius is that of the shell. -/
theorem C172_chi2 (vals rs : List ℝ) (n : Nat) (hl : vals.length = rs.length) (hn : rs.length ≠ n + 1)
    (hs : rs.sum ≠ 0) : chi2 vals rs n = 0 ↔ vals = rs := by
  have h0 : rs.length ≠ 0 := by
    rintro h; rw [List.length_eq_zero_iff] at h; simp [h] at hs
  have h1 : ((rs.length : ℝ) - n - 1) ≠ 0 := by
    intro h
    apply hn
    have : (rs.length : ℝ) = ((n + 1 : Nat) : ℝ) := by push_cast; linarith
    exact_mod_cast this
  have h2 : (rs.sum / rs.length) ^ 2 ≠ 0 :=
    pow_ne_zero _ (div_ne_zero hs (by exact_mod_cast h0))
  unfold chi2
  rw [div_eq_zero_iff, div_eq_zero_iff]
  simp only [h1, h2, or_false]
  clear h0 h1 h2 hs hn
  induction vals generalizing rs with
  | nil =>
    have : rs = [] := List.length_eq_zero_iff.1 (by simpa using hl.symm)
    simp [this]
  | cons v vals ih =>
    rcases rs with _ | ⟨r, rs⟩
    · simp at hl
    · simp only [List.length_cons, Nat.add_right_cancel_iff] at hl
      have hn := misses_nonneg vals rs
      have e := ih rs hl
      rw [List.zipWith_cons_cons, List.sum_cons]
      constructor
      · intro h
        have h1 := sq_nonneg (v - r)
        have h2 : (v - r) ^ 2 = 0 := by linarith
        have h3 := pow_eq_zero_iff (two_ne_zero) |>.1 h2
        rw [e.1 (by linarith), show v = r by linarith]
      · intro h
        injection h with h1 h2
        rw [e.2 h2, h1]; simp

example : chi2 [1, 2, 3] [1, 2, 4] 1 ≠ 0 := by
  rw [Ne, C172_chi2 [1, 2, 3] [1, 2, 4] 1 rfl (by simp) (by norm_num)]
  norm_num

end Verif.Py
