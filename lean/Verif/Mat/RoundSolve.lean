import Verif.Mat.RoundLU
import Verif.Mat.Solve

/-! Solving linear systems with rounding: property C139. -/

set_option autoImplicit false

namespace Verif.Mat

open Verif.Go

/-! ### Substitution -/

theorem macs_loop (f : FP) {n i : Nat} (hi : i < n) {lu xs : List ℚ} {M : Nat → Nat → ℚ} (r : Rep lu n n M)
    (hx : xs.length = n) {lo : Nat} (hlo : lo ≤ n) :
    ∀ hi', lo ≤ hi' → hi' ≤ n → forRange (lo : Int) hi' (fun j sum => do
        let l ← rd lu ((i : Int) * n + j)
        let y ← rd xs j
        some (f.mac sum l y)) 0 =
      some (macs f (fun j => M i (lo + j)) (fun j => xs.getD (lo + j) 0) (hi' - lo)) := by
  intro hi' h1 h2
  have hxs : ∀ i < n, xs[i]? = some (xs.getD i 0) := fun i hi => rd_getD' (by rw [hx]; exact hi)
  obtain ⟨s, e, h⟩ := forRange_nat (fun k s => s = macs f (fun j => M i (lo + j)) (fun j => xs.getD (lo + j) 0) (k - lo))
    (lo := lo) (hi := hi') h1 (fun j sum => do
        let l ← rd lu ((i : Int) * n + j)
        let y ← rd xs j
        some (f.mac sum l y)) 0 (by rw [Nat.sub_self]; rfl) (by
      intro j t hj hj' ht
      refine ⟨_, bind_of (r.rd hi (by omega)) (bind_of (rd_fn_nat hxs j rfl (by omega)) rfl), ?_⟩
      rw [show j + 1 - lo = (j - lo) + 1 by omega, macs, ht, show lo + (j - lo) = j by omega])
  rw [e, h]

/-- The second loop of `forwardSubst`: `L y = b`, up to rounding. -/
theorem forwardR_eq {f : FP} {u : ℚ} (hf : f.Laws u) {n : Nat} {lu : List ℚ} {M : Nat → Nat → ℚ} (r : Rep lu n n M)
    (b : List ℚ) (hb : b.length = n) :
    ∃ ys, forRange 0 n (fun i ys => do
      let sum ← forRange 0 i (fun j sum => do
        let l ← rd lu (i * n + j)
        let y ← rd ys j
        some (f.mac sum l y)) 0
      let y ← rd ys i
      wr ys i (f.fl (y - sum))) b = some ys ∧ ys.length = n ∧
      ∀ i, i < n → |b.getD i 0 - (∑ j ∈ Finset.range i, M i j * ys.getD j 0 + ys.getD i 0)| ≤
        ((1 + u) ^ n - 1) * (∑ j ∈ Finset.range i, |M i j| * |ys.getD j 0| + |ys.getD i 0|) := by
  obtain ⟨ys, e, h1, h2, h3⟩ := forRange_nat (fun k ys => ys.length = n ∧
      (∀ i, k ≤ i → ys.getD i 0 = b.getD i 0) ∧
      (∀ i, i < k → ys.getD i 0 = f.fl (b.getD i 0 - macs f (M i) (fun j => ys.getD j 0) i))) (lo := 0) (hi := n)
    (Nat.zero_le _) (fun i ys => do
      let sum ← forRange 0 i (fun j sum => do
        let l ← rd lu (i * n + j)
        let y ← rd ys j
        some (f.mac sum l y)) 0
      let y ← rd ys i
      wr ys i (f.fl (y - sum))) b ⟨hb, fun _ _ => rfl, by intro i h; omega⟩ (by
      intro k ys _ hk ⟨h1, h2, h3⟩
      have hy : ∀ i < n, ys[i]? = some (ys.getD i 0) := fun i hi => rd_getD' (by rw [h1]; exact hi)
      have a1 := macs_loop f hk r h1 (Nat.zero_le n) k (Nat.zero_le _) hk.le
      simp only [Nat.cast_zero, Nat.sub_zero, Nat.zero_add] at a1
      have a2 : rd ys (k : Int) = some (ys.getD k 0) := rd_fn_nat hy k rfl hk
      have hlt : k < ys.length := by rw [h1]; exact hk
      refine ⟨_, bind_of a1 (bind_of a2 (wr_natCast hlt)), by simpa using h1, ?_, ?_⟩
      · intro i hi
        rw [getD_set hlt, if_neg (by omega), h2 i (by omega)]
      · intro i hi
        have low : ∀ v, macs f (M i) (fun j => (ys.set k v).getD j 0) i = macs f (M i) (fun j => ys.getD j 0) i := by
          intro v
          apply macs_congr
          intro j hj
          rw [getD_set hlt, if_neg (by omega)]
          exact ⟨rfl, rfl⟩
        rw [low, getD_set hlt]
        split
        · next c => subst c; rw [h2 k le_rfl]
        · next c => exact h3 i (by omega))
  rw [Nat.cast_zero] at e
  refine ⟨ys, e, h1, ?_⟩
  intro i hi
  have hu := hf.nonneg
  have e1 := h3 i hi
  have e2 := hf.err' (b.getD i 0 - macs f (M i) (fun j => ys.getD j 0) i)
  rw [← e1] at e2
  have e3 := macs_err hf (M i) (fun j => ys.getD j 0) i
  have hT : 0 ≤ ∑ j ∈ Finset.range i, |M i j| * |ys.getD j 0| := Finset.sum_nonneg fun j _ => by positivity
  generalize macs f (M i) (fun j => ys.getD j 0) i = s at *
  generalize (∑ j ∈ Finset.range i, M i j * ys.getD j 0) = S at *
  generalize (∑ j ∈ Finset.range i, |M i j| * |ys.getD j 0|) = T at *
  generalize ys.getD i 0 = y at *
  generalize b.getD i 0 = x at *
  have g1 : (1 + u) ^ i ≤ (1 + u) ^ n := pow_le_pow_right₀ (by linarith) hi.le
  have g2 : 1 + u ≤ (1 + u) ^ n := by
    have := pow_le_pow_right₀ (a := 1 + u) (by linarith) (show 1 ≤ n by omega)
    rwa [pow_one] at this
  have e4 := abs_add_le (-(y - (x - s))) (s - S)
  rw [abs_neg, show -(y - (x - s)) + (s - S) = x - (S + y) by ring] at e4
  have e5 : ((1 + u) ^ i - 1) * T ≤ ((1 + u) ^ n - 1) * T := mul_le_mul_of_nonneg_right (by linarith) hT
  have e6 : u * |y| ≤ ((1 + u) ^ n - 1) * |y| := mul_le_mul_of_nonneg_right (by linarith) (abs_nonneg _)
  rw [mul_add]
  linarith

/-- `backSubst`: `U x = y`, up to rounding. -/
theorem backR_eq {f : FP} {u : ℚ} (hf : f.Laws u) {n : Nat} {lu : List ℚ} {M : Nat → Nat → ℚ} (r : Rep lu n n M)
    (hM : ∀ i < n, M i i ≠ 0) (y : List ℚ) (hy : y.length = n) :
    ∃ xs, backSubstR f n lu y = some xs ∧ xs.length = n ∧
      ∀ i, i < n → |y.getD i 0 - ∑ j ∈ Finset.Ico i n, M i j * xs.getD j 0| ≤
        ((1 + u) ^ (n + 1) - 1) * ∑ j ∈ Finset.Ico i n, |M i j| * |xs.getD j 0| := by
  unfold backSubstR
  obtain ⟨xs, e, h1, h2, h3⟩ := forDown_spec (fun (k : Int) xs => xs.length = n ∧
      (∀ i : Nat, (i : Int) ≤ k → xs.getD i 0 = y.getD i 0) ∧
      (∀ i : Nat, k < i → i < n → xs.getD i 0 = f.fl (f.fl (y.getD i 0 -
        macs f (fun j => M i (i + 1 + j)) (fun j => xs.getD (i + 1 + j) 0) (n - (i + 1))) / M i i)))
    (lo := 0) (hi := (n : Int) - 1) (by omega)
    (fun i xs => do
    let sum ← forRange (i + 1) n (fun j sum => do
      let l ← rd lu (i * n + j)
      let x ← rd xs j
      some (f.mac sum l x)) 0
    let y ← rd xs i
    let l ← rd lu (i * n + i)
    wr xs i (f.fl (f.fl (y - sum) / l))) y ⟨hy, fun _ _ => rfl, by intro i h; omega⟩ (by
      intro k xs h0 hk ⟨h1, h2, h3⟩
      obtain ⟨k, rfl⟩ := Int.eq_ofNat_of_zero_le h0
      have hk : k < n := by omega
      have hx : ∀ i < n, xs[i]? = some (xs.getD i 0) := fun i hi => rd_getD' (by rw [h1]; exact hi)
      have a1 := macs_loop f hk r h1 (lo := k + 1) hk n hk le_rfl
      rw [show ((k + 1 : Nat) : Int) = (k : Int) + 1 by push_cast; rfl] at a1
      have a2 : rd xs (k : Int) = some (xs.getD k 0) := rd_fn_nat hx k rfl hk
      have hlt : k < xs.length := by rw [h1]; exact hk
      refine ⟨_, bind_of a1 (bind_of a2 (bind_of (r.rd hk hk) (wr_natCast hlt))), by simpa using h1, ?_, ?_⟩
      · intro i hi
        rw [getD_set hlt, if_neg (by omega), h2 i (by omega)]
      · intro i hi hin
        have low : ∀ v, macs f (fun j => M i (i + 1 + j)) (fun j => (xs.set k v).getD (i + 1 + j) 0) (n - (i + 1)) =
            macs f (fun j => M i (i + 1 + j)) (fun j => xs.getD (i + 1 + j) 0) (n - (i + 1)) := by
          intro v
          apply macs_congr
          intro j hj
          rw [getD_set hlt, if_neg (by omega)]
          exact ⟨rfl, rfl⟩
        rw [low, getD_set hlt]
        by_cases c : k = i
        · subst c
          rw [if_pos rfl, h2 k le_rfl]
        · rw [if_neg c]
          exact h3 i (by omega) hin)
  refine ⟨xs, e, h1, ?_⟩
  intro i hi
  have hu := hf.nonneg
  have e1 := h3 i (by omega) hi
  have e3 := macs_err hf (fun j => M i (i + 1 + j)) (fun j => xs.getD (i + 1 + j) 0) (n - (i + 1))
  have hd := hM i hi
  rw [Finset.sum_eq_sum_Ico_succ_bot hi, Finset.sum_eq_sum_Ico_succ_bot hi, Finset.sum_Ico_eq_sum_range,
    Finset.sum_Ico_eq_sum_range]
  have hT : 0 ≤ ∑ j ∈ Finset.range (n - (i + 1)), |M i (i + 1 + j)| * |xs.getD (i + 1 + j) 0| :=
    Finset.sum_nonneg fun j _ => by positivity
  generalize macs f (fun j => M i (i + 1 + j)) (fun j => xs.getD (i + 1 + j) 0) (n - (i + 1)) = s at *
  generalize (∑ j ∈ Finset.range (n - (i + 1)), M i (i + 1 + j) * xs.getD (i + 1 + j) 0) = S at *
  generalize (∑ j ∈ Finset.range (n - (i + 1)), |M i (i + 1 + j)| * |xs.getD (i + 1 + j) 0|) = T at *
  generalize xs.getD i 0 = x at *
  generalize y.getD i 0 = b at *
  generalize M i i = d at *
  have z1 := hf.err' (b - s)
  generalize f.fl (b - s) = z at *
  have z2 := hf.err' (z / d)
  rw [← e1] at z2
  have z3 : |x * d - z| ≤ u * |x * d| := by
    have e : x * d - z = (x - z / d) * d := by field_simp
    rw [e, abs_mul, abs_mul, ← mul_assoc]
    exact mul_le_mul_of_nonneg_right z2 (abs_nonneg _)
  have z4 : |z| ≤ |x * d| + |x * d - z| := by
    have := abs_sub (x * d) (x * d - z)
    rwa [sub_sub_cancel] at this
  have g1 : (1 + u) ^ (n - (i + 1)) ≤ (1 + u) ^ (n + 1) := pow_le_pow_right₀ (by linarith) (by omega)
  have g2 : (1 + u) ^ 2 ≤ (1 + u) ^ (n + 1) := pow_le_pow_right₀ (by linarith) (by omega)
  have z5 : |b - (d * x + S)| ≤ |z - (b - s)| + |x * d - z| + |s - S| := by
    have k1 := abs_add_le (-(z - (b - s)) + -(x * d - z)) (s - S)
    have k2 := abs_add_le (-(z - (b - s))) (-(x * d - z))
    rw [abs_neg, abs_neg] at k2
    rw [show -(z - (b - s)) + -(x * d - z) + (s - S) = b - (d * x + S) by ring] at k1
    linarith
  have e5 : ((1 + u) ^ (n - (i + 1)) - 1) * T ≤ ((1 + u) ^ (n + 1) - 1) * T :=
    mul_le_mul_of_nonneg_right (by linarith) hT
  have e6 : ((1 + u) ^ 2 - 1) * |x * d| ≤ ((1 + u) ^ (n + 1) - 1) * |x * d| :=
    mul_le_mul_of_nonneg_right (by linarith) (abs_nonneg _)
  have e7 : u * |z| ≤ u * ((1 + u) * |x * d|) := mul_le_mul_of_nonneg_left (by linarith) hu
  rw [mul_comm (|d|), ← abs_mul, mul_add]
  nlinarith

/-! ### Matrix form -/

theorem lower_sum {n : Nat} (F : _root_.Matrix (Fin n) (Fin n) ℚ) (M : Nat → Nat → ℚ) (hM : ∀ i j : Fin n, F i j = M i j)
    (v : Nat → ℚ) (i : Fin n) :
    ∑ j : Fin n, lower F i j * v j = ∑ j ∈ Finset.range i, M i j * v j + v i := by
  rw [sum_range_eq _ i.2, Finset.sum_range]
  apply Finset.sum_congr rfl
  intro j _
  unfold lower
  simp only [_root_.Matrix.of_apply]
  by_cases c : j < i
  · rw [if_pos c, if_pos (show j.val < i.val from c), hM]
  · rw [if_neg c, if_neg (show ¬ j.val < i.val from c)]
    by_cases d : i = j
    · rw [if_pos d, if_pos (by rw [d]), one_mul, d]
    · rw [if_neg d, if_neg (fun h => d (Fin.ext h.symm)), zero_mul]

theorem upper_sum {n : Nat} (F : _root_.Matrix (Fin n) (Fin n) ℚ) (M : Nat → Nat → ℚ) (hM : ∀ i j : Fin n, F i j = M i j)
    (v : Nat → ℚ) (i : Fin n) :
    ∑ j : Fin n, upper F i j * v j = ∑ j ∈ Finset.Ico i.val n, M i j * v j := by
  rw [sum_Ico_eq _ i.2.le, Finset.sum_range]
  apply Finset.sum_congr rfl
  intro j _
  unfold upper
  simp only [_root_.Matrix.of_apply]
  by_cases c : j < i
  · rw [if_pos c, if_pos (show j.val < i.val from c), zero_mul]
  · rw [if_neg c, if_neg (show ¬ j.val < i.val from c), hM]

/-- The absolute values of a vector. -/
def absV {n : Nat} (v : Fin n → ℚ) : Fin n → ℚ := fun i => |v i|

theorem abs_mulVec_le {n : Nat} (A : _root_.Matrix (Fin n) (Fin n) ℚ) (v w : Fin n → ℚ) (h : ∀ i, |v i| ≤ w i) (i : Fin n) :
    |A.mulVec v i| ≤ (absM A).mulVec w i := by
  refine (Finset.abs_sum_le_sum_abs _ _).trans (Finset.sum_le_sum fun j _ => ?_)
  rw [abs_mul]
  exact mul_le_mul_of_nonneg_left (h j) (abs_nonneg _)

theorem absM_mulVec_mono {n : Nat} (A : _root_.Matrix (Fin n) (Fin n) ℚ) (v w : Fin n → ℚ) (h : ∀ i, v i ≤ w i) (i : Fin n) :
    (absM A).mulVec v i ≤ (absM A).mulVec w i :=
  Finset.sum_le_sum fun j _ => mul_le_mul_of_nonneg_left (h j) (abs_nonneg _)

theorem mulVec_scale {n : Nat} (A : _root_.Matrix (Fin n) (Fin n) ℚ) (v : Fin n → ℚ) (c : ℚ) (i : Fin n) :
    A.mulVec (fun j => c * v j) i = c * A.mulVec v i := by
  show ∑ j, A i j * (c * v j) = c * ∑ j, A i j * v j
  rw [Finset.mul_sum]
  exact Finset.sum_congr rfl fun j _ => by ring

/-- What `SolveVector` returns with factors `F`: the residual with respect to their product. -/
theorem solveR_eq {f : FP} {u : ℚ} (hf : f.Laws u) {n : Nat} (hn : 0 < n) {A : _root_.Matrix (Fin n) (Fin n) ℚ}
    {luf : LUFactors} {F : _root_.Matrix (Fin n) (Fin n) ℚ} {p : Fin n → Fin n} (h : FactoredR u A luf F p)
    (bs xs : List ℚ) (hb : bs.length = n) (hx : xs.length = n) :
    ∃ (x : List ℚ) (c : Fin n → ℚ), luf.solveVectorR f bs xs = some x ∧ x.length = n ∧
      (∀ i, |c i - (lower F * upper F).mulVec (vecOf n x) i| ≤
        ((1 + u) ^ (2 * n + 1) - 1) * (absM (lower F)).mulVec ((absM (upper F)).mulVec (absV (vecOf n x))) i) ∧
      (∀ q, p q = q → c q = vecOf n bs q) := by
  have hr := h.holds.rep
  have hM : ∀ i j : Fin n, F i j = fnOf luf.lu n i j := fun i j => h.holds.eq_fnOf i j
  have hMa : ∀ i j : Fin n, absM F i j = absF (fnOf luf.lu n) i j := fun i j => by
    simp only [absM, absF, _root_.Matrix.map_apply, hM]
  obtain ⟨b', e1, l1, h1, -⟩ := scatter_eq h.le bs xs hb hx
  obtain ⟨y, e2, l2, h2⟩ := forwardR_eq hf hr b' l1
  obtain ⟨x, e3, l3, h3⟩ := backR_eq hf hr (by
    intro i hi
    have := h.diag ⟨i, hi⟩
    rw [hM] at this
    exact this) y l2
  refine ⟨x, vecOf n b', ?_, l3, ?_, h1⟩
  · unfold LUFactors.solveVectorR
    rw [if_neg (by rw [h.size, hb]; simp), if_neg (by rw [h.size, hx]; simp), if_neg (by rw [h.size]; omega),
      h.size, h.pivot]
    unfold forwardSubstR
    exact bind_of (bind_of e1 e2) e3
  · have hu := hf.nonneg
    have g1 : (1 : ℚ) ≤ (1 + u) ^ n := one_le_pow₀ (by linarith)
    have g2 : (1 : ℚ) ≤ (1 + u) ^ (n + 1) := one_le_pow₀ (by linarith)
    have hU : ∀ i, |vecOf n y i - (upper F).mulVec (vecOf n x) i| ≤
        ((1 + u) ^ (n + 1) - 1) * (absM (upper F)).mulVec (absV (vecOf n x)) i := by
      intro i
      have := h3 i i.2
      rw [← upper_sum F _ hM (fun j => x.getD j 0)] at this
      have k2 := upper_sum (absM F) _ hMa (fun j => |x.getD j 0|) i
      simp only [absF] at k2
      rw [← k2, ← absM_upper] at this
      exact this
    have hL : ∀ i, |vecOf n b' i - (lower F).mulVec (vecOf n y) i| ≤
        ((1 + u) ^ n - 1) * (absM (lower F)).mulVec (absV (vecOf n y)) i := by
      intro i
      have := h2 i i.2
      rw [← lower_sum F _ hM (fun j => y.getD j 0)] at this
      have k2 := lower_sum (absM F) _ hMa (fun j => |y.getD j 0|) i
      simp only [absF] at k2
      rw [← k2, ← absM_lower] at this
      exact this
    have hy : ∀ i, absV (vecOf n y) i ≤ (1 + u) ^ (n + 1) * (absM (upper F)).mulVec (absV (vecOf n x)) i := by
      intro i
      have k1 := hU i
      have k2 := abs_mulVec_le (upper F) (vecOf n x) (absV (vecOf n x)) (fun _ => le_rfl) i
      have k3 := abs_add_le (vecOf n y i - (upper F).mulVec (vecOf n x) i) ((upper F).mulVec (vecOf n x) i)
      rw [sub_add_cancel] at k3
      show |vecOf n y i| ≤ _
      linarith
    intro i
    have k1 := hL i
    have k2 := absM_mulVec_mono (lower F) _ _ hy i
    rw [mulVec_scale] at k2
    have k3 := abs_mulVec_le (lower F) (fun i => vecOf n y i - (upper F).mulVec (vecOf n x) i) _ hU i
    rw [mulVec_scale] at k3
    have k4 : (lower F).mulVec (fun i => vecOf n y i - (upper F).mulVec (vecOf n x) i) i =
        (lower F).mulVec (vecOf n y) i - (lower F * upper F).mulVec (vecOf n x) i := by
      rw [← _root_.Matrix.mulVec_mulVec]
      have := congrFun (_root_.Matrix.mulVec_sub (lower F) (vecOf n y) ((upper F).mulVec (vecOf n x))) i
      exact this
    rw [k4] at k3
    have k5 := abs_sub_le (vecOf n b' i) ((lower F).mulVec (vecOf n y) i) ((lower F * upper F).mulVec (vecOf n x) i)
    generalize (absM (lower F)).mulVec ((absM (upper F)).mulVec (absV (vecOf n x))) i = W at *
    have k6 : ((1 + u) ^ n - 1) * (absM (lower F)).mulVec (absV (vecOf n y)) i ≤
        ((1 + u) ^ n - 1) * ((1 + u) ^ (n + 1) * W) := mul_le_mul_of_nonneg_left k2 (by linarith)
    rw [show 2 * n + 1 = n + (n + 1) by ring, pow_add]
    nlinarith

/-- C139: solving a linear system in arithmetic with `p` bits. For every matrix without a zero row, unless the factors show that
a column had no pivot, `SolveVector` returns, and if the factorisation exchanged no rows the result `x` satisfies
`|b - A x| ≤ ((1 + 2^-p)^(3n) - 1) |L| |U| |x|` in every row, whatever the result slice held before.
Missing: matrices that need an exchange, for which the result is wrong even without rounding (C29). -/
theorem C139_solve_partial {p : ℕ} (hp : 0 < p) (fused : Bool) {n : Nat} (hn : 0 < n) (A : _root_.Matrix (Fin n) (Fin n) ℚ)
    (hA : ∀ i, ∃ j, A i j ≠ 0) (m : List ℚ) (H : Holds m A) :
    ∃ luf, Matrix.LUR (fp p fused) ⟨m, n, n⟩ = some luf ∧ (Lost p luf ∨ ∃ F q, FactoredR (1 / 2 ^ p) A luf F q ∧
      ∀ bs xs : List ℚ, bs.length = n → xs.length = n →
        ∃ x, luf.solveVectorR (fp p fused) bs xs = some x ∧ x.length = n ∧
          ((∀ i, q i = i) → ∀ i, |vecOf n bs i - A.mulVec (vecOf n x) i| ≤
            ((1 + 1 / 2 ^ p) ^ (3 * n) - 1) * ((absM (lower F) * absM (upper F)).mulVec (absV (vecOf n x))) i)) := by
  have hf := fp_laws hp fused
  obtain ⟨⟨luf, e, -, -, hl⟩, -⟩ := C138_factors hp fused A hA m H
  refine ⟨luf, e, ?_⟩
  rcases hl with hl | ⟨F, q, h⟩
  · exact Or.inl hl
  right
  refine ⟨F, q, h, ?_⟩
  intro bs xs hb hx
  obtain ⟨x, c, e, hl, h1, h2⟩ := solveR_eq hf hn h bs xs hb hx
  refine ⟨x, e, hl, ?_⟩
  intro hid i
  have k1 := h1 i
  rw [h2 i (hid i), _root_.Matrix.mulVec_mulVec] at k1
  have hW : 0 ≤ ((absM (lower F) * absM (upper F)).mulVec (absV (vecOf n x))) i := by
    have := abs_mulVec_le (lower F) (fun _ => 0) ((absM (upper F)).mulVec (absV (vecOf n x))) (fun j => by
      have := abs_mulVec_le (upper F) (vecOf n x) (absV (vecOf n x)) (fun _ => le_rfl) j
      rw [abs_zero]
      exact (abs_nonneg _).trans this) i
    rw [← _root_.Matrix.mulVec_mulVec]
    exact (abs_nonneg _).trans this
  have k2 : |(lower F * upper F).mulVec (vecOf n x) i - A.mulVec (vecOf n x) i| ≤
      ((1 + 1 / 2 ^ p) ^ (n - 1) - 1) * ((absM (lower F) * absM (upper F)).mulVec (absV (vecOf n x))) i := by
    show |∑ j, (lower F * upper F) i j * vecOf n x j - ∑ j, A i j * vecOf n x j| ≤
      ((1 + 1 / 2 ^ p) ^ (n - 1) - 1) * ∑ j, (absM (lower F) * absM (upper F)) i j * |vecOf n x j|
    rw [← Finset.sum_sub_distrib, Finset.mul_sum]
    refine (Finset.abs_sum_le_sum_abs _ _).trans (Finset.sum_le_sum fun j _ => ?_)
    rw [← sub_mul, abs_mul, ← mul_assoc]
    refine mul_le_mul_of_nonneg_right ?_ (abs_nonneg _)
    have := h.mul i j
    rw [rowOrder_id hid n le_rfl] at this
    exact this
  generalize ((absM (lower F) * absM (upper F)).mulVec (absV (vecOf n x))) i = W at *
  have k3 := abs_sub_le (vecOf n bs i) ((lower F * upper F).mulVec (vecOf n x) i) (A.mulVec (vecOf n x) i)
  have hu := hf.nonneg
  generalize (1 / 2 ^ p : ℚ) = u at *
  have g1 : (1 : ℚ) ≤ (1 + u) ^ (2 * n + 1) := one_le_pow₀ (by linarith)
  have g2 : (1 : ℚ) ≤ (1 + u) ^ (n - 1) := one_le_pow₀ (by linarith)
  rw [show 3 * n = (2 * n + 1) + (n - 1) by omega, pow_add]
  generalize (1 + u) ^ (2 * n + 1) = a at *
  generalize (1 + u) ^ (n - 1) = b at *
  have : 0 ≤ (a - 1) * (b - 1) * W := mul_nonneg (mul_nonneg (by linarith) (by linarith)) hW
  nlinarith

/-- The hypotheses are met by `[3 1; 1 3]`: no rows are exchanged and no column lacks a pivot. -/
example : (Matrix.LUR (fp 24 false) ⟨[3, 1, 1, 3], 2, 2⟩).map (fun l => (l.lu, l.pivot)) =
      some ([3, 1, 11184811 / 33554432, 11184811 / 4194304], [0, 1]) ∧
    ((Matrix.LUR (fp 24 false) ⟨[3, 1, 1, 3], 2, 2⟩).bind fun l => l.solveVectorR (fp 24 false) [1, 2] [0, 0]) =
      some [8388609 / 67108864, 10485759 / 16777216] := by decide +kernel

/-- C139 fails if rows are exchanged: the system `y = 3, x = 5` is answered with `x = 0, y = 5`, with or without fused operations
and in both precisions. -/
theorem C139_exchange_counterexample : ∀ fused, ∀ p ∈ [24, 53],
    ((Matrix.LUR (fp p fused) ⟨[0, 1, 1, 0], 2, 2⟩).bind fun l => l.solveVectorR (fp p fused) [3, 5] [0, 0]) = some [0, 5] := by
  decide +kernel

end Verif.Mat
