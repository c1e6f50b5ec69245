import Verif.Interp.RoundSavGolModel
import Verif.Interp.SavGol
import Verif.Mat.RoundParity

/-! Savitzky-Golay kernels in machine arithmetic: property C200. -/

set_option autoImplicit false

namespace Verif.Interp

open Verif.Go Verif.Mat

/-! ### The sums of powers -/

/-- What is used of `math.Pow`: exact as long as the power is an integer of at most 53 bits, positive for positive numbers, and
even or odd as the exponent is. -/
structure PowOk (pow : ℚ → ℕ → ℚ) : Prop where
  exact : ∀ (k : ℤ) (e : ℕ), |k ^ e| ≤ 2 ^ 53 → pow k e = (k : ℚ) ^ e
  pos : ∀ (k : ℤ) (e : ℕ), 0 < k → 0 < pow k e
  even : ∀ (k : ℤ) (e : ℕ), e % 2 = 0 → pow (-(k : ℚ)) e = pow k e

theorem fl_int (fused : Bool) {z : ℤ} (h : |z| ≤ 2 ^ 53) : (fp 53 fused).fl z = z := by
  show rnd 53 (z : ℚ) = z
  have := rep_int h (by norm_num) 0
  rw [zpow_zero, mul_one] at this
  exact rnd_of_rep this

/-- Integers of at most 53 bits are added exactly. -/
theorem sumR_int (fused : Bool) (n : ℕ) (g : ℕ → ℤ) (z : ℤ) (hb : ∀ k ≤ n, |z + ∑ j ∈ Finset.Ico 1 (k + 1), g j| ≤ 2 ^ 53)
    (body : ℤ → ℚ → Option ℚ) (hbody : ∀ k : ℕ, 1 ≤ k → k ≤ n → ∀ s, body k s = some ((fp 53 fused).fl (s + g k))) :
    forRange 1 ((n : ℤ) + 1) body z = some ((z + ∑ j ∈ Finset.Ico 1 (n + 1), g j : ℤ) : ℚ) := by
  obtain ⟨s, e, h⟩ := forRange_nat (fun k s => s = ((z + ∑ j ∈ Finset.Ico 1 k, g j : ℤ) : ℚ)) (lo := 1) (hi := n + 1) (by omega)
    body z (by simp) (by
      intro k s h1 h2 hs
      refine ⟨_, hbody k h1 (by omega) s, ?_⟩
      rw [hs, Finset.sum_Ico_succ_top h1, ← Int.cast_add, add_assoc]
      have := hb k (by omega)
      rw [Finset.sum_Ico_succ_top h1] at this
      exact fl_int fused this)
  push_cast at e
  rw [e, h]

/-- Adding positive numbers gives a positive number. -/
theorem sumR_pos {f : FP} {u : ℚ} (hf : f.Laws u) (n : ℕ) (g : ℕ → ℚ) (hg : ∀ k, 1 ≤ k → 0 < g k) (z : ℚ) (hz : 0 ≤ z)
    (body : ℤ → ℚ → Option ℚ) (hbody : ∀ k : ℕ, 1 ≤ k → k ≤ n → ∀ s, body k s = some (f.fl (s + g k))) :
    ∃ s, forRange 1 ((n : ℤ) + 1) body z = some s ∧ 0 ≤ s ∧ (0 < z ∨ 0 < n → 0 < s) := by
  obtain ⟨s, e, h0, h1⟩ := forRange_nat (fun k s => 0 ≤ s ∧ (0 < z ∨ 1 < k → 0 < s)) (lo := 1) (hi := n + 1) (by omega)
    body z ⟨hz, by rintro (h | h); exacts [h, absurd h (by omega)]⟩ (by
      intro k s h1 h2 ⟨hs, _⟩
      have : 0 < f.fl (s + g k) := hf.pos _ (by linarith [hg k h1])
      exact ⟨_, hbody k h1 (by omega) s, this.le, fun _ => this⟩)
  push_cast at e
  exact ⟨s, e, h0, fun h => h1 (h.imp id fun h => by omega)⟩

/-- The sums of odd powers are zero. -/
theorem powerSumR_odd (fused : Bool) {pow : ℚ → ℕ → ℚ} (hw : PowOk pow) {n e : ℕ} (he : e % 2 = 1) (hb : n * n ^ e ≤ 2 ^ 53) :
    powerSumR (fp 53 fused) pow n e = some 0 := by
  have hk : ∀ k : ℕ, 1 ≤ k → k ≤ n → ((k : ℤ) ^ e) ≤ 2 ^ 53 := by
    intro k h1 h2
    have : k ^ e ≤ 2 ^ 53 := (Nat.pow_le_pow_left h2 e).trans ((Nat.le_mul_of_pos_left _ (by omega)).trans hb)
    exact_mod_cast this
  have hS : ∀ k ≤ n, ∑ j ∈ Finset.Ico 1 (k + 1), (j : ℤ) ^ e ≤ 2 ^ 53 := by
    intro k hk
    have h1 : ∑ j ∈ Finset.Ico 1 (k + 1), j ^ e ≤ ∑ j ∈ Finset.Ico 1 (k + 1), n ^ e :=
      Finset.sum_le_sum fun j hj => Nat.pow_le_pow_left (by rw [Finset.mem_Ico] at hj; omega) e
    rw [Finset.sum_const, Nat.card_Ico, smul_eq_mul] at h1
    have h2 : ∑ j ∈ Finset.Ico 1 (k + 1), j ^ e ≤ 2 ^ 53 :=
      h1.trans ((Nat.mul_le_mul_right _ (by omega)).trans hb)
    exact_mod_cast h2
  have hS0 : ∀ k : ℕ, 0 ≤ ∑ j ∈ Finset.Ico 1 (k + 1), (j : ℤ) ^ e := fun k => Finset.sum_nonneg fun j _ => by positivity
  have hodd : ∀ k : ℤ, (-k) ^ e = -k ^ e := fun k => Odd.neg_pow (Nat.odd_iff.mpr he) k
  have h1 := sumR_int fused n (fun j => (j : ℤ) ^ e) 0 (by
    intro k hk
    rw [zero_add, abs_of_nonneg (hS0 k)]
    exact hS k hk) (fun k sum => some ((fp 53 fused).fl (sum + pow k (e : ℤ).toNat))) (by
      intro k h1 h2 s
      rw [Int.toNat_natCast, hw.exact k e (by rw [abs_of_nonneg (by positivity)]; exact hk k h1 h2)]
      push_cast
      rfl)
  have h2 := sumR_int fused n (fun j => -(j : ℤ) ^ e) (0 + ∑ j ∈ Finset.Ico 1 (n + 1), (j : ℤ) ^ e) (by
    intro k hk
    rw [Finset.sum_neg_distrib, zero_add]
    have mono : ∑ j ∈ Finset.Ico 1 (k + 1), (j : ℤ) ^ e ≤ ∑ j ∈ Finset.Ico 1 (n + 1), (j : ℤ) ^ e :=
      Finset.sum_le_sum_of_subset_of_nonneg (Finset.Ico_subset_Ico le_rfl (by omega)) fun j _ _ => by positivity
    have := hS n le_rfl
    have := hS0 k
    rw [abs_of_nonneg (by linarith)]
    linarith) (fun k sum => some ((fp 53 fused).fl (sum + pow (-k) (e : ℤ).toNat))) (by
      intro k h1 h2 s
      have := hw.exact (-(k : ℤ)) e (by rw [hodd, abs_neg, abs_of_nonneg (by positivity)]; exact hk k h1 h2)
      push_cast at this
      rw [Int.toNat_natCast]
      push_cast
      rw [this]
      congr 3
      have := hodd k
      exact_mod_cast this)
  unfold powerSumR
  rw [if_neg (by omega)]
  rw [Int.cast_zero] at h1
  refine bind_of h1 ?_
  rw [h2, Finset.sum_neg_distrib]
  simp

/-- The sums of even powers are positive. -/
theorem powerSumR_even {f : FP} {u : ℚ} (hf : f.Laws u) {pow : ℚ → ℕ → ℚ} (hw : PowOk pow) {n e : ℕ} (he : e % 2 = 0)
    (hn : 0 < n ∨ e = 0) : ∃ s, powerSumR f pow n e = some s ∧ 0 < s := by
  have hp : ∀ k : ℕ, 1 ≤ k → 0 < pow (k : ℚ) e := fun k hk => by
    have := hw.pos k e (by exact_mod_cast hk)
    exact_mod_cast this
  have hz : (0 : ℚ) ≤ if (e : ℤ) = 0 then 1 else 0 := by split <;> norm_num
  have hz' : e = 0 → (0 : ℚ) < if (e : ℤ) = 0 then 1 else 0 := by intro h; simp [h]
  obtain ⟨s, e1, s0, s1⟩ := sumR_pos hf n (fun k => pow k e) hp _ hz
    (fun k sum => some (f.fl (sum + pow k (e : ℤ).toNat))) (by intro k _ _ s; simp)
  obtain ⟨t, e2, t0, t1⟩ := sumR_pos hf n (fun k => pow k e) hp s s0
    (fun k sum => some (f.fl (sum + pow (-k) (e : ℤ).toNat))) (by
      intro k _ _ s
      have := hw.even k e he
      push_cast at this ⊢
      rw [Int.toNat_natCast, this])
  refine ⟨t, ?_, ?_⟩
  · unfold powerSumR
    exact bind_of e1 e2
  · rcases hn with h | h
    · exact t1 (Or.inr h)
    · exact t1 (Or.inl (s1 (Or.inl (hz' h))))

/-- The matrix: entry `i, j` is the sum for `i + j`. -/
theorem savgolMatrixR_eq (f : FP) (pow : ℚ → ℕ → ℚ) (n m : ℕ) (S : ℕ → ℚ) (hS : ∀ e ≤ 2 * m, powerSumR f pow n e = some (S e)) :
    ∃ vals, savgolMatrixR f pow n m = some vals ∧ Holds vals (_root_.Matrix.of fun i j : Fin (m + 1) => S (i.val + j.val)) := by
  unfold savgolMatrixR
  obtain ⟨vals, e, M, r, h⟩ := forRange_nat (fun e vals => ∃ M, Mat.Rep vals (m + 1) (m + 1) M ∧
      ∀ i j, i ≤ m → j ≤ m → i + j < e → M j i = S (i + j)) (lo := 0) (hi := m * 2 + 1) (Nat.zero_le _)
    (fun ipj vals => do
    let sum ← powerSumR f pow n ipj
    let mm := 2 * (m : ℤ) - ipj
    let mm := if mm > ipj then ipj else mm
    forRange 0 (mm + 1) (fun t vals =>
      let imj := -mm + 2 * t
      let i := (ipj + imj).tdiv 2
      let j := (ipj - imj).tdiv 2
      wr vals (j * ((m : ℤ) + 1) + i) sum) vals) (List.replicate (((m : ℤ) + 1) * ((m : ℤ) + 1)).toNat 0)
    ⟨_, Mat.rep_fnOf (by
      rw [List.length_replicate]
      have : ((m : ℤ) + 1) * ((m : ℤ) + 1) = (((m + 1) * (m + 1) : ℕ) : ℤ) := by push_cast; ring
      rw [this, Int.toNat_natCast]), by intro i j _ _ h; omega⟩ (by
      rintro e vals _ he ⟨M, r, h⟩
      obtain ⟨mm, lo, hmm, hlo, hl0, hl1⟩ : ∃ mm lo : ℕ,
          (if 2 * (m : ℤ) - e > e then (e : ℤ) else 2 * (m : ℤ) - e) = mm ∧ e = mm + 2 * lo ∧
          (lo = 0 ∨ lo + m = e) ∧ (mm = e ∨ mm + e = 2 * m) := by
        by_cases c : e ≤ m
        · refine ⟨e, 0, ?_, by omega, by omega, by omega⟩
          split <;> omega
        · exact ⟨2 * m - e, e - m, by rw [if_neg (by omega)]; omega, by omega, by omega, by omega⟩
      obtain ⟨vals', e1, M', r', h'⟩ := forRange_nat (fun t vals => ∃ M, Mat.Rep vals (m + 1) (m + 1) M ∧
          ∀ i j, i ≤ m → j ≤ m → (i + j < e ∨ (i + j = e ∧ i < lo + t)) → M j i = S (i + j))
        (lo := 0) (hi := mm + 1) (Nat.zero_le _) (fun t vals =>
          let imj := -(mm : ℤ) + 2 * t
          let i := ((e : ℤ) + imj).tdiv 2
          let j := ((e : ℤ) - imj).tdiv 2
          wr vals (j * ((m : ℤ) + 1) + i) (S e)) vals
        ⟨M, r, by
          intro i j hi hj hc
          rcases hc with hc | hc
          · exact h i j hi hj hc
          · omega⟩ (by
          rintro t vals _ ht ⟨M, r, h⟩
          obtain ⟨vals', e1, r'⟩ := r.wr (i := e - (lo + t)) (j := lo + t) (by omega) (by omega) (S e)
          refine ⟨vals', ?_, _, r', ?_⟩
          · rw [← e1]
            have i1 : ((e : ℤ) + (-(mm : ℤ) + 2 * t)).tdiv 2 = ((lo + t : ℕ) : ℤ) := by
              rw [show (e : ℤ) + (-(mm : ℤ) + 2 * t) = ((lo + t : ℕ) : ℤ) * 2 by omega]
              exact Int.mul_tdiv_cancel _ (by norm_num)
            have i2 : ((e : ℤ) - (-(mm : ℤ) + 2 * t)).tdiv 2 = ((e - (lo + t) : ℕ) : ℤ) := by
              rw [show (e : ℤ) - (-(mm : ℤ) + 2 * t) = ((e - (lo + t) : ℕ) : ℤ) * 2 by omega]
              exact Int.mul_tdiv_cancel _ (by norm_num)
            simp only [i1, i2]
            push_cast
            rfl
          · intro i j hi hj hc
            beta_reduce
            by_cases c : j = e - (lo + t) ∧ i = lo + t
            · rw [if_pos c]; congr 1; omega
            · rw [if_neg c]; exact h i j hi hj (by omega))
      refine ⟨vals', ?_, M', r', ?_⟩
      · refine bind_of (hS e (by omega)) ?_
        simp only [hmm]
        push_cast at e1
        exact e1
      · intro i j hi hj hc
        exact h' i j hi hj (by omega))
  refine ⟨vals, by push_cast at e; exact e, ?_⟩
  have r' := r.congr (M' := fun i j => S (i + j)) (by
    intro i j hi hj
    rw [h j i (by omega) (by omega) (by omega), add_comm])
  exact r'.holds

/-! ### The weights -/

/-- The power of the offset as computed. -/
def facR (f : FP) (i : ℤ) : ℕ → ℚ
  | 0 => 1
  | k + 1 => f.fl (facR f i k * i)

/-- The weight after `k` terms. -/
def wsumR (f : FP) (b : ℕ → ℚ) (i : ℤ) : ℕ → ℚ
  | 0 => b 0
  | k + 1 => f.mac (wsumR f b i k) (b (k + 1)) (facR f i (k + 1))

theorem savgolWeightR_eq (f : FP) (b : List ℚ) (m : ℕ) (hb : b.length = m + 1) (i : ℤ) :
    savgolWeightR f b m i = some (wsumR f (fun e => b.getD e 0) i m) := by
  unfold savgolWeightR
  have rb : ∀ e, e < m + 1 → rd b (e : ℤ) = some (b.getD e 0) := by
    intro e he
    rw [rd_natCast, List.getD_eq_getElem?_getD, List.getElem?_eq_getElem (by omega)]; rfl
  obtain ⟨r, e1, h1⟩ := forRange_nat (fun k (s : ℚ × ℚ) => ∃ t, k = t + 1 ∧
      s = (wsumR f (fun e => b.getD e 0) i t, facR f i t))
    (lo := 1) (hi := m + 1) (by omega) (fun mm (s : ℚ × ℚ) => do
    let x ← rd b mm
    let fac := f.fl (s.2 * i)
    some (f.mac s.1 x fac, fac)) (b.getD 0 0, 1) ⟨0, rfl, rfl⟩ (by
      rintro k s hk1 hk ⟨t, rfl, rfl⟩
      exact ⟨_, bind_of (rb (t + 1) hk) rfl, t + 1, rfl, rfl⟩)
  push_cast at e1
  refine bind_of (rb 0 (by omega)) (bind_of e1 ?_)
  obtain ⟨t, ht, rfl⟩ := h1
  obtain rfl : t = m := by omega
  rfl

theorem facR_neg (fused : Bool) (i : ℤ) (k : ℕ) : facR (fp 53 fused) (-i) k = (-1) ^ k * facR (fp 53 fused) i k := by
  induction k with
  | zero => simp [facR]
  | succ k ih =>
    rw [facR, facR, ih]
    push_cast
    rcases Nat.even_or_odd k with h | h
    · rw [h.neg_one_pow, h.add_one.neg_one_pow, one_mul, mul_neg]
      show rnd 53 _ = -1 * rnd 53 _
      rw [rnd_neg]; ring
    · rw [h.neg_one_pow, h.add_one.neg_one_pow, one_mul]
      congr 1; ring

theorem mac_odd (fused : Bool) (c a b : ℚ) : (fp 53 fused).mac (-c) a (-b) = -(fp 53 fused).mac c a b := by
  show mulAdd fused 53 a (-b) (-c) = -mulAdd fused 53 a b c
  unfold mulAdd
  split
  · rw [← rnd_neg]; congr 1; ring
  · rw [mul_neg, rnd_neg, ← rnd_neg 53 (_ + c)]; congr 1; ring

theorem mac_none (fused : Bool) (c b : ℚ) : (fp 53 fused).mac c 0 b = rnd 53 c := by
  show mulAdd fused 53 0 b c = _
  unfold mulAdd
  split
  · rw [zero_mul, zero_add]
  · rw [zero_mul, rnd_zero, zero_add]

theorem wsumR_neg (fused : Bool) {b : ℕ → ℚ} {ld : ℕ} (hb : ∀ e, e % 2 ≠ ld % 2 → b e = 0) (i : ℤ) (k : ℕ) :
    wsumR (fp 53 fused) b (-i) k = (-1) ^ ld * wsumR (fp 53 fused) b i k := by
  induction k with
  | zero =>
    rw [wsumR, wsumR]
    by_cases h : ld % 2 = 0
    · rw [(Nat.even_iff.mpr h).neg_one_pow, one_mul]
    · rw [hb 0 (by omega), mul_zero]
  | succ k ih =>
    rw [wsumR, wsumR, ih, facR_neg]
    by_cases h : (k + 1) % 2 = ld % 2
    · rcases Nat.even_or_odd ld with g | g
      · have g' : Even (k + 1) := by rw [Nat.even_iff] at g ⊢; omega
        rw [g.neg_one_pow, g'.neg_one_pow, one_mul, one_mul, one_mul]
      · have g' : Odd (k + 1) := by rw [Nat.odd_iff] at g ⊢; omega
        rw [g.neg_one_pow, g'.neg_one_pow, neg_one_mul, neg_one_mul, neg_one_mul, mac_odd]
    · rw [hb (k + 1) h, mac_none, mac_none]
      rcases Nat.even_or_odd ld with g | g
      · rw [g.neg_one_pow, one_mul, one_mul]
      · rw [g.neg_one_pow, neg_one_mul, neg_one_mul, rnd_neg]

/-! ### The kernels -/

/-- The system of equations of a kernel: the sums of odd powers are zero, those of even powers are not. -/
theorem savgol_system (fused : Bool) {pow : ℚ → ℕ → ℚ} (hw : PowOk pow) {n m : ℕ} (hm : m ≤ 2 * n) (hb : n ^ (2 * m) ≤ 2 ^ 53) :
    ∃ vals, savgolMatrixR (fp 53 fused) pow n m = some vals ∧
      ∃ luf, Matrix.LUR (fp 53 fused) ⟨vals, m + 1, m + 1⟩ = some luf ∧ (Lost 53 luf ∨ ∃ M, Pattern (m + 1) luf M) := by
  have hn : ∀ e, 0 < n ∨ 2 * m < e ∨ e = 0 := by intro e; omega
  have each : ∀ e, ∃ s, e ≤ 2 * m → powerSumR (fp 53 fused) pow n e = some s ∧ (e % 2 = 0 → 0 < s) ∧ (e % 2 = 1 → s = 0) := by
    intro e
    by_cases he : e ≤ 2 * m
    · rcases Nat.mod_two_eq_zero_or_one e with h | h
      · obtain ⟨s, e1, e2⟩ := powerSumR_even (fp_laws (p := 53) (by norm_num) fused) hw (n := n) h (by have := hn e; omega)
        exact ⟨s, fun _ => ⟨e1, fun _ => e2, fun h' => by omega⟩⟩
      · refine ⟨0, fun _ => ⟨powerSumR_odd fused hw h ?_, fun h' => by omega, fun _ => rfl⟩⟩
        have h0 : 0 < n := by omega
        rw [← pow_succ']
        exact (Nat.pow_le_pow_right h0 (by omega)).trans hb
    · exact ⟨0, fun h => absurd h he⟩
  choose S hS using each
  obtain ⟨vals, ev, H⟩ := savgolMatrixR_eq (fp 53 fused) pow n m S (fun e he => (hS e he).1)
  obtain ⟨luf, eL, h⟩ := luR_pattern (p := 53) (by norm_num) fused (Nat.succ_pos m) _ (by
    intro i
    refine ⟨i, ?_⟩
    show S (i.val + i.val) ≠ 0
    exact ((hS (i.val + i.val) (by omega)).2.1 (by omega)).ne') (by
    intro i j hij
    show S (i.val + j.val) = 0
    exact (hS (i.val + j.val) (by omega)).2.2 (by omega)) vals H
  exact ⟨vals, ev, luf, eL, h⟩

/-- The weights on the two sides of the centre are equal (`ld` even) or opposite (`ld` odd). -/
def Sided (n ld : ℕ) (cs : List ℚ) : Prop := cs.length = 2 * n + 1 ∧ ∀ i ≤ n, cs.getD (n - i) 0 = (-1) ^ ld * cs.getD (n + i) 0

/-- C200: the weights for the derivative of order `ld` of a polynomial of order `m` through `2 n + 1` points are exactly symmetric
about the centre, or exactly antisymmetric if `ld` is odd. -/
theorem C200_weights (fused : Bool) {pow : ℚ → ℕ → ℚ} (hw : PowOk pow) {n m ld : ℕ} (hm : m ≤ 2 * n) (hld : ld ≤ m)
    (hb : n ^ (2 * m) ≤ 2 ^ 53) :
    ∃ vals, savgolMatrixR (fp 53 fused) pow n m = some vals ∧ ∃ luf, Matrix.LUR (fp 53 fused) ⟨vals, m + 1, m + 1⟩ = some luf ∧
      (Lost 53 luf ∨ ∃ cs, savgolR (fp 53 fused) pow (2 * n + 1) m ld = some cs ∧ Sided n ld cs) := by
  obtain ⟨vals, ev, luf, eL, h⟩ := savgol_system fused hw hm hb
  refine ⟨vals, ev, luf, eL, ?_⟩
  rcases h with h | ⟨M, h⟩
  · exact Or.inl h
  right
  have hb0 : wr (List.replicate ((m : ℤ) + 1).toNat (0 : ℚ)) ld 1 = some ((List.replicate (m + 1) (0 : ℚ)).set ld 1) := by
    have : ((m : ℤ) + 1).toNat = m + 1 := by omega
    rw [this]
    exact wr_natCast (by simp; omega)
  have hz : ∀ i, i % 2 ≠ ld % 2 → ((List.replicate (m + 1) (0 : ℚ)).set ld 1).getD i 0 = 0 := by
    intro i hi
    rw [getD_set (by simp; omega), if_neg (by intro e; subst e; exact hi rfl)]
    rw [List.getD_eq_getElem?_getD, List.getElem?_replicate]
    split <;> rfl
  obtain ⟨x, ex, lx, hx⟩ := solveR_pattern (fp_laws (p := 53) (by norm_num) fused) (Nat.succ_pos m) h (ld % 2) _ _
    (by simp) (by simp) hz hz
  obtain ⟨cs, ecs, lcs, hcs⟩ := forRange_spec (fun i cs => (cs : List ℚ).length = 2 * n + 1 ∧
      ∀ j : ℕ, (j : ℤ) < i + n → cs.getD j 0 = wsumR (fp 53 fused) (fun e => x.getD e 0) ((j : ℤ) - n) m)
    (lo := -(n : ℤ)) (hi := (n : ℤ) + 1) (by omega) (fun i cs => do
      let s ← savgolWeightR (fp 53 fused) x m i
      wr cs (i + n) s) (List.replicate (2 * n + 1) 0) ⟨by simp, by intro j hj; omega⟩ (by
      intro i cs hi1 hi2 ⟨l, h⟩
      obtain ⟨t, ht⟩ : ∃ t : ℕ, i + n = t := ⟨(i + n).toNat, by omega⟩
      refine ⟨_, bind_of (savgolWeightR_eq (fp 53 fused) x m lx i) (by rw [ht]; exact wr_natCast (by omega)), by simpa using l, ?_⟩
      intro j hj
      rw [List.getD_eq_getElem?_getD, List.getElem?_set]
      by_cases c : t = j
      · subst c
        rw [if_pos rfl, if_pos (by omega), show (t : ℤ) - n = i by omega]
        rfl
      · rw [if_neg c, ← List.getD_eq_getElem?_getD]
        exact h j (by omega))
  refine ⟨cs, ?_, lcs, ?_⟩
  · unfold savgolR
    have hn2 : ((2 * n + 1 : ℕ) : ℤ).tdiv 2 = n := by
      rw [Int.tdiv_eq_ediv_of_nonneg (by omega)]; omega
    have hM : Mat.newMatrix (List.replicate (((m : ℤ) + 1) * ((m : ℤ) + 1)).toNat 0) ((m : ℤ) + 1) ((m : ℤ) + 1) =
        some ⟨List.replicate (((m : ℤ) + 1) * ((m : ℤ) + 1)).toNat 0, m + 1, m + 1⟩ := by
      have := Mat.newMatrix_eq (vals := List.replicate (((m : ℤ) + 1) * ((m : ℤ) + 1)).toNat 0) (w := m + 1) (h := m + 1)
        (by omega) (by omega) (by
          rw [List.length_replicate]
          have : ((m : ℤ) + 1) * ((m : ℤ) + 1) = (((m + 1) * (m + 1) : ℕ) : ℤ) := by push_cast; ring
          rw [this, Int.toNat_natCast])
      push_cast at this
      exact this
    simp only [hn2]
    exact bind_of hM (bind_of ev (bind_of eL (bind_of hb0 (bind_of ex ecs))))
  · intro i hi
    rw [hcs (n - i) (by omega), hcs (n + i) (by omega), show ((n - i : ℕ) : ℤ) - n = -(i : ℤ) by omega,
      show ((n + i : ℕ) : ℤ) - n = (i : ℤ) by omega]
    exact wsumR_neg fused hx i m

/-- C200: smoothing kernels are exactly symmetric. The sums of the powers of the offsets must fit into 53 bits, and no column of the
system of equations may be without a pivot. -/
theorem C200_smooth_partial (fused : Bool) {pow : ℚ → ℕ → ℚ} (hw : PowOk pow) {n m : ℕ} (hm : m ≤ 2 * n) (hb : n ^ (2 * m) ≤ 2 ^ 53) :
    ∃ vals, savgolMatrixR (fp 53 fused) pow n m = some vals ∧ ∃ luf, Matrix.LUR (fp 53 fused) ⟨vals, m + 1, m + 1⟩ = some luf ∧
      (Lost 53 luf ∨ ∃ k, newSavGolR (fp 53 fused) pow m (2 * n + 1) = some k ∧ k.center = n ∧ Sided n 0 k.cs) := by
  obtain ⟨vals, ev, luf, eL, h⟩ := C200_weights fused hw hm (Nat.zero_le m) hb
  refine ⟨vals, ev, luf, eL, h.imp id ?_⟩
  rintro ⟨cs, e, hs⟩
  refine ⟨⟨cs, n⟩, ?_, rfl, hs⟩
  unfold newSavGolR
  have h1 : (2 * (n : ℤ) + 1).tmod 2 = 1 := by rw [Int.tmod_eq_emod_of_nonneg (by omega)]; omega
  have h2 : (2 * (n : ℤ) + 1).tdiv 2 = n := by rw [Int.tdiv_eq_ediv_of_nonneg (by omega)]; omega
  have h3 : (2 * (n : ℤ) + 1).toNat = 2 * n + 1 := by omega
  rw [if_neg (by simp [h1]), if_neg (by omega), h3, h2]
  exact bind_of e rfl

/-- C200: derivative kernels are exactly symmetric or antisymmetric, under the same conditions. -/
theorem C200_deriv_partial (fused : Bool) {pow : ℚ → ℕ → ℚ} (hw : PowOk pow) (dx : ℚ) {n m ld : ℕ} (hm : m ≤ 2 * n) (hld : ld ≤ m)
    (hb : n ^ (2 * m) ≤ 2 ^ 53) :
    ∃ vals, savgolMatrixR (fp 53 fused) pow n m = some vals ∧ ∃ luf, Matrix.LUR (fp 53 fused) ⟨vals, m + 1, m + 1⟩ = some luf ∧
      (Lost 53 luf ∨ ∃ k, newSavGolDerivR (fp 53 fused) pow dx ld m (2 * n + 1) = some k ∧ k.center = n ∧ Sided n ld k.cs) := by
  obtain ⟨vals, ev, luf, eL, h⟩ := C200_weights fused hw hm hld hb
  refine ⟨vals, ev, luf, eL, h.imp id ?_⟩
  rintro ⟨cs, e, hl, hs⟩
  have hF : factorial ld = some ((ld.factorial : ℕ) : ℤ) := factorial_eq ld
  refine ⟨⟨cs.map (fun c => (fp 53 fused).fl (c * (fp 53 fused).fl ((fp 53 fused).fl (((ld.factorial : ℕ) : ℤ) : ℚ) / pow dx ld))), n⟩,
    ?_, rfl, by simpa using hl, ?_⟩
  · unfold newSavGolDerivR
    have h1 : (2 * (n : ℤ) + 1).tmod 2 = 1 := by rw [Int.tmod_eq_emod_of_nonneg (by omega)]; omega
    have h2 : (2 * (n : ℤ) + 1).tdiv 2 = n := by rw [Int.tdiv_eq_ediv_of_nonneg (by omega)]; omega
    have h3 : (2 * (n : ℤ) + 1).toNat = 2 * n + 1 := by omega
    rw [if_neg (by simp [h1]), if_neg (by omega), if_neg (by omega), h3, h2]
    refine bind_of e (bind_of hF ?_)
    rw [Int.toNat_natCast]
  · intro i hi
    have hg : ∀ (g : ℚ → ℚ) (j : ℕ), j < 2 * n + 1 → (cs.map g).getD j 0 = g (cs.getD j 0) := by
      intro g j hj
      simp [List.getD, List.getElem?_map, List.getElem?_eq_getElem (show j < cs.length by omega)]
    rw [hg _ _ (by omega), hg _ _ (by omega), hs i hi]
    generalize (fp 53 fused).fl ((fp 53 fused).fl (((ld.factorial : ℕ) : ℤ) : ℚ) / pow dx ld) = q
    rcases Nat.even_or_odd ld with g | g
    · rw [g.neg_one_pow, one_mul, one_mul]
    · rw [g.neg_one_pow, neg_one_mul, neg_one_mul, neg_mul]
      exact rnd_neg 53 _

/-- The power, correctly rounded. -/
def roundedPow (x : ℚ) (e : ℕ) : ℚ := rnd 53 (x ^ e)

theorem roundedPow_ok : PowOk roundedPow where
  exact := by
    intro k e h
    have := fl_int false h
    unfold roundedPow
    push_cast at this
    exact this
  pos := by
    intro k e h
    exact (fp_laws (p := 53) (by norm_num) false).pos _ (by positivity)
  even := by
    intro k e h
    unfold roundedPow
    rw [(Nat.even_iff.mpr h).neg_pow]

/-- C200 does not hold for all orders and widths: the kernel of order 9 for 21 points is not symmetric, since sums of odd powers,
which ought to be zero, are not. -/
theorem C200_counterexample : PowOk roundedPow ∧
    ∀ fused, ∃ k, newSavGolR (fp 53 fused) roundedPow 9 21 = some k ∧ k.center = 10 ∧ k.cs.reverse ≠ k.cs := by
  have h : ∀ fused, ((newSavGolR (fp 53 fused) roundedPow 9 21).any fun k => k.center == 10 && k.cs.reverse != k.cs) = true := by
    decide +kernel
  refine ⟨roundedPow_ok, fun fused => ?_⟩
  have hk := h fused
  cases e : newSavGolR (fp 53 fused) roundedPow 9 21 with
  | none => rw [e] at hk; cases hk
  | some k =>
    rw [e] at hk
    simp only [Option.any_some, Bool.and_eq_true, beq_iff_eq, bne_iff_ne] at hk
    exact ⟨k, rfl, hk⟩

theorem not_lost {luf : LUFactors} (h : ∀ i < luf.n, (luf.pivot[i]?.all fun q => decide ((i : ℤ) ≤ q)) = true ∧
    luf.lu[i * luf.n + i]? ≠ some (rnd 53 (1 / 10 ^ 20))) : ¬ Lost 53 luf := by
  rintro ⟨i, hi, ⟨q, hq, hlt⟩ | he⟩
  · have := (h i hi).1
    rw [hq] at this
    simp at this
    omega
  · exact (h i hi).2 he

/-- The order 4 and 7 points: the conditions hold, every column has a pivot, and the kernel is not one of exact numbers. -/
example : PowOk roundedPow ∧ (3 : ℕ) ^ (2 * 4) ≤ 2 ^ 53 ∧ 4 ≤ 2 * 3 ∧
    (∀ fused, ∃ vals luf, savgolMatrixR (fp 53 fused) roundedPow 3 4 = some vals ∧ Matrix.LUR (fp 53 fused) ⟨vals, 5, 5⟩ = some luf ∧
      ¬ Lost 53 luf) ∧ newSavGolR (fp 53 false) roundedPow 4 7 ≠ newSavGol 4 7 ∧
    (newSavGolDerivR (fp 53 false) roundedPow (1 / 4) 1 4 7).isSome = true := by
  refine ⟨roundedPow_ok, by norm_num, by norm_num, ?_, by decide +kernel, by decide +kernel⟩
  intro fused
  have h : ∀ fused, ((savgolMatrixR (fp 53 fused) roundedPow 3 4).any fun vals => (Matrix.LUR (fp 53 fused) ⟨vals, 5, 5⟩).any fun luf =>
      decide (∀ i : ℕ, i < luf.n → (luf.pivot[i]?.all fun q => decide ((i : ℤ) ≤ q)) = true ∧
        luf.lu[i * luf.n + i]? ≠ some (rnd 53 (1 / 10 ^ 20)))) = true := by decide +kernel
  have h := h fused
  cases e1 : savgolMatrixR (fp 53 fused) roundedPow 3 4 with
  | none => rw [e1] at h; cases h
  | some vals =>
    rw [e1] at h
    simp only [Option.any_some] at h
    cases e2 : Matrix.LUR (fp 53 fused) ⟨vals, 5, 5⟩ with
    | none => rw [e2] at h; cases h
    | some luf =>
      rw [e2] at h
      simp only [Option.any_some, decide_eq_true_eq] at h
      exact ⟨vals, luf, rfl, e2, not_lost h⟩

end Verif.Interp
