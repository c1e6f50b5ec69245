import Verif.Mat.Basic
import Mathlib.LinearAlgebra.Matrix.Determinant.Basic
import Mathlib.LinearAlgebra.Matrix.NonsingularInverse
import Mathlib.LinearAlgebra.Matrix.Block
import Mathlib.Tactic.LinearCombination
import Mathlib.Tactic.FieldSimp

/-! LU factorisation: property C28. -/

set_option autoImplicit false

namespace Verif.Mat

open Verif.Go

/-! Specification. -/

/-- The lower factor stored below the diagonal of `F`, with ones on the diagonal. -/
def lower {n : Nat} (F : _root_.Matrix (Fin n) (Fin n) ℚ) : _root_.Matrix (Fin n) (Fin n) ℚ :=
  _root_.Matrix.of fun i j => if j < i then F i j else if i = j then 1 else 0

/-- The upper factor stored on and above the diagonal of `F`. -/
def upper {n : Nat} (F : _root_.Matrix (Fin n) (Fin n) ℚ) : _root_.Matrix (Fin n) (Fin n) ℚ :=
  _root_.Matrix.of fun i j => if j < i then 0 else F i j

/-- The order of rows recorded by the first `k` pivots: exchange row `0` with row `p 0`, then row `1` with
row `p 1`, and so on. Row `i` of the result is row `rowOrder p k i` of the original. -/
def rowOrder {n : Nat} (p : Fin n → Fin n) (k : Nat) : Equiv.Perm (Fin n) :=
  ((List.finRange n).take k).foldl (fun σ k => σ * Equiv.swap k (p k)) 1

/-! ### The invariant -/

/-- The matrix that the working array represents after `k` columns. -/
def R (n k : Nat) (M : Nat → Nat → ℚ) (i j : Nat) : ℚ :=
  ∑ t ∈ Finset.range n, (if t < i ∧ t < k ∧ t ≤ j then M i t * M t j else 0) +
    (if j < k ∧ j < i then 0 else M i j)

theorem R_zero (n : Nat) (M : Nat → Nat → ℚ) (i j : Nat) : R n 0 M i j = M i j := by
  unfold R
  rw [if_neg (by omega), Finset.sum_eq_zero, zero_add]
  intro t _
  rw [if_neg (by omega)]

theorem R_congr {n k : Nat} {M M' : Nat → Nat → ℚ} (h : ∀ i j, i < n → j < n → M i j = M' i j) {i j : Nat}
    (hi : i < n) (hj : j < n) : R n k M i j = R n k M' i j := by
  unfold R
  rw [h i j hi hj]
  congr 1
  apply Finset.sum_congr rfl
  intro t ht
  rw [Finset.mem_range] at ht
  rw [h i t hi ht, h t j ht hj]

theorem R_swap {n k q : Nat} (hq : k ≤ q) (M : Nat → Nat → ℚ) (i j : Nat) :
    R n k (fun a b => M (if a = k then q else if a = q then k else a) b) i j =
      R n k M (if i = k then q else if i = q then k else i) j := by
  unfold R
  generalize hs : (if i = k then q else if i = q then k else i) = i'
  have h1 : i < k → i' = i := by intro c; rw [← hs, if_neg (by omega), if_neg (by omega)]
  have h2 : k ≤ i → k ≤ i' := by
    intro c; rw [← hs]; split
    · exact hq
    · split <;> omega
  congr 1
  · apply Finset.sum_congr rfl
    intro t _
    simp only [hs]
    by_cases c : t < i ∧ t < k ∧ t ≤ j
    · have c' : t < i' ∧ t < k ∧ t ≤ j := by
        by_cases d : i < k
        · rw [h1 d]; exact c
        · have := h2 (by omega); omega
      rw [if_pos c, if_pos c', if_neg (by omega : ¬ t = k), if_neg (by omega : ¬ t = q)]
    · rw [if_neg c, if_neg]
      intro c'
      by_cases d : i < k
      · rw [h1 d] at c'; exact c c'
      · have := h2 (by omega); omega
  · simp only [hs]
    by_cases d : i < k
    · rw [h1 d]
    · have := h2 (by omega)
      by_cases c : j < k
      · rw [if_pos (by omega), if_pos (by omega)]
      · rw [if_neg (by omega), if_neg (by omega)]

/-- The array after the elimination in column `k`. -/
def elim (k : Nat) (M : Nat → Nat → ℚ) (i j : Nat) : ℚ :=
  if k < i then (if j = k then M i k / M k k else if k < j then M i j - M i k / M k k * M k j else M i j)
  else M i j

theorem R_elim {n k : Nat} (hk : k < n) (M : Nat → Nat → ℚ) (h : M k k ≠ 0) {i j : Nat} :
    R n (k + 1) (elim k M) i j = R n k M i j := by
  unfold R
  by_cases c : k < i
  · have split : ∀ t ∈ Finset.range n, (if t < i ∧ t < k + 1 ∧ t ≤ j then elim k M i t * elim k M t j else 0) =
        (if t < i ∧ t < k ∧ t ≤ j then M i t * M t j else 0) +
          (if t = k then (if k ≤ j then M i k / M k k * M k j else 0) else 0) := by
      intro t _
      by_cases e : t = k
      · subst e
        rw [if_neg (by omega : ¬ (t < i ∧ t < t ∧ t ≤ j)), if_pos rfl, zero_add]
        by_cases e2 : t ≤ j
        · rw [if_pos (by omega), if_pos e2]
          unfold elim
          rw [if_pos c, if_pos rfl, if_neg (lt_irrefl _)]
        · rw [if_neg (by omega), if_neg e2]
      · rw [if_neg e, add_zero]
        by_cases e2 : t < i ∧ t < k ∧ t ≤ j
        · rw [if_pos e2, if_pos (by omega)]
          unfold elim
          rw [if_pos c, if_neg e, if_neg (by omega), if_neg (by omega)]
        · rw [if_neg e2, if_neg (by omega)]
    rw [Finset.sum_congr rfl split, Finset.sum_add_distrib, Finset.sum_ite_eq' (Finset.range n) k,
      if_pos (Finset.mem_range.mpr hk)]
    rcases lt_trichotomy j k with d | d | d
    · rw [if_neg (by omega : ¬ k ≤ j), if_pos (by omega : j < k + 1 ∧ j < i), if_pos (by omega : j < k ∧ j < i)]
      ring
    · subst d
      rw [if_pos le_rfl, if_pos (by omega), if_neg (by omega)]
      field_simp
      ring
    · rw [if_pos d.le, if_neg (by omega), if_neg (by omega)]
      unfold elim
      rw [if_pos c, if_neg (by omega), if_pos d]
      ring
  · congr 1
    · apply Finset.sum_congr rfl
      intro t _
      by_cases e2 : t < i ∧ t < k ∧ t ≤ j
      · rw [if_pos e2, if_pos (by omega)]
        unfold elim
        rw [if_neg c, if_neg (by omega)]
      · rw [if_neg e2, if_neg (by omega)]
    · unfold elim
      rw [if_neg c]
      by_cases e : j < i
      · rw [if_pos (by omega), if_pos (by omega)]
      · rw [if_neg (by omega), if_neg (by omega)]

/-! ### Determinants -/

/-- Unit lower factor after `k` columns. -/
def Lk (n k : Nat) (M : Nat → Nat → ℚ) : _root_.Matrix (Fin n) (Fin n) ℚ :=
  _root_.Matrix.of fun i t => if t.val < i.val ∧ t.val < k then M i t else if t = i then 1 else 0

/-- The rest after `k` columns. -/
def Wk (n k : Nat) (M : Nat → Nat → ℚ) : _root_.Matrix (Fin n) (Fin n) ℚ :=
  _root_.Matrix.of fun t j => if j.val < k ∧ j.val < t.val then 0 else M t j

theorem Lk_mul_Wk (n k : Nat) (M : Nat → Nat → ℚ) :
    Lk n k M * Wk n k M = _root_.Matrix.of fun i j : Fin n => R n k M i j := by
  ext i j
  rw [_root_.Matrix.mul_apply]
  unfold R
  have : ∀ t : Fin n, Lk n k M i t * Wk n k M t j =
      (if t.val < i.val ∧ t.val < k ∧ t.val ≤ j.val then M i t * M t j else 0) +
        (if t = i then Wk n k M t j else 0) := by
    intro t
    unfold Lk
    simp only [_root_.Matrix.of_apply]
    by_cases c : t.val < i.val ∧ t.val < k
    · have ne : t ≠ i := by intro e; rw [e] at c; omega
      rw [if_pos c, if_neg ne, add_zero]
      unfold Wk
      simp only [_root_.Matrix.of_apply]
      by_cases d : t.val ≤ j.val
      · rw [if_neg (by omega), if_pos (by omega)]
      · rw [if_pos (by omega), if_neg (by omega), mul_zero]
    · have c' : ¬ (t.val < i.val ∧ t.val < k ∧ t.val ≤ j.val) := fun h => c ⟨h.1, h.2.1⟩
      rw [if_neg c, if_neg c', zero_add]
      split
      · rw [one_mul]
      · rw [zero_mul]
  rw [Finset.sum_congr rfl (fun t _ => this t), Finset.sum_add_distrib, Finset.sum_ite_eq' Finset.univ i,
    if_pos (Finset.mem_univ _), _root_.Matrix.of_apply, Finset.sum_range]
  rfl

theorem det_Lk (n k : Nat) (M : Nat → Nat → ℚ) : (Lk n k M).det = 1 := by
  rw [_root_.Matrix.det_of_isLowerTriangular]
  · apply Finset.prod_eq_one
    intro i _
    simp [Lk]
  · intro i j hij
    have hij : i < j := hij
    unfold Lk
    simp only [_root_.Matrix.of_apply]
    rw [if_neg (by have : i.val < j.val := hij; omega), if_neg (by rintro rfl; exact lt_irrefl _ hij)]

/-- A matrix whose first `k + 1` columns vanish from row `k` on (and below the diagonal) is singular. -/
theorem det_zero_of_column {n k : Nat} (hk : k < n) (W : _root_.Matrix (Fin n) (Fin n) ℚ)
    (h1 : ∀ i j : Fin n, j.val < k → j.val < i.val → W i j = 0)
    (h2 : ∀ i : Fin n, k ≤ i.val → W i ⟨k, hk⟩ = 0) : W.det = 0 := by
  rw [_root_.Matrix.det_apply]
  apply Finset.sum_eq_zero
  intro σ _
  suffices h : ∃ j, W (σ j) j = 0 by
    obtain ⟨j, hj⟩ := h
    have : ∏ i, W (σ i) i = 0 := Finset.prod_eq_zero (Finset.mem_univ j) hj
    rw [this, smul_zero]
  by_contra hne
  push Not at hne
  have hmap : ∀ j ∈ (Finset.univ.filter fun j : Fin n => j.val ≤ k),
      σ j ∈ (Finset.univ.filter fun j : Fin n => j.val < k) := by
    intro j hj
    rw [Finset.mem_filter] at hj ⊢
    refine ⟨Finset.mem_univ _, ?_⟩
    by_contra c
    rcases Nat.lt_or_ge j.val k with d | d
    · exact hne j (h1 _ _ d (by omega))
    · have e : j = ⟨k, hk⟩ := Fin.ext (by have := hj.2; simp only; omega)
      exact hne j (by rw [e]; rw [e] at c; exact h2 _ (by omega))
  have hc := Finset.card_le_card_of_injOn σ hmap (fun a _ b _ e => σ.injective e)
  have hlt : (Finset.univ.filter fun j : Fin n => j.val < k).card <
      (Finset.univ.filter fun j : Fin n => j.val ≤ k).card := by
    apply Finset.card_lt_card
    rw [Finset.ssubset_iff_of_subset]
    · refine ⟨⟨k, hk⟩, by simp, by simp⟩
    · intro j hj
      rw [Finset.mem_filter] at hj ⊢
      exact ⟨hj.1, hj.2.le⟩
  omega

/-! ### The loops -/

theorem rowScale_eq {n : Nat} {m : List ℚ} {M : Nat → Nat → ℚ} (r : Rep m n n M) {i : Nat} (hi : i < n) :
    ((∃ j, j < n ∧ M i j ≠ 0) → ∃ v, rowScale n m i = some v ∧ 0 < v) ∧
    ((∀ j, j < n → M i j = 0) → rowScale n m i = none) := by
  unfold rowScale
  obtain ⟨big, e, h0, hle, hex⟩ := forRange_nat (fun j big => 0 ≤ big ∧ (∀ j', j' < j → |M i j'| ≤ big) ∧
      (big ≠ 0 → ∃ j', j' < j ∧ M i j' ≠ 0)) (lo := 0) (hi := n) (Nat.zero_le _)
    (fun j big => do
    let x ← rd m ((i : Int) * n + j)
    some (if |x| > big then |x| else big)) 0 ⟨le_rfl, by intro j h; omega, by simp⟩ (by
      intro j big _ hj ⟨h1, h2, h3⟩
      have a := r.rd hi hj
      refine ⟨_, bind_of a rfl, ?_⟩
      split
      · next c =>
        refine ⟨abs_nonneg _, ?_, ?_⟩
        · intro j' hj'
          rcases Nat.lt_or_ge j' j with d | d
          · exact (h2 j' d).trans c.le
          · obtain rfl : j' = j := by omega
            exact le_rfl
        · intro hne
          exact ⟨j, by omega, by intro e; apply hne; rw [e, abs_zero]⟩
      · next c =>
        refine ⟨h1, ?_, ?_⟩
        · intro j' hj'
          rcases Nat.lt_or_ge j' j with d | d
          · exact h2 j' d
          · obtain rfl : j' = j := by omega
            exact not_lt.mp c
        · intro hne
          obtain ⟨j', hj', h⟩ := h3 hne
          exact ⟨j', by omega, h⟩)
  rw [Nat.cast_zero] at e
  constructor
  · rintro ⟨j, hj, hne⟩
    have : 0 < big := lt_of_lt_of_le (abs_pos.mpr hne) (hle j hj)
    refine ⟨1 / big, bind_of e ?_, by positivity⟩
    rw [if_neg this.ne']
  · intro h
    refine bind_of e ?_
    rw [if_pos]
    by_contra c
    obtain ⟨j, hj, hne⟩ := hex c
    exact hne (h j hj)

theorem findPivot_eq {n : Nat} {m vv : List ℚ} {M : Nat → Nat → ℚ} (r : Rep m n n M) {V : Nat → ℚ}
    (hv : ∀ i < n, vv[i]? = some (V i)) (hpos : ∀ i < n, 0 < V i) {k : Nat} (hk : k < n) (imax : Int)
    (hne : ∃ i, k ≤ i ∧ i < n ∧ M i k ≠ 0) :
    ∃ big : ℚ, ∃ q : Nat, findPivot n m vv k imax = some (big, (q : Int)) ∧ k ≤ q ∧ q < n ∧ M q k ≠ 0 ∧
      (∀ i, k ≤ i → i < n → V i * |M i k| ≤ V q * |M q k|) ∧
      (∀ i, k ≤ i → i < q → V i * |M i k| < V q * |M q k|) := by
  unfold findPivot
  obtain ⟨s, e, h⟩ := forRange_nat (fun i (s : ℚ × Int) =>
      (s = (0, imax) ∧ ∀ i', k ≤ i' → i' < i → M i' k = 0) ∨
      ∃ q : Nat, s = (V q * |M q k|, (q : Int)) ∧ k ≤ q ∧ q < i ∧ M q k ≠ 0 ∧
        (∀ i', k ≤ i' → i' < i → V i' * |M i' k| ≤ V q * |M q k|) ∧
        (∀ i', k ≤ i' → i' < q → V i' * |M i' k| < V q * |M q k|)) (lo := k) (hi := n) hk.le
    (fun i (s : ℚ × Int) => do
    let v ← rd vv i
    let x ← rd m (i * n + k)
    some (if v * |x| > s.1 then (v * |x|, i) else s)) (0, imax)
    (Or.inl ⟨rfl, by intro i h1 h2; omega⟩) (by
      intro i s hki hi hinv
      have a1 : rd vv (i : Int) = some (V i) := rd_fn_nat hv i rfl hi
      have a2 := r.rd hi hk
      refine ⟨_, bind_of a1 (bind_of a2 rfl), ?_⟩
      rcases hinv with ⟨rfl, hz⟩ | ⟨q, rfl, h1, h2, h3, h4, h5⟩
      · by_cases c : M i k = 0
        · left
          refine ⟨?_, ?_⟩
          · rw [if_neg]; rw [c]; simp
          · intro i' a b
            rcases Nat.lt_or_ge i' i with d | d
            · exact hz i' a d
            · obtain rfl : i' = i := by omega
              exact c
        · right
          have p : 0 < V i * |M i k| := mul_pos (hpos i hi) (abs_pos.mpr c)
          refine ⟨i, by rw [if_pos p], hki, by omega, c, ?_, ?_⟩
          · intro i' a b
            rcases Nat.lt_or_ge i' i with d | d
            · rw [hz i' a d, abs_zero, mul_zero]; exact p.le
            · obtain rfl : i' = i := by omega
              exact le_rfl
          · intro i' a b
            rw [hz i' a b, abs_zero, mul_zero]; exact p
      · right
        by_cases c : V i * |M i k| > V q * |M q k|
        · have p : 0 < V q * |M q k| := mul_pos (hpos q (by omega)) (abs_pos.mpr h3)
          refine ⟨i, by rw [if_pos c], hki, by omega, ?_, ?_, ?_⟩
          · intro e; rw [e, abs_zero, mul_zero] at c; linarith
          · intro i' a b
            rcases Nat.lt_or_ge i' i with d | d
            · exact (h4 i' a d).trans c.le
            · obtain rfl : i' = i := by omega
              exact le_rfl
          · intro i' a b
            exact lt_of_le_of_lt (h4 i' a b) c
        · refine ⟨q, by rw [if_neg c], h1, by omega, h3, ?_, h5⟩
          intro i' a b
          rcases Nat.lt_or_ge i' i with d | d
          · exact h4 i' a d
          · obtain rfl : i' = i := by omega
            exact not_lt.mp c)
  rcases h with ⟨_, hz⟩ | ⟨q, rfl, h1, h2, h3, h4, h5⟩
  · obtain ⟨i, a, b, c⟩ := hne
    exact absurd (hz i a b) c
  · exact ⟨_, q, e, h1, h2, h3, h4, h5⟩

theorem swapRows_eq {n : Nat} {m : List ℚ} {M : Nat → Nat → ℚ} (r : Rep m n n M) {k q : Nat} (hk : k < n)
    (hq : q < n) :
    ∃ m', swapRows n k q m = some m' ∧
      Rep m' n n (fun a b => M (if a = k then q else if a = q then k else a) b) := by
  unfold swapRows
  obtain ⟨m', e, h⟩ := forRange_nat (fun j m' => Rep m' n n (fun a b =>
      if b < j then M (if a = k then q else if a = q then k else a) b else M a b)) (lo := 0) (hi := n)
    (Nat.zero_le _) (fun j m => do
    let a ← rd m ((k : Int) * n + j)
    let b ← rd m ((q : Int) * n + j)
    let m ← wr m ((q : Int) * n + j) a
    wr m ((k : Int) * n + j) b) m (r.congr (by intro a b _ _; rw [if_neg (by omega)])) (by
      intro j st _ hj rs
      have a1 := rs.rd hk hj
      have a2 := rs.rd hq hj
      simp only [lt_irrefl, if_false] at a1 a2
      obtain ⟨s1, e1, r1⟩ := rs.wr hq hj (M k j)
      obtain ⟨s2, e2, r2⟩ := r1.wr hk hj (M q j)
      refine ⟨s2, bind_of a1 (bind_of a2 (bind_of e1 e2)), r2.congr ?_⟩
      intro a b _ _
      by_cases c : b = j
      · subst c
        by_cases d : a = k
        · subst d; simp
        · by_cases d2 : a = q
          · subst d2; simp [d]
          · simp [d, d2]
      · rw [if_neg (by tauto), if_neg (by tauto)]
        by_cases c' : b < j
        · rw [if_pos c', if_pos (by omega : b < j + 1)]
        · rw [if_neg c', if_neg (by omega : ¬ b < j + 1)])
  rw [Nat.cast_zero] at e
  refine ⟨m', e, h.congr ?_⟩
  intro a b _ hb
  rw [if_pos hb]

theorem eliminate_eq {n : Nat} {m : List ℚ} {M : Nat → Nat → ℚ} (r : Rep m n n M) {k : Nat} (hk : k < n) :
    ∃ m', eliminate n k m = some m' ∧ Rep m' n n (elim k M) := by
  unfold eliminate
  obtain ⟨m', e, h⟩ := forRange_nat (fun i m' => Rep m' n n (fun a b =>
      if a < i then elim k M a b else M a b)) (lo := k + 1) (hi := n) hk
    (fun i m => do
    let a ← rd m (i * n + k)
    let p ← rd m ((k : Int) * n + k)
    let m ← wr m (i * n + k) (a / p)
    let tmp ← rd m (i * n + k)
    forRange ((k : Int) + 1) n (fun j m => do
      let x ← rd m (i * n + j)
      let y ← rd m ((k : Int) * n + j)
      wr m (i * n + j) (x - tmp * y)) m) m (by
      apply r.congr
      intro a b _ _
      split
      · unfold elim; rw [if_neg (by omega)]
      · rfl) (by
      intro i st hki hi rs
      have a1 := rs.rd hi hk
      have a2 := rs.rd hk hk
      have ek : elim k M k k = M k k := by unfold elim; rw [if_neg (lt_irrefl _)]
      simp only [lt_irrefl, if_false, if_pos (show k < i by omega), ek] at a1 a2
      obtain ⟨s1, e1, r1⟩ := rs.wr hi hk (M i k / M k k)
      have a3 := r1.rd hi hk
      simp only [and_self, if_true] at a3
      obtain ⟨s2, e2, r2⟩ := forRange_nat (fun j m' => Rep m' n n (fun a b =>
          if a < i then elim k M a b else if a = i ∧ b < j then elim k M a b else if a = i ∧ b = k
            then M i k / M k k else M a b)) (lo := k + 1) (hi := n) hk
        (fun j m => do
      let x ← rd m ((i : Int) * n + j)
      let y ← rd m ((k : Int) * n + j)
      wr m ((i : Int) * n + j) (x - M i k / M k k * y)) s1 (by
          apply r1.congr
          intro a b _ _
          by_cases c : a < i
          · rw [if_neg (by omega), if_pos c, if_pos c]
          · rw [if_neg c, if_neg c]
            by_cases c' : a = i
            · subst c'
              by_cases d : b = k
              · subst d
                rw [if_pos ⟨rfl, rfl⟩, if_pos ⟨rfl, by omega⟩]
                unfold elim
                rw [if_pos (by omega), if_pos rfl]
              · rw [if_neg (by omega)]
                by_cases d2 : b < k + 1
                · rw [if_pos ⟨rfl, d2⟩]
                  unfold elim
                  rw [if_pos (by omega), if_neg d, if_neg (by omega)]
                · simp [d, d2]
            · simp [c']) (by
          intro j t hkj hj rt
          have b1 := rt.rd hi hj
          have b2 := rt.rd hk hj
          have ekj : elim k M k j = M k j := by unfold elim; rw [if_neg (lt_irrefl _)]
          rw [if_neg (lt_irrefl i), if_neg (by omega), if_neg (by omega)] at b1
          rw [if_pos (by omega), ekj] at b2
          obtain ⟨t', e3, r3⟩ := rt.wr hi hj (M i j - M i k / M k k * M k j)
          refine ⟨t', bind_of b1 (bind_of b2 e3), r3.congr ?_⟩
          intro a b _ _
          by_cases c : a = i ∧ b = j
          · obtain ⟨rfl, rfl⟩ := c
            rw [if_pos ⟨rfl, rfl⟩, if_neg (lt_irrefl _), if_pos ⟨rfl, by omega⟩]
            unfold elim
            rw [if_pos (by omega), if_neg (by omega), if_pos (by omega)]
          · rw [if_neg c]
            by_cases c1 : a < i
            · rw [if_pos c1, if_pos c1]
            · rw [if_neg c1, if_neg c1]
              by_cases c2 : a = i ∧ b < j
              · rw [if_pos c2, if_pos (by omega)]
              · rw [if_neg c2, if_neg (by omega : ¬ (a = i ∧ b < j + 1))])
      rw [show ((k + 1 : Nat) : Int) = (k : Int) + 1 by push_cast; rfl] at e2
      refine ⟨s2, bind_of a1 (bind_of a2 (bind_of e1 (bind_of a3 e2))), r2.congr ?_⟩
      intro a b _ hb
      by_cases c1 : a < i
      · rw [if_pos c1, if_pos (by omega)]
      · rw [if_neg c1]
        by_cases c2 : a = i ∧ b < n
        · rw [if_pos c2, if_pos (by omega)]
        · rw [if_neg c2, if_neg (by omega), if_neg (by omega)])
  rw [show ((k + 1 : Nat) : Int) = (k : Int) + 1 by push_cast; rfl] at e
  refine ⟨m', e, h.congr ?_⟩
  intro a b ha _
  rw [if_pos ha]

/-! ### Row orders -/

theorem rowOrder_zero {n : Nat} (p : Fin n → Fin n) : rowOrder p 0 = 1 := rfl

theorem rowOrder_succ {n : Nat} (p : Fin n → Fin n) {k : Nat} (hk : k < n) :
    rowOrder p (k + 1) = rowOrder p k * Equiv.swap ⟨k, hk⟩ (p ⟨k, hk⟩) := by
  unfold rowOrder
  rw [List.take_succ_eq_append_getElem (by simpa using hk), List.foldl_append]
  simp

theorem rowOrder_congr {n : Nat} {p p' : Fin n → Fin n} {k : Nat} (hk : k ≤ n)
    (h : ∀ i : Fin n, i.val < k → p i = p' i) : rowOrder p k = rowOrder p' k := by
  induction k with
  | zero => rfl
  | succ k ih =>
    rw [rowOrder_succ p hk, rowOrder_succ p' hk, ih (by omega) (fun i hi => h i (by omega)),
      h ⟨k, hk⟩ (by simp)]

/-- The state of the factorisation after `k` columns. -/
structure LUInv {n : Nat} (A : _root_.Matrix (Fin n) (Fin n) ℚ) (k : Nat) (s : FState) (p : Fin n → Fin n)
    (M : Nat → Nat → ℚ) : Prop where
  rep : Rep s.m n n M
  eq : ∀ i j : Fin n, A (rowOrder p k i) j = R n k M i j
  vlen : s.vv.length = n
  vpos : ∀ i < n, 0 < s.vv.getD i 0
  plen : s.pivot.length = n
  pval : ∀ i : Fin n, i.val < k → s.pivot[i.val]? = some ((p i).val : Int)
  ple : ∀ i : Fin n, i ≤ p i
  d : s.d = ((Equiv.Perm.sign (rowOrder p k) : ℤ) : ℚ)

theorem LUInv.det {n : Nat} {A : _root_.Matrix (Fin n) (Fin n) ℚ} {k : Nat} {s : FState} {p : Fin n → Fin n}
    {M : Nat → Nat → ℚ} (h : LUInv A k s p M) :
    (Wk n k M).det = ((Equiv.Perm.sign (rowOrder p k) : ℤ) : ℚ) * A.det := by
  have e : A.submatrix (rowOrder p k) id = Lk n k M * Wk n k M := by
    rw [Lk_mul_Wk]
    ext i j
    exact h.eq i j
  have := congrArg _root_.Matrix.det e
  rw [_root_.Matrix.det_permute, _root_.Matrix.det_mul, det_Lk, one_mul] at this
  exact this.symm

theorem sign_ne {n : Nat} (σ : Equiv.Perm (Fin n)) : ((Equiv.Perm.sign σ : ℤ) : ℚ) ≠ 0 := by
  rcases Int.units_eq_one_or (Equiv.Perm.sign σ) with h | h <;> rw [h] <;> simp

theorem LUInv.column {n : Nat} {A : _root_.Matrix (Fin n) (Fin n) ℚ} {k : Nat} {s : FState} {p : Fin n → Fin n}
    {M : Nat → Nat → ℚ} (h : LUInv A k s p M) (hA : A.det ≠ 0) (hk : k < n) :
    ∃ i, k ≤ i ∧ i < n ∧ M i k ≠ 0 := by
  by_contra c
  push Not at c
  have hz : (Wk n k M).det = 0 := by
    apply det_zero_of_column hk
    · intro i j h1 h2
      unfold Wk
      simp only [_root_.Matrix.of_apply]
      rw [if_pos ⟨h1, h2⟩]
    · intro i hi
      unfold Wk
      simp only [_root_.Matrix.of_apply]
      rw [if_neg (by omega)]
      exact c i hi i.2
  rw [h.det] at hz
  exact (mul_ne_zero (sign_ne _) hA) hz

/-- One column. -/
theorem luStep_eq {n : Nat} {A : _root_.Matrix (Fin n) (Fin n) ℚ} (hA : A.det ≠ 0) {k : Nat} (hk : k < n)
    {s : FState} {p : Fin n → Fin n} {M : Nat → Nat → ℚ} (h : LUInv A k s p M) :
    ∃ s' p' M', luStep n k s = some s' ∧ LUInv A (k + 1) s' p' M' ∧ (∀ i : Fin n, i.val < k → p' i = p i) ∧
      (∀ i, k ≤ i → i < n → s.vv.getD i 0 * |M i k| ≤
        s.vv.getD (p' ⟨k, hk⟩).val 0 * |M (p' ⟨k, hk⟩).val k|) ∧
      (∀ i, k ≤ i → i < (p' ⟨k, hk⟩).val → s.vv.getD i 0 * |M i k| <
        s.vv.getD (p' ⟨k, hk⟩).val 0 * |M (p' ⟨k, hk⟩).val k|) ∧
      M' = elim k (fun a b => M (if a = k then (p' ⟨k, hk⟩).val else if a = (p' ⟨k, hk⟩).val then k else a) b) := by
  have hv : ∀ i < n, s.vv[i]? = some (s.vv.getD i 0) := fun i hi => rd_getD' (by rw [h.vlen]; exact hi)
  obtain ⟨big, q, e1, hkq, hqn, hqne, hmax, hmin⟩ := findPivot_eq h.rep hv h.vpos hk s.imax (h.column hA hk)
  let p' : Fin n → Fin n := Function.update p ⟨k, hk⟩ ⟨q, hqn⟩
  have hp' : p' ⟨k, hk⟩ = ⟨q, hqn⟩ := by simp [p']
  have hpold : ∀ i : Fin n, i.val < k → p' i = p i := by
    intro i hi
    have : i ≠ ⟨k, hk⟩ := by intro e; rw [e] at hi; simp at hi
    simp [p', this]
  -- the (possibly trivial) exchange
  obtain ⟨s1, es, r1, hd1, hl1, hpos1, hpv1⟩ : ∃ s1 : FState,
      exchange n k q s = some s1 ∧
      Rep s1.m n n (fun a b => M (if a = k then q else if a = q then k else a) b) ∧
      s1.d = ((Equiv.Perm.sign (rowOrder p' (k + 1)) : ℤ) : ℚ) ∧ s1.vv.length = n ∧
      (∀ i < n, 0 < s1.vv.getD i 0) ∧ s1.pivot = s.pivot := by
    have hs : ((Equiv.Perm.sign (rowOrder p' (k + 1)) : ℤ) : ℚ) =
        s.d * (((Equiv.Perm.sign (Equiv.swap (⟨k, hk⟩ : Fin n) ⟨q, hqn⟩) : ℤ)) : ℚ) := by
      rw [rowOrder_succ p' hk, hp', Equiv.Perm.sign_mul, rowOrder_congr hk.le hpold, h.d]
      push_cast
      rfl
    by_cases c : k = q
    · subst c
      refine ⟨s, by unfold exchange; rw [if_neg (by simp)], h.rep.congr ?_, ?_, h.vlen, h.vpos, rfl⟩
      · intro a b _ _
        split
        · next c => rw [c]
        · rfl
      · rw [hs]; simp
    · obtain ⟨m', em, rm⟩ := swapRows_eq h.rep hk hqn
      have a1 : rd s.vv (k : Int) = some (s.vv.getD k 0) := rd_fn_nat hv k rfl hk
      have a2 : wr s.vv (q : Int) (s.vv.getD k 0) = some (s.vv.set q (s.vv.getD k 0)) :=
        wr_natCast (by rw [h.vlen]; exact hqn)
      refine ⟨{ s with m := m', vv := s.vv.set q (s.vv.getD k 0), d := -s.d }, ?_, rm, ?_, ?_, ?_, rfl⟩
      · unfold exchange
        rw [if_pos (by exact_mod_cast c)]
        exact bind_of em (bind_of a1 (bind_of a2 rfl))
      · rw [hs, Equiv.Perm.sign_swap (by intro e; exact c (by simpa using e))]
        simp
      · simpa using h.vlen
      · intro i hi
        simp only
        rw [getD_set (by rw [h.vlen]; exact hqn)]
        split
        · exact h.vpos k hk
        · exact h.vpos i hi
  have hpw : wr s1.pivot (k : Int) (q : Int) = some (s1.pivot.set k (q : Int)) :=
    wr_natCast (by rw [hpv1, h.plen]; exact hk)
  have a3 := r1.rd hk hk
  simp only [if_true] at a3
  obtain ⟨m2, e2, r2⟩ := eliminate_eq r1 hk
  refine ⟨{ s1 with m := m2, imax := q, pivot := s1.pivot.set k (q : Int) }, p',
    elim k (fun a b => M (if a = k then q else if a = q then k else a) b), ?_, ?_, hpold, ?_, ?_, ?_⟩
  · unfold luStep
    have e3 : fixPivot n k s1.m = some s1.m := by
      unfold fixPivot
      refine bind_of a3 ?_
      rw [if_neg hqne]
    exact bind_of e1 (bind_of es (bind_of hpw (bind_of e3 (bind_of e2 rfl))))
  · refine ⟨r2, ?_, hl1, hpos1, ?_, ?_, ?_, hd1⟩
    · intro i j
      rw [R_elim hk _ (by simpa using hqne), R_swap hkq, rowOrder_succ p' hk, hp', rowOrder_congr hk.le hpold,
        Equiv.Perm.mul_apply, h.eq]
      congr 1
      rw [Equiv.swap_apply_def]
      by_cases c1 : i.val = k
      · rw [if_pos (Fin.ext c1), if_pos c1]
      · rw [if_neg (by intro e; exact c1 (by rw [e])), if_neg c1]
        by_cases c2 : i.val = q
        · rw [if_pos (Fin.ext c2), if_pos c2]
        · rw [if_neg (by intro e; exact c2 (by rw [e])), if_neg c2]
    · simp only [List.length_set]; rw [hpv1, h.plen]
    · intro i hi
      simp only
      rw [List.getElem?_set]
      by_cases c : k = i.val
      · rw [if_pos c, if_pos (by rw [hpv1, h.plen]; exact hk)]
        have : i = ⟨k, hk⟩ := Fin.ext c.symm
        rw [this, hp']
      · rw [if_neg c, hpv1, h.pval i (by omega), hpold i (by omega)]
    · intro i
      by_cases c : i = ⟨k, hk⟩
      · rw [c, hp']; exact hkq
      · have : p' i = p i := by simp [p', c]
        rw [this]; exact h.ple i
  · rw [hp']; exact hmax
  · rw [hp']; exact hmin
  · rw [hp']

/-- Rows of a nonsingular matrix are nonzero. -/
theorem row_ne {n : Nat} {A : _root_.Matrix (Fin n) (Fin n) ℚ} (hA : A.det ≠ 0) (i : Fin n) :
    ∃ j, A i j ≠ 0 := by
  by_contra c
  push Not at c
  exact hA (_root_.Matrix.det_eq_zero_of_row_eq_zero i c)

/-- The start of the factorisation. -/
theorem vv_eq {n : Nat} {A : _root_.Matrix (Fin n) (Fin n) ℚ} (hA : A.det ≠ 0) {m : List ℚ} (H : Holds m A) :
    ∃ vv, forRange 0 n (fun i vv => do
      let s ← rowScale n m i
      wr vv i s) (List.replicate n 0) = some vv ∧ vv.length = n ∧ ∀ i < n, 0 < vv.getD i 0 := by
  have row : ∀ i, ∃ v, i < n → rowScale n m i = some v ∧ 0 < v := by
    intro i
    by_cases hi : i < n
    · obtain ⟨j, hj⟩ := row_ne hA ⟨i, hi⟩
      rw [H.eq_fnOf] at hj
      obtain ⟨v, e, h⟩ := (rowScale_eq H.rep hi).1 ⟨j, j.2, hj⟩
      exact ⟨v, fun _ => ⟨e, h⟩⟩
    · exact ⟨0, fun h => absurd h hi⟩
  choose V hV using row
  obtain ⟨vv, e, hl, h⟩ := forRange_fill V (lo := 0) (hi := n) (Nat.zero_le _) le_rfl (List.replicate n 0) (by simp)
    (fun i vv => do
      let s ← rowScale n m i
      wr vv i s) (by
      intro i st _ hi _ _
      exact bind_of (hV i hi).1 rfl)
  rw [Nat.cast_zero] at e
  refine ⟨vv, e, hl, ?_⟩
  intro i hi
  rw [List.getD_eq_getElem?_getD, h, if_pos ⟨Nat.zero_le _, hi⟩]
  exact (hV i hi).2

/-- The factorisation of a nonsingular matrix. -/
theorem factorize_eq {n : Nat} {A : _root_.Matrix (Fin n) (Fin n) ℚ} (hA : A.det ≠ 0) {m : List ℚ}
    (H : Holds m A) (pivot : List Int) (hp : pivot.length = n) :
    ∃ s p M, factorize n m pivot = some ⟨s.m, n, s.pivot, s.d⟩ ∧ LUInv A n s p M := by
  obtain ⟨vv, e, hl, hpos⟩ := vv_eq hA H
  have init : LUInv A 0 ⟨m, vv, 0, pivot, 1⟩ id (fnOf m n) := by
    refine ⟨H.rep, ?_, hl, hpos, hp, ?_, fun i => le_rfl, ?_⟩
    · intro i j
      rw [rowOrder_zero, R_zero, ← H.eq_fnOf]; rfl
    · intro i hi; omega
    · rw [rowOrder_zero]; simp
  obtain ⟨s, e2, p, M, h⟩ := forRange_nat (fun k s => ∃ p M, LUInv A k s p M) (lo := 0) (hi := n) (Nat.zero_le _)
    (luStep n) ⟨m, vv, 0, pivot, 1⟩ ⟨id, _, init⟩ (by
      rintro k s _ hk ⟨p, M, h⟩
      obtain ⟨s', p', M', e, h', _⟩ := luStep_eq hA hk h
      exact ⟨s', e, p', M', h'⟩)
  rw [Nat.cast_zero] at e2
  exact ⟨s, p, M, bind_of e (bind_of e2 rfl), h⟩

theorem Wk_eq_upper (n : Nat) (M : Nat → Nat → ℚ) :
    Wk n n M = upper (_root_.Matrix.of fun i j : Fin n => M i j) := by
  ext i j
  unfold Wk upper
  simp only [_root_.Matrix.of_apply]
  have := j.2
  by_cases c : j < i
  · rw [if_pos c, if_pos ⟨this, c⟩]
  · rw [if_neg c, if_neg (fun h => c h.2)]

theorem Lk_eq_lower (n : Nat) (M : Nat → Nat → ℚ) :
    Lk n n M = lower (_root_.Matrix.of fun i j : Fin n => M i j) := by
  ext i j
  unfold Lk lower
  simp only [_root_.Matrix.of_apply]
  have := j.2
  by_cases c : j < i
  · rw [if_pos c, if_pos ⟨c, this⟩]
  · rw [if_neg c, if_neg (fun h => c h.1)]
    by_cases d : i = j
    · rw [if_pos d, if_pos d.symm]
    · rw [if_neg d, if_neg (fun h => d h.symm)]

theorem det_upper {n : Nat} (F : _root_.Matrix (Fin n) (Fin n) ℚ) : (upper F).det = ∏ i, F i i := by
  rw [_root_.Matrix.det_of_isUpperTriangular]
  · apply Finset.prod_congr rfl
    intro i _
    simp [upper]
  · intro i j hij
    have hij : j < i := hij
    unfold upper
    simp only [_root_.Matrix.of_apply]
    rw [if_pos hij]

theorem det_lower {n : Nat} (F : _root_.Matrix (Fin n) (Fin n) ℚ) : (lower F).det = 1 := by
  have := det_Lk n n (fun i j => if h : i < n ∧ j < n then F ⟨i, h.1⟩ ⟨j, h.2⟩ else 0)
  rw [Lk_eq_lower] at this
  rw [← this]
  congr 2
  ext i j
  simp

/-- What `LU` returns for a nonsingular matrix: the entries `F`, the pivots `p`. -/
structure Factored {n : Nat} (A : _root_.Matrix (Fin n) (Fin n) ℚ) (luf : LUFactors)
    (F : _root_.Matrix (Fin n) (Fin n) ℚ) (p : Fin n → Fin n) : Prop where
  size : luf.n = n
  holds : Holds luf.lu F
  pivot : luf.pivot = List.ofFn (fun i => ((p i).val : Int))
  le : ∀ i, i ≤ p i
  mul : lower F * upper F = A.submatrix (rowOrder p n) id
  sign : luf.d = ((Equiv.Perm.sign (rowOrder p n) : ℤ) : ℚ)

theorem LUInv.factored {n : Nat} {A : _root_.Matrix (Fin n) (Fin n) ℚ} {s : FState} {p : Fin n → Fin n}
    {M : Nat → Nat → ℚ} (h : LUInv A n s p M) :
    Factored A ⟨s.m, n, s.pivot, s.d⟩ (_root_.Matrix.of fun i j : Fin n => M i j) p := by
  refine ⟨rfl, h.rep.holds, ?_, h.ple, ?_, h.d⟩
  · apply List.ext_getElem?
    intro i
    by_cases hi : i < n
    · rw [h.pval ⟨i, hi⟩ hi, List.getElem?_ofFn, dif_pos hi]
    · rw [List.getElem?_eq_none (by simp only; rw [h.plen]; omega), List.getElem?_eq_none (by simpa using hi)]
  · rw [← Wk_eq_upper, ← Lk_eq_lower, Lk_mul_Wk]
    ext i j
    exact (h.eq i j).symm

theorem goCopy_full {dst src : List ℚ} (h : dst.length = src.length) : goCopy dst src = src := by
  unfold goCopy
  rw [h, List.take_length, List.drop_eq_nil_of_le (by omega), List.append_nil]

/-- C28: `LU` succeeds on every nonsingular matrix, and the product of the stored factors is the matrix
with its rows exchanged as recorded by the pivots. `LUFactorsAt` does the same, whatever the factors held
before. -/
theorem C28_factors {n : Nat} (A : _root_.Matrix (Fin n) (Fin n) ℚ) (hA : A.det ≠ 0) (m : List ℚ)
    (H : Holds m A) :
    (∃ luf F p, Matrix.LU ⟨m, n, n⟩ = some luf ∧ Factored A luf F p) ∧
    (∀ old : LUFactors, old.n = n → old.lu.length = n * n → old.pivot.length = n →
      ∃ luf F p, Matrix.luFactorsAt ⟨m, n, n⟩ old = some luf ∧ Factored A luf F p) := by
  have main : ∀ old : LUFactors, old.n = n → old.lu.length = n * n → old.pivot.length = n →
      ∃ luf F p, Matrix.luFactorsAt ⟨m, n, n⟩ old = some luf ∧ Factored A luf F p := by
    intro old h1 h2 h3
    obtain ⟨s, p, M, e, h⟩ := factorize_eq hA H old.pivot h3
    refine ⟨_, _, p, ?_, h.factored⟩
    unfold Matrix.luFactorsAt
    rw [if_neg (by simp [h1]), h1, goCopy_full (by rw [h2, H.1]), e]
  refine ⟨?_, main⟩
  unfold Matrix.LU
  rw [if_neg (by simp)]
  exact main (newLUFactors n) rfl (by simp [newLUFactors]) (by simp [newLUFactors])

/-- C28: `Determinant` is the determinant of every nonsingular matrix. -/
theorem C28_determinant {n : Nat} (A : _root_.Matrix (Fin n) (Fin n) ℚ) (hA : A.det ≠ 0) (m : List ℚ)
    (H : Holds m A) : Matrix.determinant ⟨m, n, n⟩ = some A.det := by
  obtain ⟨⟨luf, F, p, e, f⟩, _⟩ := C28_factors A hA m H
  refine bind_of e ?_
  have hdet : ∏ i, F i i = ((Equiv.Perm.sign (rowOrder p n) : ℤ) : ℚ) * A.det := by
    have := congrArg _root_.Matrix.det f.mul
    rw [_root_.Matrix.det_permute, _root_.Matrix.det_mul, det_lower, det_upper, one_mul] at this
    exact this
  unfold LUFactors.determinant
  have hr := f.holds.rep
  obtain ⟨d, ed, hd⟩ := forRange_nat (fun k d => d = luf.d * ∏ i ∈ Finset.range k, fnOf luf.lu n i i)
    (lo := 0) (hi := n) (Nat.zero_le _) (fun i d => do
    let x ← rd luf.lu (i * n + i)
    some (d * x)) luf.d (by simp) (by
      intro k d _ hk hd
      refine ⟨_, bind_of (hr.rd hk hk) rfl, ?_⟩
      rw [hd, Finset.prod_range_succ, mul_assoc])
  rw [Nat.cast_zero] at ed
  rw [f.size, ed, hd, Finset.prod_range]
  congr 1
  rw [show (∏ i : Fin n, fnOf luf.lu n i i) = ∏ i, F i i from
    Finset.prod_congr rfl (fun i _ => (f.holds.eq_fnOf i i).symm), hdet, f.sign, ← mul_assoc]
  have : ((Equiv.Perm.sign (rowOrder p n) : ℤ) : ℚ) * ((Equiv.Perm.sign (rowOrder p n) : ℤ) : ℚ) = 1 := by
    rcases Int.units_eq_one_or (Equiv.Perm.sign (rowOrder p n)) with h | h <;> rw [h] <;> simp
  rw [this, one_mul]

/-- C28: shapes that do not fit are refused: `LU` panics on every matrix that is not square, and
`LUFactorsAt` on every matrix that is not square or not of the size of the factors it is given. -/
theorem C28_shapes (m : Matrix) (luf : LUFactors) :
    (m.width ≠ m.height → m.LU = none) ∧
    (m.width ≠ luf.n → m.luFactorsAt luf = none) ∧ (m.height ≠ luf.n → m.luFactorsAt luf = none) := by
  refine ⟨fun h => ?_, fun h => ?_, fun h => ?_⟩
  · unfold Matrix.LU
    rw [if_pos h]
  · unfold Matrix.luFactorsAt
    rw [if_pos (Or.inl (Ne.symm h))]
  · unfold Matrix.luFactorsAt
    rw [if_pos (Or.inr (Ne.symm h))]

example : Matrix.luFactorsAt ⟨[1, 0, 0, 1], 2, 2⟩ (newLUFactors 3) = none ∧
    (Matrix.luFactorsAt ⟨[1, 0, 0, 1], 2, 2⟩ (newLUFactors 2)).isSome := by decide +kernel

/-- C28: a matrix with a zero row makes `LU` panic. -/
theorem C28_zero_row {n : Nat} (A : _root_.Matrix (Fin n) (Fin n) ℚ) (m : List ℚ) (H : Holds m A) (i : Fin n)
    (hz : ∀ j, A i j = 0) : Matrix.LU ⟨m, n, n⟩ = none := by
  unfold Matrix.LU Matrix.luFactorsAt
  rw [if_neg (by simp), if_neg (by simp [newLUFactors])]
  have hnone : rowScale n m (i.val : Int) = none := by
    refine (rowScale_eq H.rep i.2).2 ?_
    intro j hj
    have := hz ⟨j, hj⟩
    rw [H.eq_fnOf] at this
    exact this
  unfold factorize
  simp only [newLUFactors]
  rw [goCopy_full (by simp [H.1])]
  simp only [bind]
  rw [Option.bind_eq_none_iff]
  intro vv e
  exfalso
  obtain ⟨t, t', _, et⟩ := forRange_visit (fun _ => True) _ _ _ trivial (fun _ _ _ _ _ _ _ => trivial) e i.val
    (by omega) (by have := i.2; omega)
  rw [hnone] at et
  exact absurd et (by simp)

example : Matrix.determinant ⟨[0, 2, 1, 1, 1, 0, 3, 5, 7], 3, 3⟩ = some (-12) ∧
    (Matrix.LU ⟨[0, 2, 1, 1, 1, 0, 3, 5, 7], 3, 3⟩).map (·.pivot) = some [1, 1, 2] ∧
    Matrix.LU ⟨[1, 2, 0, 0], 2, 2⟩ = none := by decide +kernel

end Verif.Mat
