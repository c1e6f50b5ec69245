import Verif.Mat.AliasModel
import Verif.Mat.Basic
import Mathlib.Tactic.FinCases

/-!
# C156: products and transposes written over an argument

Specification: the product of matrices as functions (`_root_.Matrix`), and the slices holding them (`Holds`).
-/

set_option autoImplicit false

namespace Verif.Mat

open Verif.Go

/-- Without shared memory this is the model of C25. -/
theorem multAtShared_none (m1 m2 out : Matrix) : m1.multAtShared false false m2 out = m1.multAt m2 out := rfl

theorem rd_zeros {N : Nat} {i : Nat} (h : i < N) : rd (List.replicate N (0 : ℚ)) (i : Int) = some 0 := by
  rw [rd_natCast]; simp [h]

theorem wr_zeros {N : Nat} {i : Nat} (h : i < N) :
    wr (List.replicate N (0 : ℚ)) (i : Int) 0 = some (List.replicate N 0) := by
  rw [wr_natCast (by simpa using h)]
  congr 1
  apply List.ext_getElem
  · simp
  · intro k h1 h2
    simp [List.getElem_set]

/-- C156 for `MultAt`: written over one of its (square) factors, or over both, the product is always zero. -/
theorem C156_mult_zero (n : Nat) (a b : List ℚ) (ha : a.length = n * n) (hb : b.length = n * n) (l r : Bool)
    (hlr : l = true ∨ r = true) :
    (Matrix.mk a n n).multAtShared l r ⟨b, n, n⟩ ⟨if l then a else b, n, n⟩ =
      some ⟨List.replicate (n * n) 0, n, n⟩ := by
  have hlen : (if l then a else b).length = n * n := by split <;> assumption
  unfold Matrix.multAtShared
  rw [if_neg (by simp)]
  simp only [hlen]
  have key := forRange_nat (fun _ (st : List ℚ) => st = List.replicate (n * n) 0) (lo := 0) (hi := n) (Nat.zero_le _)
    (fun i vals =>
      forRange 0 n (fun j vals =>
        forRange 0 n (fun k vals => do
          let o ← rd vals (i * n + j)
          let x ← rd (if l then vals else a) (i * n + k)
          let y ← rd (if r then vals else b) (k * n + j)
          wr vals (i * n + j) (o + x * y)) vals) vals) (List.replicate (n * n) 0) rfl (by
    intro i st _ hi est
    subst est
    have := forRange_nat (fun _ (st : List ℚ) => st = List.replicate (n * n) 0) (lo := 0) (hi := n) (Nat.zero_le _)
      (fun j vals =>
        forRange 0 n (fun k vals => do
          let o ← rd vals ((i : Int) * n + j)
          let x ← rd (if l then vals else a) ((i : Int) * n + k)
          let y ← rd (if r then vals else b) (k * n + j)
          wr vals ((i : Int) * n + j) (o + x * y)) vals) (List.replicate (n * n) 0) rfl (by
      intro j st _ hj est
      subst est
      have := forRange_nat (fun _ (st : List ℚ) => st = List.replicate (n * n) 0) (lo := 0) (hi := n) (Nat.zero_le _)
        (fun k vals => do
          let o ← rd vals ((i : Int) * n + j)
          let x ← rd (if l then vals else a) ((i : Int) * n + k)
          let y ← rd (if r then vals else b) (k * n + j)
          wr vals ((i : Int) * n + j) (o + x * y)) (List.replicate (n * n) 0) rfl (by
        intro k st _ hk est
        subst est
        have c : ∀ p q : Nat, (p : Int) * n + q = ((p * n + q : Nat) : Int) := by intros; push_cast; rfl
        refine ⟨_, ?_, rfl⟩
        have e1 : ∀ (s : Bool) (v : List ℚ), v.length = n * n → ∀ p q : Nat, p < n → q < n →
            ∃ x, rd (if s then List.replicate (n * n) 0 else v) ((p * n + q : Nat) : Int) = some x ∧
              (s = true → x = 0) := by
          intro s v hv p q hp hq
          cases s
          · exact ⟨_, rd_of_lt (by rw [if_neg (by simp), hv]; exact idx_lt hp hq), by simp⟩
          · exact ⟨0, by rw [if_pos rfl]; exact rd_zeros (idx_lt hp hq), fun _ => rfl⟩
        obtain ⟨x, ex, hx⟩ := e1 l a ha i k hi hk
        obtain ⟨y, ey, hy⟩ := e1 r b hb k j hk hj
        simp only [c]
        rw [rd_zeros (idx_lt hi hj), ex, ey]
        simp only [Option.bind_eq_bind, Option.bind_some]
        rw [show (0 : ℚ) + x * y = 0 by rcases hlr with h | h <;> simp [hx, hy, h]]
        exact wr_zeros (idx_lt hi hj))
      exact this)
    exact this)
  obtain ⟨s, e, hs⟩ := key
  simp only [Nat.cast_zero] at e
  rw [e, hs]
  rfl

/-- C156 for `MultVec`: written over the vector, the product is always zero. -/
theorem C156_multVec_zero (n : Nat) (a v : List ℚ) (ha : a.length = n * n) (hv : v.length = n) :
    multVecSelf ⟨a, n, n⟩ v = some (List.replicate n 0) := by
  unfold multVecSelf
  rw [if_neg (by simp [hv])]
  simp only [hv]
  obtain ⟨s, e, h1, h2⟩ := forRange_nat (fun j (s : List ℚ × Int) => s.1 = List.replicate n 0 ∧ s.2 = (j * n : Nat))
    (lo := 0) (hi := n) (Nat.zero_le _)
    (fun j (s : List ℚ × Int) => do
      let out ← forRange 0 n (fun i out => do
        let o ← rd out j
        let a ← rd a (s.2 + i)
        let x ← rd out i
        wr out j (o + a * x)) s.1
      some (out, s.2 + n)) (List.replicate n 0, 0) ⟨rfl, by simp⟩ (by
    rintro j ⟨o, off⟩ _ hj ⟨e1, e2⟩
    simp only at e1 e2
    subst e1 e2
    obtain ⟨t, e, ht⟩ := forRange_nat (fun _ (st : List ℚ) => st = List.replicate n 0) (lo := 0) (hi := n)
      (Nat.zero_le _) (fun i out => do
        let o ← rd out j
        let a ← rd a (((j * n : Nat) : Int) + i)
        let x ← rd out i
        wr out j (o + a * x)) (List.replicate n 0) rfl (by
      intro i st _ hi est
      subst est
      refine ⟨_, ?_, rfl⟩
      have hlt : j * n + i < a.length := by rw [ha]; exact idx_lt hj hi
      rw [rd_zeros hj, show ((j * n : Nat) : Int) + i = ((j * n + i : Nat) : Int) by push_cast; rfl, rd_of_lt hlt,
        rd_zeros hi]
      simp only [Option.bind_eq_bind, Option.bind_some, mul_zero, add_zero]
      exact wr_zeros hj)
    refine ⟨(t, ((j * n : Nat) : Int) + n), ?_, ht, ?_⟩
    · simp only [Nat.cast_zero] at e
      simp only [e]
      rfl
    · push_cast; ring)
  simp only [Nat.cast_zero] at e
  rw [e]
  simp [h1]

/-- C156 for `VecMult`: written over the vector, the product is always zero. -/
theorem C156_vecMult_zero (n : Nat) (a v : List ℚ) (ha : a.length = n * n) (hv : v.length = n) :
    vecMultSelf v ⟨a, n, n⟩ = some (List.replicate n 0) := by
  unfold vecMultSelf
  rw [if_neg (by simp [hv])]
  simp only [hv]
  obtain ⟨s, e, h⟩ := forRange_nat (fun _ (st : List ℚ) => st = List.replicate n 0) (lo := 0) (hi := n) (Nat.zero_le _)
    (fun i out => do
      let sum ← forRange 0 n (fun j sum => do
        let x ← rd out j
        let a ← rd a (i + n * j)
        some (sum + x * a)) 0
      wr out i sum) (List.replicate n 0) rfl (by
    intro i st _ hi est
    subst est
    obtain ⟨t, e, ht⟩ := forRange_nat (fun _ (s : ℚ) => s = 0) (lo := 0) (hi := n) (Nat.zero_le _)
      (fun j sum => do
        let x ← rd (List.replicate n (0 : ℚ)) j
        let a ← rd a ((i : Int) + n * j)
        some (sum + x * a)) 0 rfl (by
      intro j s _ hj es
      subst es
      have hlt : j * n + i < a.length := by rw [ha]; exact idx_lt hj hi
      refine ⟨_, ?_, rfl⟩
      rw [rd_zeros hj, show (i : Int) + n * j = ((j * n + i : Nat) : Int) by push_cast; ring, rd_of_lt hlt]
      simp)
    subst ht
    simp only [Nat.cast_zero] at e
    exact ⟨_, by rw [e]; exact wr_zeros hi, rfl⟩)
  simp only [Nat.cast_zero] at e
  rw [e, h]

/-- C156 for `TransposeAt`: written over the matrix itself, the entries above the diagonal are copied below it, and those
below it are lost. -/
theorem C156_transpose_self (n : Nat) (a : List ℚ) (A : _root_.Matrix (Fin n) (Fin n) ℚ) (ha : Holds a A) :
    ∃ c, (Matrix.mk a n n).transposeSelf = some ⟨c, n, n⟩ ∧
      Holds c (_root_.Matrix.of fun i j => A (min i j) (max i j)) := by
  have r := ha.rep
  set M := fnOf a n with hM
  obtain ⟨c, e, rc⟩ := forRange_nat (fun y st => Rep st n n (fun p q => if q < p ∧ q < y then M q p else M p q)) (lo := 0)
    (hi := n) (Nat.zero_le _) (fun y vals =>
    forRange 0 n (fun x vals => do
      let v ← rd vals (y * n + x)
      wr vals (x * n + y) v) vals) a (r.congr (by intro p q _ _; simp)) (by
    intro y st _ hy rs
    obtain ⟨t, e, rt⟩ := forRange_nat (fun x st => Rep st n n (fun p q =>
      if q < p ∧ (q < y ∨ q = y ∧ p < x) then M q p else M p q)) (lo := 0) (hi := n) (Nat.zero_le _)
      (fun x vals => do
        let v ← rd vals ((y : Int) * n + x)
        wr vals (x * n + y) v) st (rs.congr (by
          intro p q _ _
          by_cases c : q < p ∧ q < y
          · rw [if_pos c, if_pos (by omega)]
          · rw [if_neg c, if_neg (by omega)])) (by
      intro x t _ hx rt
      have e1 := rt.rd (i := y) (j := x) hy hx
      obtain ⟨t', e2, rt'⟩ := rt.wr (i := x) (j := y) hx hy
        (if x < y ∧ (x < y ∨ x = y ∧ y < x) then M x y else M y x)
      refine ⟨t', bind_of e1 e2, rt'.congr ?_⟩
      intro p q hp hq
      by_cases c : p = x ∧ q = y
      · obtain ⟨rfl, rfl⟩ := c
        rw [if_pos ⟨rfl, rfl⟩]
        rcases lt_trichotomy p q with h | h | h
        · rw [if_pos (by omega), if_neg (by omega)]
        · subst h
          rw [if_neg (by omega), if_neg (by omega)]
        · rw [if_neg (by omega), if_pos (by omega)]
      · rw [if_neg c]
        by_cases c' : q < p ∧ (q < y ∨ q = y ∧ p < x)
        · rw [if_pos c', if_pos (by omega)]
        · rw [if_neg c', if_neg (by omega)])
    simp only [Nat.cast_zero] at e
    refine ⟨t, e, rt.congr ?_⟩
    intro p q hp hq
    by_cases c : q < p ∧ (q < y ∨ q = y ∧ p < n)
    · rw [if_pos c, if_pos (by omega)]
    · rw [if_neg c, if_neg (by omega)])
  refine ⟨c, ?_, rc.1, ?_⟩
  · unfold Matrix.transposeSelf
    simp only [Nat.cast_zero] at e
    simp only [e]
    rfl
  · intro i j
    rw [rc.2 i j i.2 j.2]
    simp only [_root_.Matrix.of_apply]
    rw [ha.eq_fnOf]
    congr 1
    by_cases c : j < i
    · rw [if_pos ⟨c, j.2⟩, min_eq_right c.le, max_eq_left c.le]
    · rw [if_neg (fun h => c h.1), min_eq_left (not_lt.mp c), max_eq_right (not_lt.mp c)]

/-- So a matrix is transposed in place correctly exactly when it is symmetric. -/
theorem C156_transpose_symmetric_partial (n : Nat) (a : List ℚ) (A : _root_.Matrix (Fin n) (Fin n) ℚ) (ha : Holds a A) :
    (∃ c, (Matrix.mk a n n).transposeSelf = some ⟨c, n, n⟩ ∧ Holds c A.transpose) ↔ A.transpose = A := by
  obtain ⟨c, e, hc⟩ := C156_transpose_self n a A ha
  constructor
  · rintro ⟨c', e', hc'⟩
    rw [e] at e'
    simp only [Option.some.injEq, Matrix.mk.injEq, and_true] at e'
    subst e'
    have h : ∀ i j, A (min i j) (max i j) = A j i := by
      intro i j
      have := (hc.2 i j).symm.trans (hc'.2 i j)
      simpa using this
    ext i j
    rw [_root_.Matrix.transpose_apply]
    have h1 := h i j
    have h2 := h j i
    rw [min_comm, max_comm, h1] at h2
    exact h2
  · intro h
    refine ⟨c, e, ?_⟩
    have : (_root_.Matrix.of fun i j => A (min i j) (max i j)) = A.transpose := by
      ext i j
      simp only [_root_.Matrix.of_apply, _root_.Matrix.transpose_apply]
      rcases le_total i j with hij | hij
      · rw [min_eq_left hij, max_eq_right hij]
        exact (congrFun (congrFun h i) j).symm
      · rw [min_eq_right hij, max_eq_left hij]
    rw [← this]
    exact hc

/-- C156 fails: the square of a matrix written over the matrix, its product with a vector written over the vector, and
its transpose written over the matrix. -/
theorem C156_alias_counterexample :
    (Matrix.mk [1, 2, 3, 4] 2 2).mult ⟨[1, 2, 3, 4], 2, 2⟩ = some ⟨[7, 10, 15, 22], 2, 2⟩ ∧
    (Matrix.mk [1, 2, 3, 4] 2 2).multAtShared true true ⟨[1, 2, 3, 4], 2, 2⟩ ⟨[1, 2, 3, 4], 2, 2⟩ =
      some ⟨[0, 0, 0, 0], 2, 2⟩ ∧
    multVec ⟨[1, 2, 3, 4], 2, 2⟩ [1, 1] [0, 0] = some [3, 7] ∧
    multVecSelf ⟨[1, 2, 3, 4], 2, 2⟩ [1, 1] = some [0, 0] ∧
    (Matrix.mk [1, 2, 3, 4] 2 2).transposeSelf = some ⟨[1, 2, 2, 4], 2, 2⟩ := by
  decide +kernel

example : Holds [1, 2, 2, 4] (_root_.Matrix.of ![![(1 : ℚ), 2], ![2, 4]]) := by
  refine ⟨rfl, ?_⟩
  intro i j
  fin_cases i <;> fin_cases j <;> rfl

end Verif.Mat
