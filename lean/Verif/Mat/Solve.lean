import Verif.Mat.LU
import Mathlib.LinearAlgebra.Matrix.ToLinearEquiv

/-! Solving linear systems: properties C29, C30 and C90. -/

set_option autoImplicit false

namespace Verif.Mat

open Verif.Go

/-! ### Row orders that do something -/

theorem rowOrder_le {n : Nat} {p : Fin n → Fin n} {k : Nat} (hk : k ≤ n) :
    ∀ i : Fin n, k ≤ i.val → rowOrder p k i ≤ i := by
  induction k with
  | zero => intro i _; rw [rowOrder_zero]; exact le_rfl
  | succ k ih =>
    intro i hi
    rw [rowOrder_succ p hk, Equiv.Perm.mul_apply, Equiv.swap_apply_def]
    have hne : i ≠ ⟨k, hk⟩ := by intro e; rw [e] at hi; simp at hi
    rw [if_neg hne]
    split
    · exact (ih (by omega) ⟨k, hk⟩ (by simp)).trans (by show k ≤ i.val; omega)
    · exact ih (by omega) i (by omega)

theorem rowOrder_id {n : Nat} {p : Fin n → Fin n} (h : ∀ i, p i = i) : ∀ k, k ≤ n → rowOrder p k = 1 := by
  intro k
  induction k with
  | zero => intro _; rfl
  | succ k ih => intro hk; rw [rowOrder_succ p hk, ih (by omega), h, Equiv.swap_self]; rfl

/-- If the pivots exchange any rows, there is a row that is its own pivot but not its own place. -/
theorem exists_moved {n : Nat} {p : Fin n → Fin n} (hle : ∀ i, i ≤ p i) (h : ∃ i, p i ≠ i) :
    ∃ q, p q = q ∧ rowOrder p n q ≠ q := by
  have hlast : ∃ k : Fin n, p k ≠ k ∧ ∀ j : Fin n, k < j → p j = j := by
    obtain ⟨i, hi⟩ := h
    have hne : (Finset.univ.filter fun i => p i ≠ i).Nonempty := ⟨i, by simpa using hi⟩
    refine ⟨(Finset.univ.filter fun i => p i ≠ i).max' hne, ?_, ?_⟩
    · have := Finset.max'_mem _ hne
      simpa using this
    · intro j hj
      by_contra c
      have := Finset.le_max' (Finset.univ.filter fun i => p i ≠ i) j (by simpa using c)
      exact absurd hj (not_lt.mpr this)
  obtain ⟨k, hk, hafter⟩ := hlast
  have hlt : k < p k := lt_of_le_of_ne (hle k) (fun e => hk e.symm)
  refine ⟨p k, hafter _ hlt, ?_⟩
  have stay : ∀ m, k.val + 1 ≤ m → m ≤ n → rowOrder p m = rowOrder p (k.val + 1) := by
    intro m h1
    induction m, h1 using Nat.le_induction with
    | base => intro _; rfl
    | succ m h1 ih =>
      intro hm
      rw [rowOrder_succ p hm, hafter ⟨m, hm⟩ (by show k.val < m; omega), Equiv.swap_self, ih (by omega)]
      rfl
  rw [stay n k.2 le_rfl, rowOrder_succ p k.2, Equiv.Perm.mul_apply, Equiv.swap_apply_right]
  have := rowOrder_le (p := p) k.2.le k le_rfl
  intro e
  rw [show (⟨k.val, k.2⟩ : Fin n) = k from rfl] at e
  rw [e] at this
  exact absurd hlt (not_lt.mpr this)

/-! ### Substitution -/

/-- The first loop of `forwardSubst`. -/
theorem scatter_eq {n : Nat} {p : Fin n → Fin n} (hle : ∀ i, i ≤ p i) (bs xs : List ℚ) (hb : bs.length = n)
    (hx : xs.length = n) :
    ∃ ys, forRange 0 n (fun i ys => do
        let q ← rd (List.ofFn fun i => ((p i).val : Int)) i
        let b ← rd bs i
        wr ys q b) xs = some ys ∧ ys.length = n ∧
      (∀ q : Fin n, p q = q → ys.getD q.val 0 = bs.getD q.val 0) ∧
      ((∀ i, bs.getD i 0 = 0) → (∀ i, xs.getD i 0 = 0) → ∀ i, ys.getD i 0 = 0) := by
  obtain ⟨ys, e, h1, h2, h3⟩ := forRange_nat (fun k ys => ys.length = n ∧
      (∀ q : Fin n, q.val < k → p q = q → ys.getD q.val 0 = bs.getD q.val 0) ∧
      ((∀ i, bs.getD i 0 = 0) → (∀ i, xs.getD i 0 = 0) → ∀ i, ys.getD i 0 = 0)) (lo := 0) (hi := n)
    (Nat.zero_le _) (fun i ys => do
        let q ← rd (List.ofFn fun i => ((p i).val : Int)) i
        let b ← rd bs i
        wr ys q b) xs ⟨hx, by intro q h; omega, fun _ h => h⟩ (by
      intro k ys _ hk ⟨h1, h2, h3⟩
      have a1 : rd (List.ofFn fun i => ((p i).val : Int)) (k : Int) = some ((p ⟨k, hk⟩).val : Int) := by
        rw [rd_natCast, List.getElem?_ofFn, dif_pos hk]
      have a2 : rd bs (k : Int) = some (bs.getD k 0) :=
        rd_fn_nat (fun i hi => rd_getD' hi) k rfl (show k < bs.length by omega)
      have hlt : (p ⟨k, hk⟩).val < ys.length := by rw [h1]; exact (p ⟨k, hk⟩).2
      refine ⟨_, bind_of a1 (bind_of a2 (wr_natCast hlt)), by simpa using h1, ?_, ?_⟩
      · intro q hq hpq
        rw [getD_set hlt]
        split
        · next c =>
          have e : p ⟨k, hk⟩ = q := Fin.ext c
          have hkq : k ≤ q.val := by have := hle ⟨k, hk⟩; rw [e] at this; exact this
          have : q.val = k := by omega
          rw [this]
        · next c =>
          refine h2 q ?_ hpq
          rcases Nat.lt_or_ge q.val k with d | d
          · exact d
          · exfalso
            have e : q = ⟨k, hk⟩ := Fin.ext (by simp only; omega)
            apply c
            rw [← e, hpq]
      · intro hb0 hx0 i
        rw [getD_set hlt]
        split
        · exact hb0 k
        · exact h3 hb0 hx0 i)
  rw [Nat.cast_zero] at e
  exact ⟨ys, e, h1, fun q => h2 q q.2, h3⟩

/-- The second loop of `forwardSubst`: `L y = b`. -/
theorem forward_eq {n : Nat} {lu : List ℚ} {M : Nat → Nat → ℚ} (r : Rep lu n n M) (b : List ℚ)
    (hb : b.length = n) :
    ∃ ys, forRange 0 n (fun i ys => do
      let sum ← forRange 0 i (fun j sum => do
        let l ← rd lu (i * n + j)
        let y ← rd ys j
        some (sum + l * y)) 0
      let y ← rd ys i
      wr ys i (y - sum)) b = some ys ∧ ys.length = n ∧
      ∀ i, i < n → ∑ j ∈ Finset.range i, M i j * ys.getD j 0 + ys.getD i 0 = b.getD i 0 := by
  obtain ⟨ys, e, h1, h2, h3⟩ := forRange_nat (fun k ys => ys.length = n ∧
      (∀ i, k ≤ i → ys.getD i 0 = b.getD i 0) ∧
      (∀ i, i < k → ∑ j ∈ Finset.range i, M i j * ys.getD j 0 + ys.getD i 0 = b.getD i 0)) (lo := 0) (hi := n)
    (Nat.zero_le _) (fun i ys => do
      let sum ← forRange 0 i (fun j sum => do
        let l ← rd lu (i * n + j)
        let y ← rd ys j
        some (sum + l * y)) 0
      let y ← rd ys i
      wr ys i (y - sum)) b ⟨hb, fun _ _ => rfl, by intro i h; omega⟩ (by
      intro k ys _ hk ⟨h1, h2, h3⟩
      have hy : ∀ i < n, ys[i]? = some (ys.getD i 0) := fun i hi => rd_getD' (by rw [h1]; exact hi)
      have a1 := forRange_sum (fun j => M k j * ys.getD j 0) (lo := 0) (hi := k) (Nat.zero_le _) 0
        (fun j sum => do
        let l ← rd lu ((k : Int) * n + j)
        let y ← rd ys j
        some (sum + l * y)) (by
          intro j t _ hj
          exact bind_of (r.rd hk (by omega)) (bind_of (rd_fn_nat hy j rfl (by omega)) rfl))
      rw [Nat.cast_zero, zero_add, ← Finset.range_eq_Ico] at a1
      have a2 : rd ys (k : Int) = some (ys.getD k 0) := rd_fn_nat hy k rfl hk
      have hlt : k < ys.length := by rw [h1]; exact hk
      refine ⟨_, bind_of a1 (bind_of a2 (wr_natCast hlt)), by simpa using h1, ?_, ?_⟩
      · intro i hi
        rw [getD_set hlt, if_neg (by omega), h2 i (by omega)]
      · intro i hi
        have low : ∑ j ∈ Finset.range i, M i j * (ys.set k (ys.getD k 0 - ∑ j ∈ Finset.range k, M k j * ys.getD j 0)).getD j 0
            = ∑ j ∈ Finset.range i, M i j * ys.getD j 0 := by
          apply Finset.sum_congr rfl
          intro j hj
          rw [Finset.mem_range] at hj
          rw [getD_set hlt, if_neg (by omega)]
        rw [low, getD_set hlt]
        split
        · next c => subst c; rw [h2 k le_rfl]; ring
        · next c => exact h3 i (by omega))
  rw [Nat.cast_zero] at e
  exact ⟨ys, e, h1, h3⟩

/-- `backSubst`: `U x = y`. -/
theorem back_eq {n : Nat} {lu : List ℚ} {M : Nat → Nat → ℚ} (r : Rep lu n n M) (hM : ∀ i < n, M i i ≠ 0)
    (y : List ℚ) (hy : y.length = n) :
    ∃ xs, backSubst n lu y = some xs ∧ xs.length = n ∧
      ∀ i, i < n → ∑ j ∈ Finset.Ico i n, M i j * xs.getD j 0 = y.getD i 0 := by
  unfold backSubst
  obtain ⟨xs, e, h1, h2, h3⟩ := forDown_spec (fun (k : Int) xs => xs.length = n ∧
      (∀ i : Nat, (i : Int) ≤ k → xs.getD i 0 = y.getD i 0) ∧
      (∀ i : Nat, k < i → i < n → ∑ j ∈ Finset.Ico i n, M i j * xs.getD j 0 = y.getD i 0))
    (lo := 0) (hi := (n : Int) - 1) (by omega)
    (fun i xs => do
    let sum ← forRange (i + 1) n (fun j sum => do
      let l ← rd lu (i * n + j)
      let x ← rd xs j
      some (sum + l * x)) 0
    let y ← rd xs i
    let l ← rd lu (i * n + i)
    wr xs i ((y - sum) / l)) y ⟨hy, fun _ _ => rfl, by intro i h; omega⟩ (by
      intro k xs h0 hk ⟨h1, h2, h3⟩
      obtain ⟨k, rfl⟩ := Int.eq_ofNat_of_zero_le h0
      have hk : k < n := by omega
      have hx : ∀ i < n, xs[i]? = some (xs.getD i 0) := fun i hi => rd_getD' (by rw [h1]; exact hi)
      have a1 := forRange_sum (fun j => M k j * xs.getD j 0) (lo := k + 1) (hi := n) hk 0
        (fun j sum => do
        let l ← rd lu ((k : Int) * n + j)
        let x ← rd xs j
        some (sum + l * x)) (by
          intro j t _ hj
          exact bind_of (r.rd hk (by omega)) (bind_of (rd_fn_nat hx j rfl (by omega)) rfl))
      rw [show ((k + 1 : Nat) : Int) = (k : Int) + 1 by push_cast; rfl, zero_add] at a1
      have a2 : rd xs (k : Int) = some (xs.getD k 0) := rd_fn_nat hx k rfl hk
      have hlt : k < xs.length := by rw [h1]; exact hk
      refine ⟨_, bind_of a1 (bind_of a2 (bind_of (r.rd hk hk) (wr_natCast hlt))), by simpa using h1, ?_, ?_⟩
      · intro i hi
        rw [getD_set hlt, if_neg (by omega), h2 i (by omega)]
      · intro i hi hin
        by_cases c : k = i
        · subst c
          rw [Finset.sum_eq_sum_Ico_succ_bot hk, getD_set hlt, if_pos rfl]
          have low : ∑ j ∈ Finset.Ico (k + 1) n, M k j * (xs.set k ((xs.getD k 0 -
              ∑ i ∈ Finset.Ico (k + 1) n, M k i * xs.getD i 0) / M k k)).getD j 0 =
              ∑ j ∈ Finset.Ico (k + 1) n, M k j * xs.getD j 0 := by
            apply Finset.sum_congr rfl
            intro j hj
            rw [Finset.mem_Ico] at hj
            rw [getD_set hlt, if_neg (by omega)]
          rw [low, h2 k le_rfl]
          have := hM k hk
          field_simp
          ring
        · rw [← h3 i (by omega) hin]
          apply Finset.sum_congr rfl
          intro j hj
          rw [Finset.mem_Ico] at hj
          rw [getD_set hlt, if_neg (by omega)])
  exact ⟨xs, e, h1, fun i hi => h3 i (by omega) hi⟩

/-- The vector in a slice. -/
def vecOf (n : Nat) (xs : List ℚ) : Fin n → ℚ := fun i => xs.getD i.val 0

theorem Factored.diag_ne {n : Nat} {A : _root_.Matrix (Fin n) (Fin n) ℚ} (hA : A.det ≠ 0) {luf : LUFactors}
    {F : _root_.Matrix (Fin n) (Fin n) ℚ} {p : Fin n → Fin n} (f : Factored A luf F p) (i : Fin n) :
    F i i ≠ 0 := by
  have hdet : ∏ i, F i i = ((Equiv.Perm.sign (rowOrder p n) : ℤ) : ℚ) * A.det := by
    have := congrArg _root_.Matrix.det f.mul
    rw [_root_.Matrix.det_permute, _root_.Matrix.det_mul, det_lower, det_upper, one_mul] at this
    exact this
  have hne : ∏ i, F i i ≠ 0 := by rw [hdet]; exact mul_ne_zero (sign_ne _) hA
  exact Finset.prod_ne_zero_iff.mp hne i (Finset.mem_univ _)

theorem sum_Ico_eq (g : Nat → ℚ) {i n : Nat} (h : i ≤ n) :
    ∑ j ∈ Finset.Ico i n, g j = ∑ j ∈ Finset.range n, if j < i then 0 else g j := by
  rw [Finset.range_eq_Ico, ← Finset.sum_Ico_consecutive _ (Nat.zero_le i) h]
  rw [Finset.sum_eq_zero (s := Finset.Ico 0 i), zero_add]
  · apply Finset.sum_congr rfl
    intro j hj
    rw [Finset.mem_Ico] at hj
    rw [if_neg (by omega)]
  · intro j hj
    rw [Finset.mem_Ico] at hj
    rw [if_pos hj.2]

theorem sum_range_eq (g : Nat → ℚ) {i n : Nat} (h : i < n) {v : ℚ} :
    ∑ j ∈ Finset.range i, g j + v =
      ∑ j ∈ Finset.range n, if j < i then g j else if j = i then v else 0 := by
  rw [Finset.range_eq_Ico, Finset.range_eq_Ico, ← Finset.sum_Ico_consecutive _ (Nat.zero_le i) h.le,
    Finset.sum_eq_sum_Ico_succ_bot h]
  rw [if_neg (lt_irrefl _), if_pos rfl, Finset.sum_eq_zero (s := Finset.Ico (i + 1) n), add_zero]
  · congr 1
    apply Finset.sum_congr rfl
    intro j hj
    rw [Finset.mem_Ico] at hj
    rw [if_pos hj.2]
  · intro j hj
    rw [Finset.mem_Ico] at hj
    rw [if_neg (by omega), if_neg (by omega)]

/-- What `SolveVector` does: it solves the system with the exchanged matrix, for a right hand side `c` that
agrees with `bs` at rows that are their own pivot. -/
theorem solve_eq {n : Nat} (hn : 0 < n) {A : _root_.Matrix (Fin n) (Fin n) ℚ} (hA : A.det ≠ 0)
    {luf : LUFactors} {F : _root_.Matrix (Fin n) (Fin n) ℚ} {p : Fin n → Fin n} (f : Factored A luf F p)
    (bs xs : List ℚ) (hb : bs.length = n) (hx : xs.length = n) :
    ∃ (x : List ℚ) (c : Fin n → ℚ), luf.solveVector bs xs = some x ∧ x.length = n ∧
      (A.submatrix (rowOrder p n) id).mulVec (vecOf n x) = c ∧
      (∀ q, p q = q → c q = vecOf n bs q) ∧
      ((∀ i, bs.getD i 0 = 0) → (∀ i, xs.getD i 0 = 0) → c = 0) := by
  have hr := f.holds.rep
  obtain ⟨b', e1, l1, h1, h1'⟩ := scatter_eq f.le bs xs hb hx
  obtain ⟨y, e2, l2, h2⟩ := forward_eq hr b' l1
  obtain ⟨x, e3, l3, h3⟩ := back_eq hr (by
    intro i hi
    have := f.diag_ne hA ⟨i, hi⟩
    rw [f.holds.eq_fnOf] at this
    exact this) y l2
  refine ⟨x, vecOf n b', ?_, l3, ?_, h1, ?_⟩
  · unfold LUFactors.solveVector
    rw [if_neg (by rw [f.size, hb]; simp), if_neg (by rw [f.size, hx]; simp), if_neg (by rw [f.size]; omega),
      f.size, f.pivot]
    unfold forwardSubst
    exact bind_of (bind_of e1 e2) e3
  · rw [← f.mul, ← _root_.Matrix.mulVec_mulVec]
    have hU : (upper F).mulVec (vecOf n x) = vecOf n y := by
      funext i
      show ∑ j, upper F i j * x.getD j.val 0 = y.getD i.val 0
      rw [← h3 i i.2, sum_Ico_eq _ i.2.le, Finset.sum_range]
      apply Finset.sum_congr rfl
      intro j _
      unfold upper
      simp only [_root_.Matrix.of_apply]
      by_cases c : j < i
      · rw [if_pos c, if_pos (show j.val < i.val from c), zero_mul]
      · rw [if_neg c, if_neg (show ¬ j.val < i.val from c), f.holds.eq_fnOf]
    rw [hU]
    funext i
    show ∑ j, lower F i j * y.getD j.val 0 = b'.getD i.val 0
    rw [← h2 i i.2, sum_range_eq _ i.2, Finset.sum_range]
    apply Finset.sum_congr rfl
    intro j _
    unfold lower
    simp only [_root_.Matrix.of_apply]
    by_cases c : j < i
    · rw [if_pos c, if_pos (show j.val < i.val from c), f.holds.eq_fnOf]
    · rw [if_neg c, if_neg (show ¬ j.val < i.val from c)]
      by_cases d : i = j
      · rw [if_pos d, if_pos (by rw [d]), one_mul, d]
      · rw [if_neg d, if_neg (fun h => d (Fin.ext h.symm)), zero_mul]
  · intro hb0 hx0
    funext i
    exact h1' hb0 hx0 i

/-! ### C29 -/

theorem perm_mulVec {n : Nat} {A : _root_.Matrix (Fin n) (Fin n) ℚ} (σ : Equiv.Perm (Fin n)) (x : Fin n → ℚ) :
    (A.submatrix σ id).mulVec x = fun i => A.mulVec x (σ i) := rfl

/-- C29, exactly when it holds. For a nonsingular matrix, `SolveVector` always returns; if the
factorisation exchanged no rows the result solves the system, for every right hand side and whatever the
result slice held before (in particular when it is the right hand side itself); and if it exchanged any
rows, there is a right hand side for which the result is wrong, whatever the result slice held before.
Missing: matrices that need an exchange, for which the property is false. -/
theorem C29_solveVector_partial {n : Nat} (hn : 0 < n) (A : _root_.Matrix (Fin n) (Fin n) ℚ) (hA : A.det ≠ 0)
    (m : List ℚ) (H : Holds m A) :
    ∃ luf F p, Matrix.LU ⟨m, n, n⟩ = some luf ∧ Factored A luf F p ∧
      ((∀ i, p i = i) → ∀ bs xs : List ℚ, bs.length = n → xs.length = n →
        ∃ x, luf.solveVector bs xs = some x ∧ x.length = n ∧ A.mulVec (vecOf n x) = vecOf n bs) ∧
      ((∃ i, p i ≠ i) → ∃ bs : List ℚ, bs.length = n ∧ ∀ xs : List ℚ, xs.length = n →
        ∃ x, luf.solveVector bs xs = some x ∧ A.mulVec (vecOf n x) ≠ vecOf n bs) := by
  obtain ⟨⟨luf, F, p, e, f⟩, _⟩ := C28_factors A hA m H
  refine ⟨luf, F, p, e, f, ?_, ?_⟩
  · intro hid bs xs hb hx
    obtain ⟨x, c, e, hl, h1, h2, _⟩ := solve_eq hn hA f bs xs hb hx
    refine ⟨x, e, hl, ?_⟩
    rw [rowOrder_id hid n le_rfl] at h1
    have : A.mulVec (vecOf n x) = c := h1
    rw [this]
    funext i
    exact h2 i (hid i)
  · intro hmv
    obtain ⟨q, hq, hmoved⟩ := exists_moved f.le hmv
    refine ⟨List.ofFn (fun i => if i = q then 1 else 0), by simp, ?_⟩
    intro xs hx
    obtain ⟨x, c, e, hl, h1, h2, _⟩ := solve_eq hn hA f (List.ofFn (fun i => if i = q then 1 else 0)) xs
      (by simp) hx
    refine ⟨x, e, ?_⟩
    intro heq
    rw [perm_mulVec, heq] at h1
    have e1 := congrFun h1 q
    have v : ∀ i : Fin n, vecOf n (List.ofFn (fun i : Fin n => if i = q then (1 : ℚ) else 0)) i =
        if i = q then 1 else 0 := by
      intro i
      unfold vecOf
      rw [List.getD_eq_getElem?_getD, List.getElem?_ofFn, dif_pos i.2]
      rfl
    rw [h2 q hq] at e1
    simp only [v, if_true] at e1
    rw [if_neg hmoved] at e1
    exact absurd e1 (by norm_num)

example : Matrix.solveVector ⟨[4, 1, 1, 3], 2, 2⟩ [9, 5] = some [2, 1] ∧
    (Matrix.LU ⟨[4, 1, 1, 3], 2, 2⟩).map (·.pivot) = some [0, 1] := by decide +kernel

/-- C29 fails: the system `y = 3, x = 5` is answered with `x = 0, y = 5`. -/
theorem C29_solveVector_counterexample :
    Matrix.solveVector ⟨[0, 1, 1, 0], 2, 2⟩ [3, 5] = some [0, 5] := by decide +kernel

/-- C29: no rows are exchanged for a nonsingular upper triangular matrix, so `SolveVector` solves every
upper triangular system. -/
theorem C29_triangular {n : Nat} (hn : 0 < n) (A : _root_.Matrix (Fin n) (Fin n) ℚ) (hA : A.det ≠ 0)
    (hU : ∀ i j, j < i → A i j = 0) (m : List ℚ) (H : Holds m A) (bs : List ℚ) (hb : bs.length = n) :
    ∃ x, Matrix.solveVector ⟨m, n, n⟩ bs = some x ∧ x.length = n ∧ A.mulVec (vecOf n x) = vecOf n bs := by
  obtain ⟨vv, e, hl, hpos⟩ := vv_eq hA H
  have init : LUInv A 0 ⟨m, vv, 0, List.replicate n 0, 1⟩ id (fnOf m n) := by
    refine ⟨H.rep, ?_, hl, hpos, by simp, ?_, fun i => le_rfl, ?_⟩
    · intro i j
      rw [rowOrder_zero, R_zero, ← H.eq_fnOf]; rfl
    · intro i hi; omega
    · rw [rowOrder_zero]; simp
  obtain ⟨s, e2, p, M, h, hid, _⟩ := forRange_nat (fun k s => ∃ p M, LUInv A k s p M ∧
      (∀ i : Fin n, i.val < k → p i = i) ∧ ∀ i j, i < n → j < i → M i j = 0) (lo := 0) (hi := n) (Nat.zero_le _)
    (luStep n) ⟨m, vv, 0, List.replicate n 0, 1⟩ ⟨id, _, init, by intro i hi; omega, by
      intro i j hi hj
      have := hU ⟨i, hi⟩ ⟨j, by omega⟩ hj
      rw [H.eq_fnOf] at this
      exact this⟩ (by
      rintro k s _ hk ⟨p, M, h, hid, hz⟩
      obtain ⟨s', p', M', e, h', hold, hmax, _, hM'⟩ := luStep_eq hA hk h
      have hpk : p' ⟨k, hk⟩ = ⟨k, hk⟩ := by
        by_contra c
        have hlt : k < (p' ⟨k, hk⟩).val := lt_of_le_of_ne (h'.ple ⟨k, hk⟩) (fun e => c (Fin.ext e.symm))
        have hle := hmax k le_rfl hk
        rw [hz _ k (p' ⟨k, hk⟩).2 hlt, abs_zero, mul_zero] at hle
        obtain ⟨i, h1, h2, h3⟩ := h.column hA hk
        have : i = k := by
          by_contra d
          exact h3 (hz i k h2 (by omega))
        subst this
        have := mul_pos (h.vpos i hk) (abs_pos.mpr h3)
        linarith
      refine ⟨s', e, p', M', h', ?_, ?_⟩
      · intro i hi
        by_cases c : i.val = k
        · have : i = ⟨k, hk⟩ := Fin.ext c
          rw [this]; exact hpk
        · rw [hold i (by omega)]; exact hid i (by omega)
      · intro i j hi hj
        rw [hM', hpk]
        have hsw : (fun a b => M (if a = k then k else if a = k then k else a) b) = M := by
          funext a b
          split
          · next c => rw [c]
          · rfl
        simp only
        rw [hsw]
        unfold elim
        split
        · rw [hz i k hi (by omega)]
          split
          · simp
          · split
            · rw [hz i j hi hj]; simp
            · exact hz i j hi hj
        · exact hz i j hi hj)
  rw [Nat.cast_zero] at e2
  have hLU : Matrix.LU ⟨m, n, n⟩ = some ⟨s.m, n, s.pivot, s.d⟩ := by
    unfold Matrix.LU Matrix.luFactorsAt
    rw [if_neg (by simp), if_neg (by simp [newLUFactors])]
    simp only [newLUFactors]
    rw [goCopy_full (by simp [H.1])]
    exact bind_of e (bind_of e2 rfl)
  obtain ⟨x, c, e3, hl3, h1, h2, _⟩ := solve_eq hn hA h.factored bs (List.replicate bs.length 0) hb (by simpa using hb)
  refine ⟨x, bind_of hLU e3, hl3, ?_⟩
  rw [rowOrder_id (fun i => hid i i.2) n le_rfl] at h1
  have : A.mulVec (vecOf n x) = c := h1
  rw [this]
  funext i
  exact h2 i (hid i i.2)

example : Matrix.solveVector ⟨[1, 5, 9, 0, 2, 7, 0, 0, 3], 3, 3⟩ [38, 25, 9] = some [1, 2, 3] := by decide +kernel

/-! ### C30 -/

theorem holds_col {n : Nat} {xs : List ℚ} {X : Nat → Nat → ℚ} (r : Rep xs n n X) {j : Nat} (hj : j < n)
    (col : List ℚ) (hc : col.length = n) :
    ∃ col', forRange 0 n (fun i col => do
        let v ← rd xs (i * n + j)
        wr col i v) col = some col' ∧ col'.length = n ∧ ∀ i < n, col'.getD i 0 = X i j := by
  obtain ⟨c, e, hl, h⟩ := forRange_fill (fun i => X i j) (lo := 0) (hi := n) (Nat.zero_le _) le_rfl col hc
    (fun i col => do
        let v ← rd xs (i * n + j)
        wr col i v) (by
      intro i st _ hi _ _
      exact bind_of (r.rd hi hj) rfl)
  rw [Nat.cast_zero] at e
  refine ⟨c, e, hl, ?_⟩
  intro i hi
  rw [List.getD_eq_getElem?_getD, h, if_pos ⟨Nat.zero_le _, hi⟩]
  rfl

theorem store_col {n : Nat} {xs : List ℚ} {X : Nat → Nat → ℚ} (r : Rep xs n n X) {j : Nat} (hj : j < n)
    (col : List ℚ) (hc : col.length = n) :
    ∃ xs', forRange 0 n (fun i xs => do
        let c ← rd col i
        wr xs (i * n + j) c) xs = some xs' ∧
      Rep xs' n n (fun a b => if b = j then col.getD a 0 else X a b) := by
  obtain ⟨xs', e, h⟩ := forRange_nat (fun k xs' => Rep xs' n n (fun a b =>
      if b = j ∧ a < k then col.getD a 0 else X a b)) (lo := 0) (hi := n) (Nat.zero_le _)
    (fun i xs => do
        let c ← rd col i
        wr xs (i * n + j) c) xs (r.congr (by intro a b _ _; rw [if_neg (by omega)])) (by
      intro i st _ hi rs
      have a1 : rd col (i : Int) = some (col.getD i 0) :=
        rd_fn_nat (fun i hi => rd_getD' hi) i rfl (show i < col.length by omega)
      obtain ⟨s', e, r'⟩ := rs.wr hi hj (col.getD i 0)
      refine ⟨s', bind_of a1 e, r'.congr ?_⟩
      intro a b _ _
      by_cases c : a = i ∧ b = j
      · rw [if_pos c, if_pos (by omega), c.1]
      · rw [if_neg c]
        by_cases d : b = j ∧ a < i
        · rw [if_pos d, if_pos (by omega)]
        · rw [if_neg d, if_neg (by omega)])
  rw [Nat.cast_zero] at e
  refine ⟨xs', e, h.congr ?_⟩
  intro a b ha _
  by_cases c : b = j
  · rw [if_pos c, if_pos ⟨c, ha⟩]
  · rw [if_neg c, if_neg (fun h => c h.1)]

/-- What `SolveMatrix` does to the contents `X` of its result matrix. -/
theorem solveMatrix_eq {n : Nat} (hn : 0 < n) {A : _root_.Matrix (Fin n) (Fin n) ℚ} (hA : A.det ≠ 0)
    {luf : LUFactors} {F : _root_.Matrix (Fin n) (Fin n) ℚ} {p : Fin n → Fin n} (f : Factored A luf F p)
    (b : Matrix) (hbw : b.width = n) (hbh : b.height = n) (xs : List ℚ) (X : _root_.Matrix (Fin n) (Fin n) ℚ)
    (HX : Holds xs X) :
    ∃ (ys : List ℚ) (Y : _root_.Matrix (Fin n) (Fin n) ℚ), luf.solveMatrix b ⟨xs, n, n⟩ = some ⟨ys, n, n⟩ ∧ Holds ys Y ∧
      (∀ q, p q = q → ∀ j, (A * Y : _root_.Matrix (Fin n) (Fin n) ℚ) (rowOrder p n q) j = X q j) ∧ (X = 0 → Y = 0) := by
  have rX := HX.rep
  have step : ∀ (j : Nat) (s : List ℚ × List ℚ) (Z : Nat → Nat → ℚ), j < n → s.2.length = n → Rep s.1 n n Z →
      (∀ a, a < n → Z a j = fnOf xs n a j) →
      ∃ s' : List ℚ × List ℚ, ∃ x : List ℚ, (do
        let col ← forRange 0 n (fun i col => do
          let v ← rd s.1 (i * n + j)
          wr col i v) s.2
        let col ← luf.solveVector col col
        let xs ← forRange 0 n (fun i xs => do
          let c ← rd col i
          wr xs (i * n + j) c) s.1
        some (xs, col)) = some s' ∧ s'.2.length = n ∧
        Rep s'.1 n n (fun a b => if b = j then x.getD a 0 else Z a b) ∧
        (∀ q : Fin n, p q = q → A.mulVec (vecOf n x) (rowOrder p n q) = fnOf xs n q j) ∧
        ((∀ a, a < n → fnOf xs n a j = 0) → ∀ a, a < n → x.getD a 0 = 0) := by
    intro j s Z hj hs rZ hZ
    obtain ⟨col, e1, l1, h1⟩ := holds_col rZ hj s.2 hs
    obtain ⟨x, c, e2, l2, h2, h3, h4⟩ := solve_eq hn hA f col col l1 l1
    obtain ⟨xs', e3, r3⟩ := store_col rZ hj x l2
    refine ⟨(xs', x), x, bind_of e1 (bind_of e2 (bind_of e3 rfl)), l2, r3, ?_, ?_⟩
    · intro q hq
      have : A.mulVec (vecOf n x) (rowOrder p n q) = c q := congrFun h2 q
      rw [this, h3 q hq, ← hZ q q.2]
      exact h1 q q.2
    · intro h0
      have hc0 : ∀ i, col.getD i 0 = 0 := by
        intro i
        by_cases hi : i < n
        · rw [h1 i hi, hZ i hi, h0 i hi]
        · rw [List.getD_eq_getElem?_getD, List.getElem?_eq_none (by omega)]; rfl
      rw [h4 hc0 hc0] at h2
      have hdet : (A.submatrix (rowOrder p n) id).det ≠ 0 := by
        rw [_root_.Matrix.det_permute]
        exact mul_ne_zero (sign_ne _) hA
      have := _root_.Matrix.eq_zero_of_mulVec_eq_zero hdet h2
      intro a ha
      exact congrFun this ⟨a, ha⟩
  obtain ⟨⟨ys, col⟩, e, hcl, Y, rY, hY, hrest, hY0⟩ := forRange_nat (fun k (s : List ℚ × List ℚ) => s.2.length = n ∧
      ∃ Y : Nat → Nat → ℚ, Rep s.1 n n Y ∧
        (∀ j, j < k → ∀ q : Fin n, p q = q → A.mulVec (fun a => Y a j) (rowOrder p n q) = fnOf xs n q j) ∧
        (∀ a j, k ≤ j → j < n → a < n → Y a j = fnOf xs n a j) ∧
        ((∀ a j, a < n → j < n → fnOf xs n a j = 0) → ∀ a j, j < k → a < n → Y a j = 0)) (lo := 0) (hi := n) (Nat.zero_le _)
    (fun j (s : List ℚ × List ℚ) => do
      let col ← forRange 0 n (fun i col => do
        let v ← rd s.1 (i * n + j)
        wr col i v) s.2
      let col ← luf.solveVector col col
      let xs ← forRange 0 n (fun i xs => do
        let c ← rd col i
        wr xs (i * n + j) c) s.1
      some (xs, col)) (xs, List.replicate n 0) ⟨by simp, fnOf xs n, rX, by intro j h; omega, fun _ _ _ _ _ => rfl,
        by intro _ a j h; omega⟩ (by
      rintro j s _ hj ⟨hs, Y, rY, hY, hrest, hY0⟩
      obtain ⟨s', x, e, hl, r', h1, h2⟩ := step j s Y hj hs rY (fun a ha => hrest a j le_rfl hj ha)
      refine ⟨s', e, hl, _, r', ?_, ?_, ?_⟩
      · intro j' hj' q hq
        by_cases c : j' = j
        · subst c
          simp only [if_true]
          exact h1 q hq
        · simp only [if_neg c]
          exact hY j' (by omega) q hq
      · intro a j' h3 h4 ha
        rw [if_neg (by omega)]
        exact hrest a j' (by omega) h4 ha
      · intro h0 a j' hj' ha
        by_cases c : j' = j
        · rw [if_pos c]; exact h2 (fun a ha => h0 a j ha hj) a ha
        · rw [if_neg c]; exact hY0 h0 a j' (by omega) ha)
  rw [Nat.cast_zero] at e
  refine ⟨ys, _, ?_, rY.holds, ?_, ?_⟩
  · unfold LUFactors.solveMatrix
    rw [if_neg (by rw [hbw, hbh]; simp), if_neg (by simp), if_neg (by rw [f.size, hbw]; simp),
      if_neg (by rw [f.size]; simp)]
    simp only [f.size]
    exact bind_of e rfl
  · intro q hq j
    rw [HX.eq_fnOf, ← hY j j.2 q hq, _root_.Matrix.mul_apply]
    rfl
  · intro h0
    ext a j
    show Y a j = 0
    refine hY0 ?_ a j j.2 a.2
    intro a j ha hj
    have := HX.eq_fnOf ⟨a, ha⟩ ⟨j, hj⟩
    rw [h0] at this
    exact this.symm

/-- C30 for `SolveMatrix`, as far as it holds: when the factorisation exchanged no rows, the result `Y`
solves `A Y = X` where `X` is what the *result* matrix held before the call; so if that is the right hand
side (the documented in-place use) the system is solved.
Missing: the right hand side is never read (`C30_solveMatrix_counterexample`), and exchanged rows. -/
theorem C30_solveMatrix_partial {n : Nat} (hn : 0 < n) (A : _root_.Matrix (Fin n) (Fin n) ℚ) (hA : A.det ≠ 0)
    (m : List ℚ) (H : Holds m A) :
    ∃ luf F p, Matrix.LU ⟨m, n, n⟩ = some luf ∧ Factored A luf F p ∧
      ((∀ i, p i = i) → ∀ (b : Matrix) (xs : List ℚ) (X : _root_.Matrix (Fin n) (Fin n) ℚ), b.width = n →
        b.height = n → Holds xs X →
        ∃ (ys : List ℚ) (Y : _root_.Matrix (Fin n) (Fin n) ℚ), luf.solveMatrix b ⟨xs, n, n⟩ = some ⟨ys, n, n⟩ ∧ Holds ys Y ∧ A * Y = X) := by
  obtain ⟨⟨luf, F, p, e, f⟩, _⟩ := C28_factors A hA m H
  refine ⟨luf, F, p, e, f, ?_⟩
  intro hid b xs X h1 h2 HX
  obtain ⟨ys, Y, e, hY, h, _⟩ := solveMatrix_eq hn hA f b h1 h2 xs X HX
  refine ⟨ys, Y, e, hY, ?_⟩
  ext i j
  have := h i (hid i) j
  rw [rowOrder_id hid n le_rfl] at this
  exact this

example : ((Matrix.LU ⟨[4, 1, 1, 3], 2, 2⟩).bind fun luf =>
    luf.solveMatrix ⟨[9, 5, 5, 4], 2, 2⟩ ⟨[9, 5, 5, 4], 2, 2⟩) = some ⟨[2, 1, 1, 1], 2, 2⟩ := by decide +kernel

/-- C30 fails for `Matrix.SolveMatrix`, on every nonsingular matrix and every right hand side: it returns
the zero matrix. -/
theorem C30_solveMatrix_counterexample {n : Nat} (hn : 0 < n) (A : _root_.Matrix (Fin n) (Fin n) ℚ)
    (hA : A.det ≠ 0) (m : List ℚ) (H : Holds m A) (b : Matrix) (hbw : b.width = n) (hbh : b.height = n) :
    ∃ ys, Matrix.solveMatrix ⟨m, n, n⟩ b = some ⟨ys, n, n⟩ ∧
      Holds ys (0 : _root_.Matrix (Fin n) (Fin n) ℚ) := by
  obtain ⟨⟨luf, F, p, e, f⟩, _⟩ := C28_factors A hA m H
  have HX : Holds (List.replicate m.length (0 : ℚ)) (0 : _root_.Matrix (Fin n) (Fin n) ℚ) := by
    refine ⟨by simp [H.1], ?_⟩
    intro i j
    rw [List.getElem?_replicate, if_pos (by rw [H.1]; exact idx_lt i.2 j.2)]
    rfl
  obtain ⟨ys, Y, e2, hY, _, h0⟩ := solveMatrix_eq hn hA f b hbw hbh _ 0 HX
  refine ⟨ys, ?_, by rw [← h0 rfl]; exact hY⟩
  unfold Matrix.solveMatrix
  refine bind_of (newMatrix_eq hn hn (by simp [H.1])) (bind_of e e2)

example : Matrix.solveMatrix ⟨[1, 2, 3, 4], 2, 2⟩ ⟨[1, 0, 0, 1], 2, 2⟩ = some ⟨[0, 0, 0, 0], 2, 2⟩ := by
  decide +kernel

theorem ident_eq (n : Nat) : ∃ vals, forRange 0 n (fun i vals => wr vals (i * n + i) 1)
      (List.replicate (n * n) (0 : ℚ)) = some vals ∧ Holds vals (1 : _root_.Matrix (Fin n) (Fin n) ℚ) := by
  obtain ⟨v, e, h⟩ := forRange_nat (fun k v => Rep v n n (fun a b => if a = b ∧ a < k then 1 else 0))
    (lo := 0) (hi := n) (Nat.zero_le _) (fun i vals => wr vals (i * n + i) 1) (List.replicate (n * n) (0 : ℚ)) (by
      refine ⟨by simp, ?_⟩
      intro i j hi hj
      rw [List.getElem?_replicate, if_pos (idx_lt hi hj)]
      simp) (by
      intro k v _ hk r
      obtain ⟨v', e, r'⟩ := r.wr hk hk 1
      refine ⟨v', e, r'.congr ?_⟩
      intro a b _ _
      by_cases c : a = k ∧ b = k
      · rw [if_pos c, if_pos (by omega)]
      · rw [if_neg c]
        by_cases d : a = b ∧ a < k
        · rw [if_pos d, if_pos (by omega)]
        · rw [if_neg d, if_neg (by omega)])
  rw [Nat.cast_zero] at e
  refine ⟨v, e, h.1, ?_⟩
  intro i j
  rw [h.2 i j i.2 j.2, _root_.Matrix.one_apply]
  simp only
  by_cases c : i = j
  · rw [if_pos c, if_pos ⟨by rw [c], i.2⟩]
  · rw [if_neg c, if_neg (fun h => c (Fin.ext h.1))]

/-- C30 for `Invert`, exactly when it holds: `Invert` returns on every nonsingular matrix; the result is
the inverse if and only if the factorisation exchanged no rows.
Missing: matrices that need an exchange, for which the property is false. -/
theorem C30_invert_partial {n : Nat} (hn : 0 < n) (A : _root_.Matrix (Fin n) (Fin n) ℚ) (hA : A.det ≠ 0)
    (m : List ℚ) (H : Holds m A) :
    ∃ luf F p ys Y, Matrix.LU ⟨m, n, n⟩ = some luf ∧ Factored A luf F p ∧
      Matrix.invert ⟨m, n, n⟩ = some ⟨ys, n, n⟩ ∧ Holds ys Y ∧ (A * Y = 1 ↔ ∀ i, p i = i) := by
  obtain ⟨⟨luf, F, p, e, f⟩, _⟩ := C28_factors A hA m H
  obtain ⟨v, ev, hv⟩ := ident_eq n
  obtain ⟨ys, Y, e2, hY, h, _⟩ := solveMatrix_eq hn hA f ⟨v, n, n⟩ rfl rfl v 1 hv
  refine ⟨luf, F, p, ys, Y, e, f, ?_, hY, ?_, ?_⟩
  · unfold Matrix.invert
    refine bind_of e (bind_of (newMatrix_eq hn hn (by simp [H.1])) ?_)
    unfold LUFactors.invertAt
    rw [if_neg (by simp), if_neg (by rw [f.size]; simp)]
    simp only [f.size, List.length_replicate, H.1]
    exact bind_of ev e2
  · intro heq
    by_contra c
    push Not at c
    obtain ⟨q, hq, hm⟩ := exists_moved f.le c
    have := h q hq q
    rw [heq, _root_.Matrix.one_apply, _root_.Matrix.one_apply, if_neg hm, if_pos rfl] at this
    exact absurd this (by norm_num)
  · intro hid
    ext i j
    have := h i (hid i) j
    rw [rowOrder_id hid n le_rfl] at this
    exact this

example : Matrix.invert ⟨[4, 1, 1, 3], 2, 2⟩ = some ⟨[3/11, -1/11, -1/11, 4/11], 2, 2⟩ := by decide +kernel

/-- C30 fails for `Invert` when rows are exchanged: the inverse of `[1 2; 3 4]` is `[-2 1; 3/2 -1/2]`. -/
theorem C30_invert_counterexample :
    Matrix.invert ⟨[1, 2, 3, 4], 2, 2⟩ = some ⟨[1, -2, -1/2, 3/2], 2, 2⟩ := by decide +kernel

/-! ### C90 -/

/-- C90 fails: the pivot row is not reset between columns, so a singular matrix can be given a nonzero
determinant of any size. -/
theorem C90_singular_counterexample :
    (_root_.Matrix.of ![![(1 : ℚ), 2], ![2, 4]]).det = 0 ∧
    Matrix.determinant ⟨[1, 2, 2, 4], 2, 2⟩ = some (-4) := by
  refine ⟨?_, by decide +kernel⟩
  rw [_root_.Matrix.det_fin_two]
  norm_num

end Verif.Mat
