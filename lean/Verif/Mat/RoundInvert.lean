import Verif.Mat.RoundSolve

/-! Inverses and systems with a matrix on the right, with rounding: property C143. -/

set_option autoImplicit false

namespace Verif.Mat

open Verif.Go

/-- What `SolveMatrix` does, column by column: `P c x` relates a column of the result matrix before and after. -/
theorem solveMatrixR_cols {f : FP} {n : Nat} {luf : LUFactors} (hs : luf.n = n) (P : (Fin n → ℚ) → (Fin n → ℚ) → Prop)
    (hP : ∀ col : List ℚ, col.length = n → ∃ x, luf.solveVectorR f col col = some x ∧ x.length = n ∧
      P (vecOf n col) (vecOf n x))
    (b : Matrix) (hbw : b.width = n) (hbh : b.height = n) (xs : List ℚ) (X : _root_.Matrix (Fin n) (Fin n) ℚ)
    (HX : Holds xs X) :
    ∃ (ys : List ℚ) (Y : _root_.Matrix (Fin n) (Fin n) ℚ), luf.solveMatrixR f b ⟨xs, n, n⟩ = some ⟨ys, n, n⟩ ∧ Holds ys Y ∧
      ∀ j, P (fun i => X i j) (fun i => Y i j) := by
  have rX := HX.rep
  obtain ⟨⟨ys, col⟩, e, hcl, Y, rY, hY, hrest⟩ := forRange_nat (fun k (s : List ℚ × List ℚ) => s.2.length = n ∧
      ∃ Y : Nat → Nat → ℚ, Rep s.1 n n Y ∧
        (∀ j, j < k → P (fun a => fnOf xs n a j) (fun a => Y a j)) ∧
        (∀ a j, k ≤ j → j < n → a < n → Y a j = fnOf xs n a j)) (lo := 0) (hi := n) (Nat.zero_le _)
    (fun j (s : List ℚ × List ℚ) => do
      let col ← forRange 0 n (fun i col => do
        let v ← rd s.1 (i * n + j)
        wr col i v) s.2
      let col ← luf.solveVectorR f col col
      let xs ← forRange 0 n (fun i xs => do
        let c ← rd col i
        wr xs (i * n + j) c) s.1
      some (xs, col)) (xs, List.replicate n 0) ⟨by simp, fnOf xs n, rX, by intro j h; omega, fun _ _ _ _ _ => rfl⟩ (by
      rintro j s _ hj ⟨hs, Y, rY, hY, hrest⟩
      obtain ⟨col, e1, l1, h1⟩ := holds_col rY hj s.2 hs
      obtain ⟨x, e2, l2, h2⟩ := hP col l1
      obtain ⟨xs', e3, r3⟩ := store_col rY hj x l2
      refine ⟨(xs', x), bind_of e1 (bind_of e2 (bind_of e3 rfl)), l2, _, r3, ?_, ?_⟩
      · intro j' hj'
        by_cases c : j' = j
        · subst c
          simp only [if_true]
          have : vecOf n col = fun a : Fin n => fnOf xs n a j' := by
            funext a
            rw [← hrest a j' le_rfl hj a.2]
            exact h1 a a.2
          rw [← this]
          exact h2
        · simp only [if_neg c]
          exact hY j' (by omega)
      · intro a j' h3 h4 ha
        rw [if_neg (by omega)]
        exact hrest a j' (by omega) h4 ha)
  rw [Nat.cast_zero] at e
  refine ⟨ys, _, ?_, rY.holds, ?_⟩
  · unfold LUFactors.solveMatrixR
    rw [if_neg (by rw [hbw, hbh]; simp), if_neg (by simp), if_neg (by rw [hs, hbw]; simp), if_neg (by rw [hs]; simp)]
    simp only [hs]
    exact bind_of e rfl
  · intro j
    have := hY j j.2
    have e2 : (fun i => X i j) = fun a : Fin n => fnOf xs n a j := funext fun i => HX.eq_fnOf i j
    rw [e2]
    exact this

/-! ### A right hand side of zeros -/

theorem FP.Laws.mac_zero_right {f : FP} {u : ℚ} (h : f.Laws u) (a : ℚ) : f.mac 0 a 0 = 0 := by
  have := h.mac_zero a 0
  rw [mul_zero, abs_zero, mul_zero, sub_zero] at this
  exact abs_eq_zero.mp (le_antisymm this (abs_nonneg _))

theorem rd_zeros {n i : Nat} (h : i < n) : rd (List.replicate n (0 : ℚ)) (i : Int) = some 0 := by
  rw [rd_natCast, List.getElem?_replicate, if_pos h]

theorem wr_zeros {n i : Nat} (h : i < n) : wr (List.replicate n (0 : ℚ)) (i : Int) 0 = some (List.replicate n 0) := by
  rw [wr_natCast (by simpa using h)]
  congr 1
  exact List.set_replicate_self

/-- With a right hand side of zeros the result is zero. -/
theorem solveR_zero {f : FP} {u : ℚ} (hf : f.Laws u) {n : Nat} (hn : 0 < n) {A : _root_.Matrix (Fin n) (Fin n) ℚ}
    {luf : LUFactors} {F : _root_.Matrix (Fin n) (Fin n) ℚ} {p : Fin n → Fin n} (h : FactoredR u A luf F p) :
    luf.solveVectorR f (List.replicate n 0) (List.replicate n 0) = some (List.replicate n 0) := by
  have hr := h.holds.rep
  have sums : ∀ (lo hi i : Nat), lo ≤ hi → hi ≤ n → i < n → forRange lo hi (fun j sum => do
      let l ← rd luf.lu (i * n + j)
      let y ← rd (List.replicate n (0 : ℚ)) j
      some (f.mac sum l y)) (0 : ℚ) = some 0 := by
    intro lo hi i h1 h2 hi'
    obtain ⟨s, e, rfl⟩ := forRange_nat (fun _ (s : ℚ) => s = 0) (lo := lo) (hi := hi) h1 (fun j sum => do
      let l ← rd luf.lu (i * n + j)
      let y ← rd (List.replicate n (0 : ℚ)) j
      some (f.mac sum l y)) 0 rfl (by
      rintro j s - hj rfl
      exact ⟨0, bind_of (hr.rd hi' (by omega)) (bind_of (rd_zeros (by omega)) (by rw [hf.mac_zero_right])), rfl⟩)
    exact e
  obtain ⟨ys, e1, rfl⟩ := forRange_nat (fun _ (ys : List ℚ) => ys = List.replicate n 0) (lo := 0) (hi := n) (Nat.zero_le _)
    (fun i ys => do
        let q ← rd (List.ofFn fun i => ((p i).val : Int)) i
        let b ← rd (List.replicate n (0 : ℚ)) i
        wr ys q b) (List.replicate n 0) rfl (by
      rintro i s - hi rfl
      have a1 : rd (List.ofFn fun i => ((p i).val : Int)) (i : Int) = some (((p ⟨i, hi⟩).val : Nat) : Int) := by
        rw [rd_natCast, List.getElem?_ofFn, dif_pos hi]
      exact ⟨_, bind_of a1 (bind_of (rd_zeros hi) (wr_zeros (p ⟨i, hi⟩).2)), rfl⟩)
  obtain ⟨ys, e2, rfl⟩ := forRange_nat (fun _ (ys : List ℚ) => ys = List.replicate n 0) (lo := 0) (hi := n) (Nat.zero_le _)
    (fun i ys => do
      let sum ← forRange 0 i (fun j sum => do
        let l ← rd luf.lu (i * n + j)
        let y ← rd ys j
        some (f.mac sum l y)) 0
      let y ← rd ys i
      wr ys i (f.fl (y - sum))) (List.replicate n 0) rfl (by
      rintro i s - hi rfl
      refine ⟨_, bind_of (sums 0 i i (Nat.zero_le _) hi.le hi) (bind_of (rd_zeros hi) ?_), rfl⟩
      rw [sub_zero, hf.fl_zero]
      exact wr_zeros hi)
  obtain ⟨ys, e3, rfl⟩ := forDown_spec (fun _ (ys : List ℚ) => ys = List.replicate n 0) (lo := 0) (hi := (n : Int) - 1) (by omega)
    (fun i xs => do
      let sum ← forRange (i + 1) n (fun j sum => do
        let l ← rd luf.lu (i * n + j)
        let x ← rd xs j
        some (f.mac sum l x)) 0
      let y ← rd xs i
      let l ← rd luf.lu (i * n + i)
      wr xs i (f.fl (f.fl (y - sum) / l))) (List.replicate n 0) rfl (by
      rintro k s h0 hk rfl
      obtain ⟨k, rfl⟩ := Int.eq_ofNat_of_zero_le h0
      have hk : k < n := by omega
      refine ⟨_, bind_of (sums (k + 1) n k hk le_rfl hk) (bind_of (rd_zeros hk) (bind_of (hr.rd hk hk) ?_)), rfl⟩
      rw [sub_zero, hf.fl_zero, zero_div, hf.fl_zero]
      exact wr_zeros hk)
  unfold LUFactors.solveVectorR
  rw [if_neg (by rw [h.size]; simp), if_neg (by rw [h.size]; simp), if_neg (by rw [h.size]; omega), h.size, h.pivot]
  unfold forwardSubstR backSubstR
  rw [Nat.cast_zero] at e1 e2
  exact bind_of (bind_of e1 e2) e3

/-! ### C143 -/

/-- The bound on the residual of a column, with factors `F` of `A`. -/
theorem solveR_residual {p : ℕ} (hp : 0 < p) (fused : Bool) {n : Nat} (hn : 0 < n) {A : _root_.Matrix (Fin n) (Fin n) ℚ}
    (hA : ∀ i, ∃ j, A i j ≠ 0) {m : List ℚ} (H : Holds m A) :
    ∃ luf, Matrix.LUR (fp p fused) ⟨m, n, n⟩ = some luf ∧ (Lost p luf ∨ ∃ F q, FactoredR (1 / 2 ^ p) A luf F q ∧
      ∀ (b : Matrix) (xs : List ℚ) (X : _root_.Matrix (Fin n) (Fin n) ℚ), b.width = n → b.height = n → Holds xs X →
        ∃ (ys : List ℚ) (Y : _root_.Matrix (Fin n) (Fin n) ℚ),
          luf.solveMatrixR (fp p fused) b ⟨xs, n, n⟩ = some ⟨ys, n, n⟩ ∧ Holds ys Y ∧
          ((∀ i, q i = i) → ∀ i j, |(X - A * Y) i j| ≤
            ((1 + 1 / 2 ^ p) ^ (3 * n) - 1) * (absM (lower F) * absM (upper F) * absM Y) i j)) := by
  obtain ⟨luf, e, h⟩ := C139_solve_partial hp fused hn A hA m H
  refine ⟨luf, e, ?_⟩
  rcases h with h | ⟨F, q, hF, h⟩
  · exact Or.inl h
  refine Or.inr ⟨F, q, hF, ?_⟩
  intro b xs X hw hh HX
  obtain ⟨ys, Y, e, HY, hY⟩ := solveMatrixR_cols (f := fp p fused) hF.size (fun c x => (∀ i, q i = i) → ∀ i,
    |c i - A.mulVec x i| ≤ ((1 + 1 / 2 ^ p) ^ (3 * n) - 1) * ((absM (lower F) * absM (upper F)).mulVec (absV x)) i)
    (fun col hc => h col col hc hc) b hw hh xs X HX
  refine ⟨ys, Y, e, HY, ?_⟩
  intro hid i j
  exact hY j hid i

/-- C143 for `LUFactors.SolveMatrix` in arithmetic with `p` bits, as far as it holds. For every matrix without a zero row, unless
the factors show that a column had no pivot, it returns, and if the factorisation exchanged no rows the result `Y` satisfies
`|X - A Y| ≤ ((1 + 2^-p)^(3n) - 1) |L| |U| |Y|` in every entry, where `X` is what the result matrix held before.
Missing: the right hand side `b` is not read (so it must be in the result matrix already), and exchanged rows. -/
theorem C143_solveMatrix_partial {p : ℕ} (hp : 0 < p) (fused : Bool) {n : Nat} (hn : 0 < n)
    (A : _root_.Matrix (Fin n) (Fin n) ℚ) (hA : ∀ i, ∃ j, A i j ≠ 0) (m : List ℚ) (H : Holds m A) :
    ∃ luf, Matrix.LUR (fp p fused) ⟨m, n, n⟩ = some luf ∧ (Lost p luf ∨ ∃ F q, FactoredR (1 / 2 ^ p) A luf F q ∧
      ∀ (b : Matrix) (xs : List ℚ) (X : _root_.Matrix (Fin n) (Fin n) ℚ), b.width = n → b.height = n → Holds xs X →
        ∃ (ys : List ℚ) (Y : _root_.Matrix (Fin n) (Fin n) ℚ),
          luf.solveMatrixR (fp p fused) b ⟨xs, n, n⟩ = some ⟨ys, n, n⟩ ∧ Holds ys Y ∧
          ((∀ i, q i = i) → ∀ i j, |(X - A * Y) i j| ≤
            ((1 + 1 / 2 ^ p) ^ (3 * n) - 1) * (absM (lower F) * absM (upper F) * absM Y) i j)) :=
  solveR_residual hp fused hn hA H

/-- C143 for `Invert` in arithmetic with `p` bits, as far as it holds. For every matrix without a zero row, unless the factors show
that a column had no pivot, it returns, and if the factorisation exchanged no rows the result `Y` satisfies
`|1 - A Y| ≤ ((1 + 2^-p)^(3n) - 1) |L| |U| |Y|` in every entry. Missing: matrices that need an exchange. -/
theorem C143_invert_partial {p : ℕ} (hp : 0 < p) (fused : Bool) {n : Nat} (hn : 0 < n)
    (A : _root_.Matrix (Fin n) (Fin n) ℚ) (hA : ∀ i, ∃ j, A i j ≠ 0) (m : List ℚ) (H : Holds m A) :
    ∃ luf, Matrix.LUR (fp p fused) ⟨m, n, n⟩ = some luf ∧ (Lost p luf ∨ ∃ F q, FactoredR (1 / 2 ^ p) A luf F q ∧
      ∃ (ys : List ℚ) (Y : _root_.Matrix (Fin n) (Fin n) ℚ),
        Matrix.invertR (fp p fused) ⟨m, n, n⟩ = some ⟨ys, n, n⟩ ∧ Holds ys Y ∧
        ((∀ i, q i = i) → ∀ i j, |(1 - A * Y) i j| ≤
          ((1 + 1 / 2 ^ p) ^ (3 * n) - 1) * (absM (lower F) * absM (upper F) * absM Y) i j)) := by
  obtain ⟨luf, e, h⟩ := solveR_residual hp fused hn hA H
  refine ⟨luf, e, ?_⟩
  rcases h with h | ⟨F, q, hF, h⟩
  · exact Or.inl h
  refine Or.inr ⟨F, q, hF, ?_⟩
  obtain ⟨v, ev, hv⟩ := ident_eq n
  obtain ⟨ys, Y, e2, HY, hY⟩ := h ⟨v, n, n⟩ v 1 rfl rfl hv
  refine ⟨ys, Y, ?_, HY, hY⟩
  unfold Matrix.invertR
  refine bind_of e (bind_of (newMatrix_eq hn hn (by simp [H.1])) ?_)
  unfold LUFactors.invertAtR
  rw [if_neg (by simp), if_neg (by rw [hF.size]; simp)]
  simp only [hF.size, List.length_replicate, H.1]
  exact bind_of ev e2

/-- `[3 1; 1 3]` in single precision: no rows are exchanged; the exact inverse is `[3/8 -1/8; -1/8 3/8]`. -/
example : ((Matrix.LUR (fp 24 false) ⟨[3, 1, 1, 3], 2, 2⟩).map fun l => l.pivot) = some [0, 1] ∧
    Matrix.invertR (fp 24 false) ⟨[3, 1, 1, 3], 2, 2⟩ = some ⟨[3 / 8, -1 / 8, -1 / 8, 3 / 8], 2, 2⟩ := by decide +kernel

/-- C143 fails for `Matrix.SolveMatrix`, on every matrix without a zero row whose factors show no missing pivot and every right
hand side: it returns the zero matrix, in every precision. -/
theorem C143_solveMatrix_counterexample {p : ℕ} (hp : 0 < p) (fused : Bool) {n : Nat} (hn : 0 < n)
    (A : _root_.Matrix (Fin n) (Fin n) ℚ) (hA : ∀ i, ∃ j, A i j ≠ 0) (m : List ℚ) (H : Holds m A) :
    ∃ luf, Matrix.LUR (fp p fused) ⟨m, n, n⟩ = some luf ∧ (Lost p luf ∨ ∀ b : Matrix, b.width = n → b.height = n →
      ∃ ys, Matrix.solveMatrixR (fp p fused) ⟨m, n, n⟩ b = some ⟨ys, n, n⟩ ∧
        Holds ys (0 : _root_.Matrix (Fin n) (Fin n) ℚ)) := by
  obtain ⟨⟨luf, e, -, -, hl⟩, -⟩ := C138_factors hp fused A hA m H
  refine ⟨luf, e, ?_⟩
  rcases hl with hl | ⟨F, q, h⟩
  · exact Or.inl hl
  right
  intro b hw hh
  have HX : Holds (List.replicate m.length (0 : ℚ)) (0 : _root_.Matrix (Fin n) (Fin n) ℚ) := by
    refine ⟨by simp [H.1], ?_⟩
    intro i j
    rw [List.getElem?_replicate, if_pos (by rw [H.1]; exact idx_lt i.2 j.2)]
    rfl
  obtain ⟨ys, Y, e2, HY, hY⟩ := solveMatrixR_cols (f := fp p fused) h.size (fun c x => (∀ i, c i = 0) → ∀ i, x i = 0)
    (fun col hc => by
      obtain ⟨x, c, e, hl, -, -⟩ := solveR_eq (fp_laws hp fused) hn h col col hc hc
      refine ⟨x, e, hl, ?_⟩
      intro h0
      have hz : col = List.replicate n 0 := by
        refine List.ext_getElem? fun i => ?_
        by_cases hi : i < n
        · have := h0 ⟨i, hi⟩
          rw [List.getElem?_replicate, if_pos hi, rd_getD' (by omega)]
          congr 1
        · rw [List.getElem?_eq_none (by omega), List.getElem?_eq_none (by simp; omega)]
      rw [hz, solveR_zero (fp_laws hp fused) hn h] at e
      cases e
      intro i
      show (List.replicate n (0 : ℚ)).getD i 0 = 0
      simp [List.getD_eq_getElem?_getD, List.getElem?_replicate]) b hw hh _ 0 HX
  have hY0 : Y = 0 := by
    ext i j
    exact hY j (fun _ => rfl) i
  refine ⟨ys, ?_, by rw [← hY0]; exact HY⟩
  unfold Matrix.solveMatrixR
  exact bind_of (newMatrix_eq hn hn (by simp [H.1])) (bind_of e e2)

example : ∀ p ∈ [24, 53], Matrix.solveMatrixR (fp p false) ⟨[3, 1, 1, 3], 2, 2⟩ ⟨[1, 0, 0, 1], 2, 2⟩ =
    some ⟨[0, 0, 0, 0], 2, 2⟩ := by decide +kernel

/-- C143 fails for `Invert` when rows are exchanged: the inverse of `[0 1; 1 0]` is itself, in every precision. -/
theorem C143_invert_counterexample : ∀ fused, ∀ p ∈ [24, 53],
    Matrix.invertR (fp p fused) ⟨[0, 1, 1, 0], 2, 2⟩ ≠ some ⟨[0, 1, 1, 0], 2, 2⟩ := by decide +kernel

end Verif.Mat
