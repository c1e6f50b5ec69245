import Verif.Mat.RoundSolve

/-! Matrices whose entries are zero where the row and the column have different parity: rounding keeps the pattern. -/

set_option autoImplicit false

namespace Verif.Mat

open Verif.Go

/-- Zero where row and column differ in parity. -/
def Checker (n : Nat) (M : Nat → Nat → ℚ) : Prop := ∀ i j, i < n → j < n → i % 2 ≠ j % 2 → M i j = 0

theorem FP.Laws.mac_null {f : FP} {u : ℚ} (hf : f.Laws u) {a b : ℚ} (h : a * b = 0) : f.mac 0 a b = 0 := by
  have := hf.mac_zero a b
  rw [h] at this
  simpa using this

theorem macs_null {f : FP} {u : ℚ} (hf : f.Laws u) {a b : Nat → ℚ} {k : Nat} (h : ∀ j < k, a j * b j = 0) : macs f a b k = 0 := by
  induction k with
  | zero => rfl
  | succ k ih =>
    rw [macs, ih (fun j hj => h j (by omega))]
    exact hf.mac_null (h k (by omega))

theorem elimR_checker {f : FP} {u : ℚ} (hf : f.Laws u) {n k : Nat} (hk : k < n) {M : Nat → Nat → ℚ} (h : Checker n M) :
    Checker n (elimR f k M) := by
  intro i j hi hj hij
  unfold elimR
  split
  · split
    · next c => subst c; rw [h i j hi hj hij, zero_div, hf.fl_zero]
    · split
      · rw [h i j hi hj hij]
        by_cases c : i % 2 = k % 2
        · rw [h k j hk hj (by omega)]
          exact hf.mac_null (by ring)
        · rw [h i k hi hk c, zero_div, hf.fl_zero]
          exact hf.mac_null (by ring)
      · exact h i j hi hj hij
  · exact h i j hi hj hij

/-- What the factorisation of such a matrix keeps. -/
structure Pattern (n : Nat) (luf : LUFactors) (M : Nat → Nat → ℚ) : Prop where
  size : luf.n = n
  rep : Rep luf.lu n n M
  checker : Checker n M
  pivot : ∀ i < n, ∃ q : Nat, luf.pivot[i]? = some (q : Int) ∧ q < n ∧ q % 2 = i % 2

theorem luR_pattern {p : ℕ} (hp : 0 < p) (fused : Bool) {n : Nat} (hn : 0 < n) (A : _root_.Matrix (Fin n) (Fin n) ℚ)
    (hA : ∀ i, ∃ j, A i j ≠ 0) (hc : ∀ i j : Fin n, i.val % 2 ≠ j.val % 2 → A i j = 0) (m : List ℚ) (H : Holds m A) :
    ∃ luf, Matrix.LUR (fp p fused) ⟨m, n, n⟩ = some luf ∧ (Lost p luf ∨ ∃ M, Pattern n luf M) := by
  have hf := fp_laws hp fused
  obtain ⟨vv, e, hl, hpos⟩ := vvR_eq hf hA H
  have init : Checker n (fnOf m n) := by
    intro i j hi hj hij
    have := H.eq_fnOf ⟨i, hi⟩ ⟨j, hj⟩
    rw [← this]
    exact hc _ _ hij
  obtain ⟨s, e2, M, hs, hI⟩ := forRange_nat (fun k s => ∃ M, Shape n s M ∧
      (NoPivot (fp p fused) n k s M ∨ (Checker n M ∧ ∀ i < k, ∃ q : Nat, s.pivot[i]? = some (q : Int) ∧ q < n ∧ q % 2 = i % 2)))
    (lo := 0) (hi := n) (Nat.zero_le _)
    (luStepR (fp p fused) n) ⟨m, vv, 0, (newLUFactors n).pivot, 1⟩
    ⟨fnOf m n, ⟨H.rep, hl, hpos, by simp [newLUFactors], 0, hn, rfl⟩, Or.inr ⟨init, by intro i h; omega⟩⟩ (by
      rintro k s _ hk ⟨M, h, hi⟩
      obtain ⟨s', q, M1, e, hqn, hs, hp, hd, hcase⟩ := luStepR_eq hf hk h
      refine ⟨s', e, _, hs, ?_⟩
      have hpk : s'.pivot[k]? = some (q : Int) := by
        rw [hp, List.getElem?_set, if_pos rfl, if_pos (by rw [h.plen]; exact hk)]
      have hpo : ∀ i, i < k → s'.pivot[i]? = s.pivot[i]? := by
        intro i hi
        rw [hp, List.getElem?_set, if_neg (by omega)]
      have hEl : ∀ a b, a ≤ k → elimR (fp p fused) k M1 a b = M1 a b := fun a b ha => by unfold elimR; rw [if_neg (by omega)]
      by_cases hqk : q < k
      · exact Or.inl (Or.inl ⟨k, q, by omega, hk, hpk, hqk⟩)
      have hM1 : ∀ a b, a < k → M1 a b = M a b := by
        intro a b ha
        rcases hcase with ⟨_, _, rfl⟩ | ⟨_, _, _, h4⟩ | h5
        · simp only
          rw [if_neg (by omega), if_neg (by omega)]
        · exact h4 a b ha
        · exact absurd h5 hqk
      rcases hi with (⟨i, q', a, b, c, d⟩ | ⟨i, a, b, c⟩) | ⟨hC, hP⟩
      · exact Or.inl (Or.inl ⟨i, q', by omega, b, by rw [hpo i a]; exact c, d⟩)
      · exact Or.inl (Or.inr ⟨i, by omega, b, by rw [hEl i i (by omega), hM1 i i a]; exact c⟩)
      rcases hcase with ⟨hkq, hne, hM⟩ | ⟨_, _, h3, _⟩ | h5
      · right
        have hqk2 : q % 2 = k % 2 := by
          by_contra c
          exact hne (hC q k hqn hk c)
        refine ⟨elimR_checker hf hk ?_, ?_⟩
        · intro i j hi hj hij
          rw [hM]
          refine hC _ j ?_ hj ?_
          · split
            · exact hqn
            · split <;> omega
          · split
            · omega
            · split <;> omega
        · intro i hi
          by_cases c : i = k
          · subst c; exact ⟨q, hpk, hqn, hqk2⟩
          · rw [hpo i (by omega)]; exact hP i (by omega)
      · exact Or.inl (Or.inr ⟨k, by omega, hk, by rw [hEl k k le_rfl]; exact h3⟩)
      · exact absurd h5 hqk)
  rw [Nat.cast_zero] at e2
  refine ⟨⟨s.m, n, s.pivot, s.d⟩, ?_, ?_⟩
  · unfold Matrix.LUR Matrix.luFactorsAtR
    rw [if_neg (by simp), if_neg (by simp [newLUFactors])]
    show factorizeR (fp p fused) n (goCopy (newLUFactors n).lu m) (newLUFactors n).pivot = _
    rw [goCopy_full (by rw [H.1]; simp [newLUFactors])]
    exact bind_of e (bind_of e2 rfl)
  · rcases hI with (⟨i, q, a, b, c, d⟩ | ⟨i, a, b, c⟩) | ⟨hC, hP⟩
    · exact Or.inl ⟨i, b, Or.inl ⟨q, c, by exact_mod_cast d⟩⟩
    · refine Or.inl ⟨i, b, Or.inr ?_⟩
      rw [hs.rep.2 i i b b, c]
      rfl
    · exact Or.inr ⟨M, rfl, hs.rep, hC, hP⟩

/-- The solution is zero at the places of the other parity if the right side is. -/
theorem solveR_pattern {f : FP} {u : ℚ} (hf : f.Laws u) {n : Nat} (hn : 0 < n) {luf : LUFactors} {M : Nat → Nat → ℚ}
    (h : Pattern n luf M) (c : ℕ) (bs xs : List ℚ) (hb : bs.length = n) (hx : xs.length = n)
    (hb0 : ∀ i, i % 2 ≠ c → bs.getD i 0 = 0) (hx0 : ∀ i, i % 2 ≠ c → xs.getD i 0 = 0) :
    ∃ x, luf.solveVectorR f bs xs = some x ∧ x.length = n ∧ ∀ i, i % 2 ≠ c → x.getD i 0 = 0 := by
  have null : ∀ i j (v : List ℚ), i < n → j < n → i % 2 ≠ c → (∀ i, i % 2 ≠ c → v.getD i 0 = 0) → M i j * v.getD j 0 = 0 := by
    intro i j v hi hj hic hv
    by_cases d : j % 2 = c
    · rw [h.checker i j hi hj (by omega), zero_mul]
    · rw [hv j d, mul_zero]
  obtain ⟨b', e1, l1, z1⟩ := forRange_nat (fun _ ys => ys.length = n ∧ ∀ i, i % 2 ≠ c → ys.getD i 0 = 0) (lo := 0) (hi := n)
    (Nat.zero_le _) (fun i ys => do
        let q ← rd luf.pivot i
        let b ← rd bs i
        wr ys q b) xs ⟨hx, hx0⟩ (by
      intro k ys _ hk ⟨h1, h2⟩
      obtain ⟨q, hq, hqn, hq2⟩ := h.pivot k hk
      have a1 : rd luf.pivot (k : Int) = some (q : Int) := by rw [rd_natCast, hq]
      have a2 : rd bs (k : Int) = some (bs.getD k 0) :=
        rd_fn_nat (fun i hi => rd_getD' hi) k rfl (show k < bs.length by omega)
      have hlt : q < ys.length := by rw [h1]; exact hqn
      refine ⟨_, bind_of a1 (bind_of a2 (wr_natCast hlt)), by simpa using h1, ?_⟩
      intro i hi
      rw [getD_set hlt]
      split
      · exact hb0 k (by omega)
      · exact h2 i hi)
  obtain ⟨y, e2, l2, z2⟩ := forRange_nat (fun _ ys => ys.length = n ∧ ∀ i, i % 2 ≠ c → ys.getD i 0 = 0) (lo := 0) (hi := n)
    (Nat.zero_le _) (fun i ys => do
      let sum ← forRange 0 i (fun j sum => do
        let l ← rd luf.lu (i * n + j)
        let y ← rd ys j
        some (f.mac sum l y)) 0
      let y ← rd ys i
      wr ys i (f.fl (y - sum))) b' ⟨l1, z1⟩ (by
      intro k ys _ hk ⟨h1, h2⟩
      have hy : ∀ i < n, ys[i]? = some (ys.getD i 0) := fun i hi => rd_getD' (by rw [h1]; exact hi)
      have a1 := macs_loop f hk h.rep h1 (Nat.zero_le n) k (Nat.zero_le _) hk.le
      simp only [Nat.cast_zero, Nat.sub_zero, Nat.zero_add] at a1
      have a2 : rd ys (k : Int) = some (ys.getD k 0) := rd_fn_nat hy k rfl hk
      have hlt : k < ys.length := by rw [h1]; exact hk
      refine ⟨_, bind_of a1 (bind_of a2 (wr_natCast hlt)), by simpa using h1, ?_⟩
      intro i hi
      rw [getD_set hlt]
      split
      · next d =>
        subst d
        rw [h2 k hi, macs_null hf (fun j hj => null k j ys hk (by omega) hi h2), sub_zero, hf.fl_zero]
      · exact h2 i hi)
  obtain ⟨x, e3, l3, z3⟩ := forDown_spec (fun (_ : Int) (xs : List ℚ) => xs.length = n ∧ ∀ i, i % 2 ≠ c → xs.getD i 0 = 0)
    (lo := 0) (hi := (n : Int) - 1) (by omega)
    (fun i xs => do
    let sum ← forRange (i + 1) n (fun j sum => do
      let l ← rd luf.lu (i * n + j)
      let x ← rd xs j
      some (f.mac sum l x)) 0
    let y ← rd xs i
    let l ← rd luf.lu (i * n + i)
    wr xs i (f.fl (f.fl (y - sum) / l))) y ⟨l2, z2⟩ (by
      intro k xs h0 hk ⟨h1, h2⟩
      obtain ⟨k, rfl⟩ := Int.eq_ofNat_of_zero_le h0
      have hk : k < n := by omega
      have hx : ∀ i < n, xs[i]? = some (xs.getD i 0) := fun i hi => rd_getD' (by rw [h1]; exact hi)
      have a1 := macs_loop f hk h.rep h1 (lo := k + 1) hk n hk le_rfl
      rw [show ((k + 1 : Nat) : Int) = (k : Int) + 1 by push_cast; rfl] at a1
      have a2 : rd xs (k : Int) = some (xs.getD k 0) := rd_fn_nat hx k rfl hk
      have hlt : k < xs.length := by rw [h1]; exact hk
      refine ⟨_, bind_of a1 (bind_of a2 (bind_of (h.rep.rd hk hk) (wr_natCast hlt))), by simpa using h1, ?_⟩
      intro i hi
      rw [getD_set hlt]
      split
      · next d =>
        subst d
        rw [h2 k hi, macs_null hf (fun j hj => null k (k + 1 + j) xs hk (by omega) hi h2), sub_zero, hf.fl_zero, zero_div, hf.fl_zero]
      · exact h2 i hi)
  rw [Nat.cast_zero] at e1 e2
  refine ⟨x, ?_, l3, z3⟩
  unfold LUFactors.solveVectorR
  rw [if_neg (by rw [h.size, hb]; simp), if_neg (by rw [h.size, hx]; simp), if_neg (by rw [h.size]; omega), h.size]
  unfold forwardSubstR
  exact bind_of (bind_of e1 e2) e3

end Verif.Mat
