import Verif.Mat.Solve

/-!
Solving for a unit vector whose row takes no part in the exchanges, and the pivots of a matrix of moments. Used for the
Savitzky-Golay kernels (`Verif.Interp.SavGol`).
-/

set_option autoImplicit false

namespace Verif.Mat

open Verif.Go

/-- The scale of a row is the inverse of its largest entry. -/
theorem rowScale_max {n : Nat} {m : List ℚ} {M : Nat → Nat → ℚ} (r : Rep m n n M) {i : Nat} (hi : i < n) {v : ℚ}
    (e : rowScale n m i = some v) : (∃ j < n, v * |M i j| = 1) ∧ ∀ j < n, v * |M i j| ≤ 1 := by
  unfold rowScale at e
  obtain ⟨big, e1, h0, hle, hex⟩ := forRange_nat (fun j big => 0 ≤ big ∧ (∀ j', j' < j → |M i j'| ≤ big) ∧
      (big ≠ 0 → ∃ j', j' < j ∧ |M i j'| = big)) (lo := 0) (hi := n) (Nat.zero_le _)
    (fun j big => do
    let x ← rd m ((i : Int) * n + j)
    some (if |x| > big then |x| else big)) 0 ⟨le_rfl, by intro j h; omega, by simp⟩ (by
      intro j big _ hj ⟨h1, h2, h3⟩
      have a := r.rd hi hj
      refine ⟨_, bind_of a rfl, ?_⟩
      split
      · next c =>
        refine ⟨abs_nonneg _, ?_, fun _ => ⟨j, by omega, rfl⟩⟩
        intro j' hj'
        rcases Nat.lt_or_ge j' j with d | d
        · exact (h2 j' d).trans c.le
        · obtain rfl : j' = j := by omega
          exact le_rfl
      · next c =>
        refine ⟨h1, ?_, ?_⟩
        · intro j' hj'
          rcases Nat.lt_or_ge j' j with d | d
          · exact h2 j' d
          · obtain rfl : j' = j := by omega
            exact not_lt.mp c
        · intro hne
          obtain ⟨j', hj', h⟩ := h3 hne
          exact ⟨j', by omega, h⟩)
  rw [Nat.cast_zero] at e1
  simp only [bind] at e e1
  rw [e1, Option.bind_some] at e
  by_cases hb : big = 0
  · rw [if_pos hb] at e; exact absurd e (by simp)
  rw [if_neg hb, Option.some.injEq] at e
  subst e
  have hpos : 0 < big := lt_of_le_of_ne h0 (Ne.symm hb)
  refine ⟨?_, ?_⟩
  · obtain ⟨j, hj, h⟩ := hex hb
    exact ⟨j, hj, by rw [h]; field_simp⟩
  · intro j hj
    rw [one_div, inv_mul_le_iff₀ hpos, mul_one]
    exact hle j hj

/-- A column without exchange leaves the scales alone. -/
theorem luStep_vv {n k q : Nat} {s s' : FState} (e : luStep n k s = some s')
    (hq : s'.pivot[k]? = some (q : Int)) (hqk : q = k) : s'.vv = s.vv := by
  unfold luStep at e
  simp only [bind, Option.bind_eq_some_iff] at e
  obtain ⟨r, _, s1, e1, piv, e2, m1, _, m2, _, e3⟩ := e
  rw [Option.some.injEq] at e3
  subst e3
  simp only at hq ⊢
  obtain ⟨_, hlt, rfl⟩ := wr_some e2
  rw [Int.toNat_natCast, List.getElem?_set, if_pos rfl, if_pos (by omega), Option.some.injEq] at hq
  unfold exchange at e1
  rw [if_neg (by rw [hq, hqk]; simp), Option.some.injEq] at e1
  rw [e1]

/-- A permutation of rows that never touches a row leaves it in its place. -/
theorem rowOrder_fix {n : Nat} {p : Fin n → Fin n} {q : Fin n} (h : ∀ k, p k = q → k = q) (hq : p q = q) :
    ∀ k, k ≤ n → rowOrder p k q = q := by
  intro k
  induction k with
  | zero => intro _; rfl
  | succ k ih =>
    intro hk
    rw [rowOrder_succ p hk, Equiv.Perm.mul_apply]
    by_cases c : q = ⟨k, hk⟩
    · rw [← c, hq, Equiv.swap_self, Equiv.refl_apply]; exact ih (by omega)
    · rw [Equiv.swap_apply_of_ne_of_ne c (fun e => c ((h _ e.symm).symm))]
      exact ih (by omega)

/-- `SolveVector` on a unit vector, with the result in the same slice: right if the row takes no part in the exchanges. -/
theorem solve_unit {n : Nat} (hn : 0 < n) {A : _root_.Matrix (Fin n) (Fin n) ℚ} (hA : A.det ≠ 0)
    {luf : LUFactors} {F : _root_.Matrix (Fin n) (Fin n) ℚ} {p : Fin n → Fin n} (f : Factored A luf F p)
    {q : Fin n} (h : ∀ k, p k = q → k = q) (hq : p q = q) :
    ∃ x, luf.solveVector (List.ofFn fun i => if i = q then (1 : ℚ) else 0)
        (List.ofFn fun i => if i = q then (1 : ℚ) else 0) = some x ∧ x.length = n ∧
      A.mulVec (vecOf n x) = fun i => if i = q then 1 else 0 := by
  have scatter : forRange 0 n (fun i ys => do
      let r ← rd (List.ofFn fun i => ((p i).val : Int)) i
      let b ← rd (List.ofFn fun i => if i = q then (1 : ℚ) else 0) i
      wr ys r b) (List.ofFn fun i => if i = q then (1 : ℚ) else 0) =
        some (List.ofFn fun i => if i = q then (1 : ℚ) else 0) := by
    obtain ⟨ys, e, rfl⟩ := forRange_nat (fun _ ys => ys = List.ofFn fun i : Fin n => if i = q then (1 : ℚ) else 0)
      (lo := 0) (hi := n) (Nat.zero_le _) (fun i ys => do
      let r ← rd (List.ofFn fun i => ((p i).val : Int)) i
      let b ← rd (List.ofFn fun i => if i = q then (1 : ℚ) else 0) i
      wr ys r b) _ rfl (by
        rintro k ys _ hk rfl
        have a1 : rd (List.ofFn fun i => ((p i).val : Int)) (k : Int) = some ((p ⟨k, hk⟩).val : Int) := by
          rw [rd_natCast, List.getElem?_ofFn, dif_pos hk]
        have a2 : rd (List.ofFn fun i => if i = q then (1 : ℚ) else 0) (k : Int) =
            some (if (⟨k, hk⟩ : Fin n) = q then 1 else 0) := by
          rw [rd_natCast, List.getElem?_ofFn, dif_pos hk]
        refine ⟨_, bind_of a1 (bind_of a2 (wr_natCast (by simp))), ?_⟩
        apply List.ext_getElem?
        intro i
        rw [List.getElem?_set]
        by_cases c : (p ⟨k, hk⟩).val = i
        · subst c
          rw [if_pos rfl, if_pos (by simp), List.getElem?_ofFn, dif_pos (p ⟨k, hk⟩).2]
          by_cases d : (⟨k, hk⟩ : Fin n) = q
          · rw [if_pos d, if_pos (by rw [d]; exact hq)]
          · rw [if_neg d, if_neg (fun e => d (h _ e))]
        · rw [if_neg c])
    rw [Nat.cast_zero] at e
    exact e
  have hr := f.holds.rep
  obtain ⟨y, e2, l2, h2⟩ := forward_eq hr (List.ofFn fun i => if i = q then (1 : ℚ) else 0) (by simp)
  obtain ⟨x, e3, l3, h3⟩ := back_eq hr (by
    intro i hi
    have := f.diag_ne hA ⟨i, hi⟩
    rw [f.holds.eq_fnOf] at this
    exact this) y l2
  refine ⟨x, ?_, l3, ?_⟩
  · unfold LUFactors.solveVector
    rw [if_neg (by rw [f.size]; simp), if_neg (by rw [f.size]; simp), if_neg (by rw [f.size]; omega),
      f.size, f.pivot]
    unfold forwardSubst
    exact bind_of (bind_of scatter e2) e3
  · have main : (A.submatrix (rowOrder p n) id).mulVec (vecOf n x) = fun i => if i = q then 1 else 0 := by
      rw [← f.mul, ← _root_.Matrix.mulVec_mulVec]
      have hU : (upper F).mulVec (vecOf n x) = vecOf n y := by
        funext i
        show ∑ j, upper F i j * x.getD j.val 0 = y.getD i.val 0
        rw [← h3 i i.2, sum_Ico_eq _ i.2.le, Finset.sum_range]
        apply Finset.sum_congr rfl
        intro j _
        unfold upper
        simp only [_root_.Matrix.of_apply]
        by_cases c : j < i
        · rw [if_pos c, if_pos (show j.val < i.val from c), zero_mul]
        · rw [if_neg c, if_neg (show ¬ j.val < i.val from c), f.holds.eq_fnOf]
      rw [hU]
      funext i
      have : (List.ofFn fun i => if i = q then (1 : ℚ) else 0).getD i.val 0 = if i = q then 1 else 0 := by
        rw [List.getD_eq_getElem?_getD, List.getElem?_ofFn, dif_pos i.2]; rfl
      rw [← this]
      show ∑ j, lower F i j * y.getD j.val 0 = _
      rw [← h2 i i.2, sum_range_eq _ i.2, Finset.sum_range]
      apply Finset.sum_congr rfl
      intro j _
      unfold lower
      simp only [_root_.Matrix.of_apply]
      by_cases c : j < i
      · rw [if_pos c, if_pos (show j.val < i.val from c), f.holds.eq_fnOf]
      · rw [if_neg c, if_neg (show ¬ j.val < i.val from c)]
        by_cases d : i = j
        · rw [if_pos d, if_pos (by rw [d]), one_mul, d]
        · rw [if_neg d, if_neg (fun h => d (Fin.ext h.symm)), zero_mul]
    have hfix := rowOrder_fix h hq n le_rfl
    funext i
    have := congrFun main ((rowOrder p n).symm i)
    rw [perm_mulVec] at this
    simp only [Equiv.apply_symm_apply] at this
    rw [this]
    by_cases c : i = q
    · rw [if_pos c, if_pos (by rw [c, Equiv.symm_apply_eq]; exact hfix.symm)]
    · rw [if_neg c, if_neg]
      intro e
      apply c
      rw [Equiv.symm_apply_eq] at e
      rw [e]; exact hfix

/-- The pivots of a matrix of moments whose odd moments vanish: the first two rows are never exchanged, and up to four rows
none are. -/
theorem moment_pivots {n : Nat} (S : Nat → ℚ) (hodd : ∀ e, e % 2 = 1 → S e = 0) (hpos : ∀ e, e % 2 = 0 → 0 < S e)
    (c0 : ∀ i j, i % 2 = 0 → j % 2 = 0 → S i * S j ≤ S 0 * S (i + j))
    (c1 : ∀ i j, i % 2 = 1 → j % 2 = 1 → S (i + 1) * S (j + 1) ≤ S 2 * S (i + j))
    (hA : (_root_.Matrix.of fun i j : Fin n => S (i.val + j.val)).det ≠ 0) (m : List ℚ)
    (H : Holds m (_root_.Matrix.of fun i j : Fin n => S (i.val + j.val))) :
    ∃ luf F p, Matrix.LU ⟨m, n, n⟩ = some luf ∧
      Factored (_root_.Matrix.of fun i j : Fin n => S (i.val + j.val)) luf F p ∧
      (∀ i : Fin n, i.val < 2 → p i = i) ∧ (n ≤ 4 → ∀ i, p i = i) := by
  have hrow : ∀ i, ∃ v, i < n → rowScale n m i = some v ∧ 0 < v := by
    intro i
    by_cases hi : i < n
    · obtain ⟨j, hj⟩ := row_ne hA ⟨i, hi⟩
      rw [H.eq_fnOf] at hj
      obtain ⟨v, e, h⟩ := (rowScale_eq H.rep hi).1 ⟨j, j.2, hj⟩
      exact ⟨v, fun _ => ⟨e, h⟩⟩
    · exact ⟨0, fun h => absurd h hi⟩
  choose V hV using hrow
  obtain ⟨vv, ev, hvl, hvv⟩ := forRange_fill V (lo := 0) (hi := n) (Nat.zero_le _) le_rfl (List.replicate n 0) (by simp)
    (fun i vv => do
      let s ← rowScale n m i
      wr vv i s) (by
      intro i st _ hi _ _
      exact bind_of (hV i hi).1 rfl)
  rw [Nat.cast_zero] at ev
  have hvg : ∀ i < n, vv.getD i 0 = V i := by
    intro i hi
    rw [List.getD_eq_getElem?_getD, hvv, if_pos ⟨Nat.zero_le _, hi⟩]
    rfl
  have hfn : ∀ i j, i < n → j < n → fnOf m n i j = S (i + j) := by
    intro i j hi hj
    have := H.eq_fnOf ⟨i, hi⟩ ⟨j, hj⟩
    exact this.symm
  have hnn : ∀ e, 0 ≤ S e := by
    intro e
    rcases Nat.mod_two_eq_zero_or_one e with h | h
    · exact (hpos e h).le
    · rw [hodd e h]
  -- a row, its largest entry, and any other row
  have cmp : ∀ a, a < n → a < 2 → ∀ i, i < n → i % 2 = a % 2 → V i * |S (i + a)| ≤ V a * |S (a + a)| := by
    intro a ha ha2 i hi hpar
    obtain ⟨⟨j, hj, h1⟩, _⟩ := rowScale_max H.rep ha (hV a ha).1
    obtain ⟨_, h2⟩ := rowScale_max H.rep hi (hV i hi).1
    have h2 := h2 j hj
    rw [hfn a j ha hj, abs_of_nonneg (hnn _)] at h1
    rw [hfn i j hi hj, abs_of_nonneg (hnn _)] at h2
    rw [abs_of_nonneg (hnn _), abs_of_nonneg (hnn _)]
    have hja : (a + j) % 2 = 0 := by
      rcases Nat.mod_two_eq_zero_or_one (a + j) with h | h
      · exact h
      · rw [hodd _ h, mul_zero] at h1; exact absurd h1 (by norm_num)
    have pj := hpos (a + j) hja
    have pij := hpos (i + j) (by omega)
    have key : S (i + a) * S (a + j) ≤ S (a + a) * S (i + j) := by
      rcases (by omega : a = 0 ∨ a = 1) with rfl | rfl
      · have := c0 i j (by omega) (by omega)
        simpa using this
      · have := c1 i j (by omega) (by omega)
        rw [add_comm 1 j]
        exact this
    have va : V a = 1 / S (a + j) := by rw [eq_div_iff pj.ne']; exact h1
    have vi : V i ≤ 1 / S (i + j) := by rw [le_div_iff₀ pij]; exact h2
    calc V i * S (i + a) ≤ 1 / S (i + j) * S (i + a) := mul_le_mul_of_nonneg_right vi (hnn _)
      _ ≤ 1 / S (a + j) * S (a + a) := by
        rw [one_div_mul_eq_div, one_div_mul_eq_div, div_le_div_iff₀ pij pj]; exact key
      _ = V a * S (a + a) := by rw [va]
  have init : LUInv (_root_.Matrix.of fun i j : Fin n => S (i.val + j.val)) 0
      ⟨m, vv, 0, List.replicate n 0, 1⟩ id (fnOf m n) := by
    refine ⟨H.rep, ?_, hvl, fun i hi => by simp only; rw [hvg i hi]; exact (hV i hi).2, by simp, ?_,
      fun i => le_rfl, ?_⟩
    · intro i j
      rw [rowOrder_zero, R_zero, ← H.eq_fnOf]; rfl
    · intro i hi; omega
    · rw [rowOrder_zero]; simp
  obtain ⟨s, e2, p, M, h, _, hp2, hp4, _, _, _⟩ := forRange_nat (fun k s => ∃ p M,
      LUInv (_root_.Matrix.of fun i j : Fin n => S (i.val + j.val)) k s p M ∧
      (∀ i j, i < n → j < n → (i + j) % 2 = 1 → M i j = 0) ∧
      (∀ i : Fin n, i.val < k → i.val < 2 → p i = i) ∧ (n ≤ 4 → ∀ i : Fin n, i.val < k → p i = i) ∧
      (k ≤ 1 → s.vv = vv) ∧ (k = 0 → ∀ i j, i < n → j < n → M i j = S (i + j)) ∧
      (k = 1 → ∀ i, i < n → 1 < n → i % 2 = 1 → M i 1 = S (i + 1))) (lo := 0) (hi := n) (Nat.zero_le _)
    (luStep n) ⟨m, vv, 0, List.replicate n 0, 1⟩ ⟨id, _, init, by
      intro i j hi hj hp; rw [hfn i j hi hj]; exact hodd _ hp, by intro i hi; omega, by intro _ i hi; omega,
      fun _ => rfl, fun _ => hfn, by intro h; omega⟩ (by
      rintro k s _ hk ⟨p, M, h, hpar, hp2, hp4, hvs, hM0, hM1⟩
      obtain ⟨s', p', M', e, h', hold, hmax, hmin, hM'⟩ := luStep_eq hA hk h
      generalize hqd : p' ⟨k, hk⟩ = q at hmax hmin hM'
      have hkq : k ≤ q.val := by have := h'.ple ⟨k, hk⟩; rw [hqd] at this; exact this
      have hqne : M q.val k ≠ 0 := by
        intro e0
        obtain ⟨i, h1, h2, h3⟩ := h.column hA hk
        have := hmax i h1 h2
        rw [e0, abs_zero, mul_zero] at this
        have := mul_pos (h.vpos i h2) (abs_pos.mpr h3)
        linarith
      have hqpar : q.val % 2 = k % 2 := by
        by_contra c
        exact hqne (hpar q.val k q.2 hk (by omega))
      have hq2 : k < 2 → q.val = k := by
        intro hk2
        by_contra c
        have := hmin k le_rfl (by omega)
        rw [hvs (by omega)] at this
        rw [hvg k hk, hvg q q.2] at this
        have hc := cmp k hk hk2 q q.2 hqpar
        rcases (by omega : k = 0 ∨ k = 1) with rfl | rfl
        · rw [hM0 rfl 0 0 hk hk, hM0 rfl q 0 q.2 hk] at this
          linarith
        · rw [hM1 rfl 1 hk hk rfl, hM1 rfl q q.2 hk hqpar] at this
          linarith
      have hMt : ∀ i j, i < n → j < n → (i + j) % 2 = 1 →
          M (if i = k then q.val else if i = q.val then k else i) j = 0 := by
        intro i j hi hj hij
        have hq := q.2
        apply hpar _ j _ hj
        · split
          · omega
          · split <;> omega
        · split
          · omega
          · split <;> omega
      refine ⟨s', e, p', M', h', ?_, ?_, ?_, ?_, by intro h; omega, ?_⟩
      · intro i j hi hj hij
        rw [hM']
        unfold elim
        beta_reduce
        by_cases c : k < i
        · rw [if_pos c]
          by_cases d : j = k
          · subst d
            rw [if_pos rfl, hMt i j hi hj hij, zero_div]
          · rw [if_neg d]
            by_cases f : k < j
            · rw [if_pos f, hMt i j hi hj hij]
              rcases Nat.mod_two_eq_zero_or_one (i + k) with g | g
              · rw [hMt k j hk hj (by omega)]; simp
              · rw [hMt i k hi hk g]; simp
            · rw [if_neg f, hMt i j hi hj hij]
        · rw [if_neg c, hMt i j hi hj hij]
      · intro i hi hi2
        by_cases c : i.val = k
        · have hik : i = ⟨k, hk⟩ := Fin.ext c
          rw [hik, hqd]; exact Fin.ext (hq2 (by omega))
        · rw [hold i (by omega)]; exact hp2 i (by omega) hi2
      · intro hn4 i hi
        by_cases c : i.val = k
        · have hik : i = ⟨k, hk⟩ := Fin.ext c
          rw [hik, hqd]
          apply Fin.ext
          show q.val = k
          rcases Nat.lt_or_ge k 2 with d | d
          · exact hq2 d
          · have := q.2; omega
        · rw [hold i (by omega)]; exact hp4 hn4 i (by omega)
      · intro hk1
        have : k = 0 := by omega
        subst this
        rw [luStep_vv e (h'.pval ⟨0, hk⟩ (by simp)) (by rw [hqd]; exact hq2 (by omega))]
        exact hvs (by omega)
      · intro hk1 i hi hn1 hio
        have : k = 0 := by omega
        subst this
        have hq0 := hq2 (by omega)
        rw [hM']
        unfold elim
        rw [if_pos (by omega), if_neg (by omega), if_pos (by omega)]
        have hi0 : i ≠ 0 := by omega
        simp only [hq0, hi0, if_false]
        rw [hpar i 0 hi hk (by omega), hM0 rfl i 1 hi hn1]
        simp)
  rw [Nat.cast_zero] at e2
  refine ⟨_, _, p, ?_, h.factored, fun i hi => hp2 i i.2 hi, fun hn i => hp4 hn i i.2⟩
  unfold Matrix.LU Matrix.luFactorsAt
  rw [if_neg (by simp), if_neg (by simp [newLUFactors])]
  simp only [newLUFactors]
  rw [goCopy_full (by simp [H.1])]
  exact bind_of ev (bind_of e2 rfl)

end Verif.Mat
