import Verif.Mat.Round

/-! LU factorisation and determinants with rounding: property C138. -/

set_option autoImplicit false

namespace Verif.Mat

open Verif.Go

/-! ### One elimination -/

/-- The array after the elimination in column `k`. -/
def elimR (f : FP) (k : Nat) (M : Nat → Nat → ℚ) (i j : Nat) : ℚ :=
  if k < i then (if j = k then f.fl (M i k / M k k)
    else if k < j then f.mac (M i j) (-f.fl (M i k / M k k)) (M k j) else M i j)
  else M i j

/-- The absolute values of the entries. -/
def absF (M : Nat → Nat → ℚ) : Nat → Nat → ℚ := fun a b => |M a b|

theorem R_absF_nonneg (n k : Nat) (M : Nat → Nat → ℚ) (i j : Nat) : 0 ≤ R n k (absF M) i j := by
  unfold R absF
  refine add_nonneg (Finset.sum_nonneg fun t _ => ?_) ?_
  · split <;> positivity
  · split <;> positivity

/-- What is common to all rows below the pivot. -/
def Rlow (n k : Nat) (M : Nat → Nat → ℚ) (i j : Nat) : ℚ :=
  ∑ t ∈ Finset.range n, (if t < i ∧ t < k ∧ t ≤ j then M i t * M t j else 0)

theorem R_same {n k : Nat} {M M' : Nat → Nat → ℚ} {i j : Nat} (c : ¬ k < i)
    (h : ∀ a b, ¬ k < a → M' a b = M a b) : R n (k + 1) M' i j = R n k M i j := by
  unfold R
  congr 1
  · apply Finset.sum_congr rfl
    intro t _
    by_cases e2 : t < i ∧ t < k ∧ t ≤ j
    · rw [if_pos e2, if_pos (by omega), h i t c, h t j (by omega)]
    · rw [if_neg e2, if_neg (by omega)]
  · rw [h i j c]
    by_cases e : j < i
    · rw [if_pos (by omega), if_pos (by omega)]
    · rw [if_neg (by omega), if_neg (by omega)]

theorem R_below {n k : Nat} (hk : k < n) {M M' : Nat → Nat → ℚ} {i j : Nat} (c : k < i)
    (h : ∀ a b, ¬ k < a → M' a b = M a b) (h' : ∀ b, b < k → M' i b = M i b) :
    R n (k + 1) M' i j = Rlow n k M i j + (if k ≤ j then M' i k * M k j else 0) + (if j ≤ k then 0 else M' i j) ∧
    R n k M i j = Rlow n k M i j + (if j < k then 0 else M i j) := by
  constructor
  · unfold R Rlow
    have split : ∀ t ∈ Finset.range n, (if t < i ∧ t < k + 1 ∧ t ≤ j then M' i t * M' t j else 0) =
        (if t < i ∧ t < k ∧ t ≤ j then M i t * M t j else 0) +
          (if t = k then (if k ≤ j then M' i k * M k j else 0) else 0) := by
      intro t _
      by_cases e : t = k
      · subst e
        rw [if_neg (by omega : ¬ (t < i ∧ t < t ∧ t ≤ j)), if_pos rfl, zero_add]
        by_cases e2 : t ≤ j
        · rw [if_pos (by omega), if_pos e2, h t j (lt_irrefl _)]
        · rw [if_neg (by omega), if_neg e2]
      · rw [if_neg e, add_zero]
        by_cases e2 : t < i ∧ t < k ∧ t ≤ j
        · rw [if_pos e2, if_pos (by omega), h' t (by omega), h t j (by omega)]
        · rw [if_neg e2, if_neg (by omega)]
    rw [Finset.sum_congr rfl split, Finset.sum_add_distrib, Finset.sum_ite_eq' (Finset.range n) k,
      if_pos (Finset.mem_range.mpr hk)]
    congr 1
    by_cases d : j ≤ k
    · rw [if_pos d, if_pos (by omega)]
    · rw [if_neg d, if_neg (by omega)]
  · unfold R Rlow
    congr 1
    by_cases d : j < k
    · rw [if_pos d, if_pos (by omega)]
    · rw [if_neg d, if_neg (by omega)]

/-- One elimination changes the matrix that the array represents by at most `u` times the product of absolute values. -/
theorem R_elimR {f : FP} {u : ℚ} (h : f.Laws u) {n k : Nat} (hk : k < n) (M : Nat → Nat → ℚ) (hne : M k k ≠ 0)
    {i : Nat} (c : k < i) (j : Nat) :
    |R n (k + 1) (elimR f k M) i j - R n k M i j| ≤ u * R n (k + 1) (absF (elimR f k M)) i j ∧
    R n k (absF M) i j ≤ (1 + u) * R n (k + 1) (absF (elimR f k M)) i j := by
  have hu := h.nonneg
  have k1 : ∀ a b, ¬ k < a → elimR f k M a b = M a b := fun a b ha => by unfold elimR; rw [if_neg ha]
  have k2 : ∀ b, b < k → elimR f k M i b = M i b := fun b hb => by
    unfold elimR; rw [if_pos c, if_neg (by omega), if_neg (by omega)]
  obtain ⟨e1, e2⟩ := R_below hk (j := j) c k1 k2
  obtain ⟨e3, e4⟩ := R_below hk (M := absF M) (M' := absF (elimR f k M)) (j := j) c
    (fun a b ha => by unfold absF; rw [k1 a b ha]) (fun b hb => by unfold absF; rw [k2 b hb])
  rw [e1, e2, e3, e4]
  have hS : 0 ≤ Rlow n k (absF M) i j := by
    unfold Rlow absF
    refine Finset.sum_nonneg fun t _ => ?_
    split <;> positivity
  generalize Rlow n k (absF M) i j = S at *
  generalize Rlow n k M i j = T at *
  have hl : elimR f k M i k = f.fl (M i k / M k k) := by unfold elimR; rw [if_pos c, if_pos rfl]
  simp only [absF, hl]
  have hlerr := h.err' (M i k / M k k)
  generalize hL : f.fl (M i k / M k k) = l at *
  rcases lt_trichotomy j k with d | d | d
  · rw [if_neg (by omega : ¬ k ≤ j), if_neg (by omega : ¬ k ≤ j), if_pos (by omega : j ≤ k), if_pos (by omega : j ≤ k),
      if_pos d, if_pos d]
    constructor
    · rw [show T + 0 + 0 - (T + 0) = 0 by ring, abs_zero]; positivity
    · nlinarith
  · subst d
    rw [if_pos le_rfl, if_pos le_rfl, if_pos le_rfl, if_pos le_rfl, if_neg (lt_irrefl _), if_neg (lt_irrefl _)]
    have hb : |l * M j j - M i j| ≤ u * (|l| * |M j j|) := by
      have e : l * M j j - M i j = (l - M i j / M j j) * M j j := by field_simp
      rw [e, abs_mul, ← mul_assoc]
      exact mul_le_mul_of_nonneg_right hlerr (abs_nonneg _)
    have hc : |M i j| ≤ |l| * |M j j| + |l * M j j - M i j| := by
      have := abs_sub (l * M j j) (l * M j j - M i j)
      rw [sub_sub_cancel, abs_mul] at this
      exact this
    constructor
    · rw [show T + l * M j j + 0 - (T + M i j) = l * M j j - M i j by ring]
      nlinarith
    · nlinarith
  · rw [if_pos d.le, if_pos d.le, if_neg (by omega : ¬ j ≤ k), if_neg (by omega : ¬ j ≤ k),
      if_neg (by omega : ¬ j < k), if_neg (by omega : ¬ j < k)]
    have hx : elimR f k M i j = f.mac (M i j) (-l) (M k j) := by
      unfold elimR; rw [if_pos c, if_neg (by omega), if_pos d, hL]
    rw [hx]
    obtain ⟨q, q1, -, q3⟩ := h.mac (M i j) (-l) (M k j)
    generalize f.mac (M i j) (-l) (M k j) = x' at *
    rw [show q - -l * M k j = q + l * M k j by ring, show -l * M k j = -(l * M k j) by ring, abs_neg, abs_mul] at q1
    have hb : |l * M k j + x' - M i j| ≤ u * (|l| * |M k j| + |x'|) := by
      have e : l * M k j + x' - M i j = (q + l * M k j) + (x' - (M i j + q)) := by ring
      rw [e]
      have := abs_add_le (q + l * M k j) (x' - (M i j + q))
      linarith
    have hc : |M i j| ≤ |l| * |M k j| + |x'| + |l * M k j + x' - M i j| := by
      have h1 := abs_sub (l * M k j + x') (l * M k j + x' - M i j)
      have h2 := abs_add_le (l * M k j) x'
      rw [sub_sub_cancel] at h1
      rw [abs_mul] at h2
      linarith
    constructor
    · rw [show T + l * M k j + x' - (T + M i j) = l * M k j + x' - M i j by ring]
      nlinarith
    · nlinarith

/-! ### The loops -/

theorem rowScaleR_eq {f : FP} {u : ℚ} (hf : f.Laws u) {n : Nat} {m : List ℚ} {M : Nat → Nat → ℚ} (r : Rep m n n M)
    {i : Nat} (hi : i < n) (hne : ∃ j, j < n ∧ M i j ≠ 0) : ∃ v, rowScaleR f n m i = some v ∧ 0 < v := by
  unfold rowScaleR
  obtain ⟨big, e, h0, hle⟩ := forRange_nat (fun j big => 0 ≤ big ∧ (∀ j', j' < j → |M i j'| ≤ big))
    (lo := 0) (hi := n) (Nat.zero_le _)
    (fun j big => do
    let x ← rd m ((i : Int) * n + j)
    some (if |x| > big then |x| else big)) 0 ⟨le_rfl, by intro j h; omega⟩ (by
      intro j big _ hj ⟨h1, h2⟩
      have a := r.rd hi hj
      refine ⟨_, bind_of a rfl, ?_⟩
      split
      · next c =>
        refine ⟨abs_nonneg _, ?_⟩
        intro j' hj'
        rcases Nat.lt_or_ge j' j with d | d
        · exact (h2 j' d).trans c.le
        · obtain rfl : j' = j := by omega
          exact le_rfl
      · next c =>
        refine ⟨h1, ?_⟩
        intro j' hj'
        rcases Nat.lt_or_ge j' j with d | d
        · exact h2 j' d
        · obtain rfl : j' = j := by omega
          exact not_lt.mp c)
  rw [Nat.cast_zero] at e
  obtain ⟨j, hj, hne⟩ := hne
  have hb : 0 < big := lt_of_lt_of_le (abs_pos.mpr hne) (hle j hj)
  refine ⟨f.fl (1 / big), bind_of e ?_, hf.pos _ (by positivity)⟩
  rw [if_neg hb.ne']

theorem FP.Laws.fl_zero {f : FP} {u : ℚ} (h : f.Laws u) : f.fl 0 = 0 := by
  have := h.err 0
  simpa using this

/-- The search finds a nonzero entry, or there is none and it returns the row it was given. -/
theorem findPivotR_eq {f : FP} {u : ℚ} (hf : f.Laws u) {n : Nat} {m vv : List ℚ} {M : Nat → Nat → ℚ} (r : Rep m n n M)
    {V : Nat → ℚ} (hv : ∀ i < n, vv[i]? = some (V i)) (hpos : ∀ i < n, 0 < V i) {k : Nat} (hk : k < n) (imax : Int) :
    ∃ big q, findPivotR f n m vv k imax = some (big, q) ∧
      ((∃ i : Nat, q = i ∧ k ≤ i ∧ i < n ∧ M i k ≠ 0) ∨ (q = imax ∧ ∀ i, k ≤ i → i < n → M i k = 0)) := by
  unfold findPivotR
  obtain ⟨s, e, h1, h⟩ := forRange_nat (fun i (s : ℚ × Int) => 0 ≤ s.1 ∧
      ((∃ q : Nat, s.2 = q ∧ k ≤ q ∧ q < i ∧ M q k ≠ 0) ∨
        (s = (0, imax) ∧ ∀ i', k ≤ i' → i' < i → M i' k = 0))) (lo := k) (hi := n) hk.le
    (fun i (s : ℚ × Int) => do
    let v ← rd vv i
    let x ← rd m (i * n + k)
    some (if f.fl (v * |x|) > s.1 then (f.fl (v * |x|), i) else s)) (0, imax)
    ⟨le_rfl, Or.inr ⟨rfl, by intro i h1 h2; omega⟩⟩ (by
      intro i s hki hi ⟨h0, hinv⟩
      have a1 : rd vv (i : Int) = some (V i) := rd_fn_nat hv i rfl hi
      have a2 := r.rd hi hk
      refine ⟨_, bind_of a1 (bind_of a2 rfl), ?_⟩
      by_cases c : f.fl (V i * |M i k|) > s.1
      · rw [if_pos c]
        refine ⟨h0.trans c.le, Or.inl ⟨i, rfl, hki, by omega, ?_⟩⟩
        intro e
        rw [e, abs_zero, mul_zero, hf.fl_zero] at c
        exact absurd c (not_lt.mpr h0)
      · rw [if_neg c]
        refine ⟨h0, ?_⟩
        rcases hinv with ⟨q, a, b, d, e⟩ | ⟨hs, hz⟩
        · exact Or.inl ⟨q, a, b, by omega, e⟩
        · right
          refine ⟨hs, ?_⟩
          intro i' ha hb
          rcases Nat.lt_or_ge i' i with d | d
          · exact hz i' ha d
          · obtain rfl : i' = i := by omega
            by_contra hne
            apply c
            rw [hs]
            exact hf.pos _ (mul_pos (hpos i' hi) (abs_pos.mpr hne)))
  refine ⟨s.1, s.2, e, ?_⟩
  rcases h with ⟨q, a, b, d, e⟩ | ⟨rfl, hz⟩
  · exact Or.inl ⟨q, a, b, d, e⟩
  · exact Or.inr ⟨rfl, hz⟩

theorem eliminateR_eq (f : FP) {n : Nat} {m : List ℚ} {M : Nat → Nat → ℚ} (r : Rep m n n M) {k : Nat} (hk : k < n) :
    ∃ m', eliminateR f n k m = some m' ∧ Rep m' n n (elimR f k M) := by
  unfold eliminateR
  obtain ⟨m', e, h⟩ := forRange_nat (fun i m' => Rep m' n n (fun a b =>
      if a < i then elimR f k M a b else M a b)) (lo := k + 1) (hi := n) hk
    (fun i m => do
    let a ← rd m (i * n + k)
    let p ← rd m ((k : Int) * n + k)
    let m ← wr m (i * n + k) (f.fl (a / p))
    let tmp ← rd m (i * n + k)
    forRange ((k : Int) + 1) n (fun j m => do
      let x ← rd m (i * n + j)
      let y ← rd m ((k : Int) * n + j)
      wr m (i * n + j) (f.mac x (-tmp) y)) m) m (by
      apply r.congr
      intro a b _ _
      split
      · unfold elimR; rw [if_neg (by omega)]
      · rfl) (by
      intro i st hki hi rs
      have a1 := rs.rd hi hk
      have a2 := rs.rd hk hk
      have ek : elimR f k M k k = M k k := by unfold elimR; rw [if_neg (lt_irrefl _)]
      simp only [lt_irrefl, if_false, if_pos (show k < i by omega), ek] at a1 a2
      obtain ⟨l, hl⟩ : ∃ l, l = f.fl (M i k / M k k) := ⟨_, rfl⟩
      obtain ⟨s1, e1, r1⟩ := rs.wr hi hk l
      have a3 := r1.rd hi hk
      simp only [and_self, if_true] at a3
      obtain ⟨s2, e2, r2⟩ := forRange_nat (fun j m' => Rep m' n n (fun a b =>
          if a < i then elimR f k M a b else if a = i ∧ b < j then elimR f k M a b else if a = i ∧ b = k
            then l else M a b)) (lo := k + 1) (hi := n) hk
        (fun j m => do
      let x ← rd m ((i : Int) * n + j)
      let y ← rd m ((k : Int) * n + j)
      wr m ((i : Int) * n + j) (f.mac x (-l) y)) s1 (by
          apply r1.congr
          intro a b _ _
          by_cases c : a < i
          · rw [if_neg (by omega), if_pos c, if_pos c]
          · rw [if_neg c, if_neg c]
            by_cases c' : a = i
            · subst c'
              by_cases d : b = k
              · subst d
                rw [if_pos ⟨rfl, rfl⟩, if_pos ⟨rfl, by omega⟩]
                unfold elimR
                rw [if_pos (by omega), if_pos rfl, hl]
              · rw [if_neg (by omega)]
                by_cases d2 : b < k + 1
                · rw [if_pos ⟨rfl, d2⟩]
                  unfold elimR
                  rw [if_pos (by omega), if_neg d, if_neg (by omega)]
                · simp [d, d2]
            · simp [c']) (by
          intro j t hkj hj rt
          have b1 := rt.rd hi hj
          have b2 := rt.rd hk hj
          have ekj : elimR f k M k j = M k j := by unfold elimR; rw [if_neg (lt_irrefl _)]
          rw [if_neg (lt_irrefl i), if_neg (by omega), if_neg (by omega)] at b1
          rw [if_pos (by omega), ekj] at b2
          obtain ⟨t', e3, r3⟩ := rt.wr hi hj (f.mac (M i j) (-l) (M k j))
          refine ⟨t', bind_of b1 (bind_of b2 e3), r3.congr ?_⟩
          intro a b _ _
          by_cases c : a = i ∧ b = j
          · obtain ⟨rfl, rfl⟩ := c
            rw [if_pos ⟨rfl, rfl⟩, if_neg (lt_irrefl _), if_pos ⟨rfl, by omega⟩]
            unfold elimR
            rw [if_pos (by omega), if_neg (by omega), if_pos (by omega), hl]
          · rw [if_neg c]
            by_cases c1 : a < i
            · rw [if_pos c1, if_pos c1]
            · rw [if_neg c1, if_neg c1]
              by_cases c2 : a = i ∧ b < j
              · rw [if_pos c2, if_pos (by omega)]
              · rw [if_neg c2, if_neg (by omega : ¬ (a = i ∧ b < j + 1))])
      rw [show ((k + 1 : Nat) : Int) = (k : Int) + 1 by push_cast; rfl] at e2
      refine ⟨s2, bind_of a1 (bind_of a2 (bind_of (by rw [← hl]; exact e1) (bind_of a3 e2))), r2.congr ?_⟩
      intro a b _ hb
      by_cases c1 : a < i
      · rw [if_pos c1, if_pos (by omega)]
      · rw [if_neg c1]
        by_cases c2 : a = i ∧ b < n
        · rw [if_pos c2, if_pos (by omega)]
        · rw [if_neg c2, if_neg (by omega), if_neg (by omega)])
  rw [show ((k + 1 : Nat) : Int) = (k : Int) + 1 by push_cast; rfl] at e
  refine ⟨m', e, h.congr ?_⟩
  intro a b ha _
  rw [if_pos ha]

/-! ### The invariant -/

/-- What every state of the factorisation satisfies. -/
structure Shape (n : Nat) (s : FState) (M : Nat → Nat → ℚ) : Prop where
  rep : Rep s.m n n M
  vlen : s.vv.length = n
  vpos : ∀ i < n, 0 < s.vv.getD i 0
  plen : s.pivot.length = n
  imax : ∃ q : Nat, q < n ∧ s.imax = q

/-- One column: the row exchanged with row `k`, the replacement of a zero pivot and the elimination. -/
theorem luStepR_eq {f : FP} {u : ℚ} (hf : f.Laws u) {n k : Nat} (hk : k < n) {s : FState} {M : Nat → Nat → ℚ}
    (h : Shape n s M) : ∃ s' q M1, luStepR f n k s = some s' ∧ q < n ∧
      Shape n s' (elimR f k M1) ∧ s'.pivot = s.pivot.set k (q : Int) ∧
      s'.d = (if k = q then s.d else -s.d) ∧
      ((k ≤ q ∧ M q k ≠ 0 ∧ M1 = fun a b => M (if a = k then q else if a = q then k else a) b) ∨
       (M q k = 0 ∧ k ≤ q ∧ M1 k k = f.fl (1 / 10 ^ 20) ∧ ∀ a b, a < k → M1 a b = M a b) ∨ q < k) := by
  have hv : ∀ i < n, s.vv[i]? = some (s.vv.getD i 0) := fun i hi => rd_getD' (by rw [h.vlen]; exact hi)
  obtain ⟨big, q', e1, hq'⟩ := findPivotR_eq hf h.rep hv h.vpos hk s.imax
  obtain ⟨q, rfl, hqn, hq⟩ : ∃ q : Nat, q' = q ∧ q < n ∧ ((k ≤ q ∧ M q k ≠ 0) ∨ (k ≤ q ∧ M q k = 0) ∨ q < k) := by
    rcases hq' with ⟨q, rfl, a, b, c⟩ | ⟨rfl, hz⟩
    · exact ⟨q, rfl, b, Or.inl ⟨a, c⟩⟩
    · obtain ⟨q, hqn, e⟩ := h.imax
      refine ⟨q, e, hqn, Or.inr ?_⟩
      rcases Nat.lt_or_ge q k with d | d
      · exact Or.inr d
      · exact Or.inl ⟨d, hz q d hqn⟩
  obtain ⟨s1, es, r1, hd1, hl1, hpos1, hpv1⟩ : ∃ s1 : FState,
      exchange n k q s = some s1 ∧
      Rep s1.m n n (fun a b => M (if a = k then q else if a = q then k else a) b) ∧
      s1.d = (if k = q then s.d else -s.d) ∧ s1.vv.length = n ∧
      (∀ i < n, 0 < s1.vv.getD i 0) ∧ s1.pivot = s.pivot := by
    by_cases c : k = q
    · subst c
      refine ⟨s, by unfold exchange; rw [if_neg (by simp)], h.rep.congr ?_, by rw [if_pos rfl], h.vlen, h.vpos, rfl⟩
      intro a b _ _
      split
      · next c => rw [c]
      · rfl
    · obtain ⟨m', em, rm⟩ := swapRows_eq h.rep hk hqn
      have a1 : rd s.vv (k : Int) = some (s.vv.getD k 0) := rd_fn_nat hv k rfl hk
      have a2 : wr s.vv (q : Int) (s.vv.getD k 0) = some (s.vv.set q (s.vv.getD k 0)) :=
        wr_natCast (by rw [h.vlen]; exact hqn)
      refine ⟨{ s with m := m', vv := s.vv.set q (s.vv.getD k 0), d := -s.d }, ?_, rm, by rw [if_neg c], ?_, ?_, rfl⟩
      · unfold exchange
        rw [if_pos (by exact_mod_cast c)]
        exact bind_of em (bind_of a1 (bind_of a2 rfl))
      · simpa using h.vlen
      · intro i hi
        simp only
        rw [getD_set (by rw [h.vlen]; exact hqn)]
        split
        · exact h.vpos k hk
        · exact h.vpos i hi
  have hpw : wr s1.pivot (k : Int) (q : Int) = some (s1.pivot.set k (q : Int)) :=
    wr_natCast (by rw [hpv1, h.plen]; exact hk)
  have a3 := r1.rd hk hk
  simp only [if_true] at a3
  obtain ⟨m1, M1, ef, r2, hM1, hM1'⟩ : ∃ m1 M1, fixPivotR f n k s1.m = some m1 ∧ Rep m1 n n M1 ∧
      (M q k ≠ 0 → M1 = fun a b => M (if a = k then q else if a = q then k else a) b) ∧
      (M q k = 0 → M1 k k = f.fl (1 / 10 ^ 20) ∧
        ∀ a b, a < k → M1 a b = M (if a = k then q else if a = q then k else a) b) := by
    by_cases c : M q k = 0
    · obtain ⟨m1, e, r⟩ := r1.wr hk hk (f.fl (1 / 10 ^ 20))
      refine ⟨m1, _, ?_, r, fun h => absurd c h, fun _ => ⟨by rw [if_pos ⟨rfl, rfl⟩], fun a b ha => ?_⟩⟩
      · unfold fixPivotR
        refine bind_of a3 ?_
        rw [if_pos c]
        exact e
      · rw [if_neg (by omega)]
    · refine ⟨s1.m, _, ?_, r1, fun _ => rfl, fun h => absurd h c⟩
      unfold fixPivotR
      refine bind_of a3 ?_
      rw [if_neg c]
  obtain ⟨m2, e2, r3⟩ := eliminateR_eq f r2 hk
  refine ⟨{ s1 with m := m2, imax := q, pivot := s1.pivot.set k (q : Int) }, q, M1, ?_, hqn, ?_, ?_, hd1, ?_⟩
  · unfold luStepR
    exact bind_of e1 (bind_of es (bind_of hpw (bind_of ef (bind_of e2 rfl))))
  · exact ⟨r3, hl1, hpos1, by simp only [List.length_set]; rw [hpv1, h.plen], q, hqn, rfl⟩
  · simp only; rw [hpv1]
  · rcases hq with ⟨a, b⟩ | ⟨a, b⟩ | a
    · exact Or.inl ⟨a, b, hM1 b⟩
    · refine Or.inr (Or.inl ⟨b, a, (hM1' b).1, fun x y hx => ?_⟩)
      rw [(hM1' b).2 x y hx, if_neg (by omega), if_neg (by omega)]
    · exact Or.inr (Or.inr a)

/-- The state after `k` columns if every column had a pivot. -/
structure LUInvR {n : Nat} (u : ℚ) (A : _root_.Matrix (Fin n) (Fin n) ℚ) (k : Nat) (s : FState) (p : Fin n → Fin n)
    (M : Nat → Nat → ℚ) : Prop where
  err : ∀ i j : Fin n, |R n k M i j - A (rowOrder p k i) j| ≤ ((1 + u) ^ (min k (n - 1)) - 1) * R n k (absF M) i j
  diag : ∀ i, i < k → i < n → M i i ≠ 0
  pval : ∀ i : Fin n, i.val < k → s.pivot[i.val]? = some ((p i).val : Int)
  ple : ∀ i : Fin n, i ≤ p i
  d : s.d = ((Equiv.Perm.sign (rowOrder p k) : ℤ) : ℚ)

/-- A column without a pivot: the recorded row is above the diagonal, or the diagonal entry is the replacement. -/
def NoPivot (f : FP) (n k : Nat) (s : FState) (M : Nat → Nat → ℚ) : Prop :=
  (∃ i q : Nat, i < k ∧ i < n ∧ s.pivot[i]? = some (q : Int) ∧ q < i) ∨
  (∃ i, i < k ∧ i < n ∧ M i i = f.fl (1 / 10 ^ 20))

theorem stepR_inv {f : FP} {u : ℚ} (hf : f.Laws u) {n : Nat} {A : _root_.Matrix (Fin n) (Fin n) ℚ} {k : Nat} (hk : k < n)
    {s : FState} {M : Nat → Nat → ℚ} (h : Shape n s M) (hi : NoPivot f n k s M ∨ ∃ p, LUInvR u A k s p M) :
    ∃ s' M', luStepR f n k s = some s' ∧ Shape n s' M' ∧
      (NoPivot f n (k + 1) s' M' ∨ ∃ p, LUInvR u A (k + 1) s' p M') := by
  obtain ⟨s', q, M1, e, hqn, hs, hp, hd, hcase⟩ := luStepR_eq hf hk h
  refine ⟨s', _, e, hs, ?_⟩
  have hpk : s'.pivot[k]? = some (q : Int) := by
    rw [hp, List.getElem?_set, if_pos rfl, if_pos (by rw [h.plen]; exact hk)]
  have hpo : ∀ i, i < k → s'.pivot[i]? = s.pivot[i]? := by
    intro i hi
    rw [hp, List.getElem?_set, if_neg (by omega)]
  have hEl : ∀ a b, a ≤ k → elimR f k M1 a b = M1 a b := fun a b ha => by unfold elimR; rw [if_neg (by omega)]
  by_cases hqk : q < k
  · exact Or.inl (Or.inl ⟨k, q, by omega, hk, hpk, hqk⟩)
  have hM1 : ∀ a b, a < k → M1 a b = M a b := by
    intro a b ha
    rcases hcase with ⟨_, _, rfl⟩ | ⟨_, _, _, h4⟩ | h5
    · simp only
      rw [if_neg (by omega), if_neg (by omega)]
    · exact h4 a b ha
    · exact absurd h5 hqk
  rcases hi with (⟨i, q', a, b, c, d⟩ | ⟨i, a, b, c⟩) | ⟨p, hI⟩
  · exact Or.inl (Or.inl ⟨i, q', by omega, b, by rw [hpo i a]; exact c, d⟩)
  · exact Or.inl (Or.inr ⟨i, by omega, b, by rw [hEl i i (by omega), hM1 i i a]; exact c⟩)
  rcases hcase with ⟨hkq, hne, hM⟩ | ⟨_, _, h3, _⟩ | h5
  · right
    let p' : Fin n → Fin n := Function.update p ⟨k, hk⟩ ⟨q, hqn⟩
    have hp' : p' ⟨k, hk⟩ = ⟨q, hqn⟩ := by simp [p']
    have hpold : ∀ i : Fin n, i.val < k → p' i = p i := by
      intro i hi
      have : i ≠ ⟨k, hk⟩ := by intro e; rw [e] at hi; simp at hi
      simp [p', this]
    have hM1k : M1 k k = M q k := by rw [hM]; simp
    refine ⟨p', ?_, ?_, ?_, ?_, ?_⟩
    · intro i j
      -- the exchange
      have hsw : R n k M1 i j = R n k M (if i.val = k then q else if i.val = q then k else i) j := by
        rw [hM, R_swap hkq]
      have hswa : R n k (absF M1) i j = R n k (absF M) (if i.val = k then q else if i.val = q then k else i) j := by
        rw [← R_swap hkq, hM]
        rfl
      have hrow : rowOrder p' (k + 1) i = rowOrder p k (Equiv.swap ⟨k, hk⟩ ⟨q, hqn⟩ i) := by
        rw [rowOrder_succ p' hk, hp', rowOrder_congr hk.le hpold, Equiv.Perm.mul_apply]
      have hval : ((Equiv.swap (⟨k, hk⟩ : Fin n) ⟨q, hqn⟩ i).val) = (if i.val = k then q else if i.val = q then k else i) := by
        rw [Equiv.swap_apply_def]
        by_cases c1 : i.val = k
        · rw [if_pos (Fin.ext c1), if_pos c1]
        · rw [if_neg (by intro e; exact c1 (by rw [e])), if_neg c1]
          by_cases c2 : i.val = q
          · rw [if_pos (Fin.ext c2), if_pos c2]
          · rw [if_neg (by intro e; exact c2 (by rw [e])), if_neg c2]
      have hE := hI.err (Equiv.swap ⟨k, hk⟩ ⟨q, hqn⟩ i) j
      rw [hval, ← hsw, ← hswa, ← hrow] at hE
      generalize A (rowOrder p' (k + 1) i) j = x at *
      have hu := hf.nonneg
      by_cases c : k < i.val
      · have hmin : min (k + 1) (n - 1) = k + 1 := by have := i.2; omega
        have hmin' : min k (n - 1) = k := by omega
        rw [hmin'] at hE
        rw [hmin, pow_succ]
        obtain ⟨h1, h2⟩ := R_elimR hf hk M1 (by rw [hM1k]; exact hne) c j
        have hg : (1 : ℚ) ≤ (1 + u) ^ k := one_le_pow₀ (by linarith)
        generalize (1 + u) ^ k = g at *
        have h3 : (g - 1) * R n k (absF M1) i j ≤ (g - 1) * ((1 + u) * R n (k + 1) (absF (elimR f k M1)) i j) :=
          mul_le_mul_of_nonneg_left h2 (by linarith)
        have h4 := abs_sub_le (R n (k + 1) (elimR f k M1) i j) (R n k M1 i j) x
        nlinarith
      · rw [R_same c (fun a b ha => hEl a b (by omega)), R_same (M := absF M1) c
          (fun a b ha => by unfold absF; rw [hEl a b (by omega)])]
        refine hE.trans (mul_le_mul_of_nonneg_right ?_ (R_absF_nonneg _ _ _ _ _))
        have : (1 + u) ^ min k (n - 1) ≤ (1 + u) ^ min (k + 1) (n - 1) :=
          pow_le_pow_right₀ (by linarith) (by omega)
        linarith
    · intro i h1 h2
      rw [hEl i i (by omega)]
      by_cases c : i = k
      · rw [c, hM1k]; exact hne
      · rw [hM1 i i (by omega)]; exact hI.diag i (by omega) h2
    · intro i hi
      by_cases c : i.val = k
      · have : i = ⟨k, hk⟩ := Fin.ext c
        rw [c, hpk, this, hp']
      · rw [hpo i (by omega), hI.pval i (by omega), hpold i (by omega)]
    · intro i
      by_cases c : i = ⟨k, hk⟩
      · rw [c, hp']; exact hkq
      · have : p' i = p i := by simp [p', c]
        rw [this]; exact hI.ple i
    · rw [hd, rowOrder_succ p' hk, hp', Equiv.Perm.sign_mul, rowOrder_congr hk.le hpold, hI.d]
      by_cases c : k = q
      · subst c
        simp
      · rw [if_neg c, Equiv.Perm.sign_swap (by intro e; exact c (by simpa using e))]
        simp
  · exact Or.inl (Or.inr ⟨k, by omega, hk, by rw [hEl k k le_rfl]; exact h3⟩)
  · exact absurd h5 hqk

/-! ### The result -/

theorem vvR_eq {f : FP} {u : ℚ} (hf : f.Laws u) {n : Nat} {A : _root_.Matrix (Fin n) (Fin n) ℚ}
    (hA : ∀ i, ∃ j, A i j ≠ 0) {m : List ℚ} (H : Holds m A) :
    ∃ vv, forRange 0 n (fun i vv => do
      let s ← rowScaleR f n m i
      wr vv i s) (List.replicate n 0) = some vv ∧ vv.length = n ∧ ∀ i < n, 0 < vv.getD i 0 := by
  have row : ∀ i, ∃ v, i < n → rowScaleR f n m i = some v ∧ 0 < v := by
    intro i
    by_cases hi : i < n
    · obtain ⟨j, hj⟩ := hA ⟨i, hi⟩
      rw [H.eq_fnOf] at hj
      obtain ⟨v, e, h⟩ := rowScaleR_eq hf H.rep hi ⟨j, j.2, hj⟩
      exact ⟨v, fun _ => ⟨e, h⟩⟩
    · exact ⟨0, fun h => absurd h hi⟩
  choose V hV using row
  obtain ⟨vv, e, hl, h⟩ := forRange_fill V (lo := 0) (hi := n) (Nat.zero_le _) le_rfl (List.replicate n 0) (by simp)
    (fun i vv => do
      let s ← rowScaleR f n m i
      wr vv i s) (by
      intro i st _ hi _ _
      exact bind_of (hV i hi).1 rfl)
  rw [Nat.cast_zero] at e
  refine ⟨vv, e, hl, ?_⟩
  intro i hi
  rw [List.getD_eq_getElem?_getD, h, if_pos ⟨Nat.zero_le _, hi⟩]
  exact (hV i hi).2

/-- What `LU` returns if every column had a pivot: the entries `F`, the pivots `p`, and factors whose product is the matrix with
its rows exchanged, up to an error. -/
structure FactoredR {n : Nat} (u : ℚ) (A : _root_.Matrix (Fin n) (Fin n) ℚ) (luf : LUFactors)
    (F : _root_.Matrix (Fin n) (Fin n) ℚ) (p : Fin n → Fin n) : Prop where
  size : luf.n = n
  holds : Holds luf.lu F
  pivot : luf.pivot = List.ofFn (fun i => ((p i).val : Int))
  le : ∀ i, i ≤ p i
  diag : ∀ i, F i i ≠ 0
  mul : ∀ i j, |(lower F * upper F) i j - A (rowOrder p n i) j| ≤
    ((1 + u) ^ (n - 1) - 1) * (absM (lower F) * absM (upper F)) i j
  sign : luf.d = ((Equiv.Perm.sign (rowOrder p n) : ℤ) : ℚ)

theorem absM_lower {n : Nat} (F : _root_.Matrix (Fin n) (Fin n) ℚ) : absM (lower F) = lower (absM F) := by
  ext i j
  simp only [absM, lower, _root_.Matrix.map_apply, _root_.Matrix.of_apply]
  split
  · rfl
  · split <;> simp

theorem absM_upper {n : Nat} (F : _root_.Matrix (Fin n) (Fin n) ℚ) : absM (upper F) = upper (absM F) := by
  ext i j
  simp only [absM, upper, _root_.Matrix.map_apply, _root_.Matrix.of_apply]
  split <;> simp

theorem R_eq_mul {n : Nat} (M : Nat → Nat → ℚ) (i j : Fin n) :
    R n n M i j = (lower (_root_.Matrix.of fun i j : Fin n => M i j) *
      upper (_root_.Matrix.of fun i j : Fin n => M i j)) i j := by
  rw [← Wk_eq_upper, ← Lk_eq_lower, Lk_mul_Wk]
  rfl

theorem LUInvR.factored {n : Nat} {u : ℚ} {A : _root_.Matrix (Fin n) (Fin n) ℚ} {s : FState} {p : Fin n → Fin n}
    {M : Nat → Nat → ℚ} (hs : Shape n s M) (h : LUInvR u A n s p M) :
    FactoredR u A ⟨s.m, n, s.pivot, s.d⟩ (_root_.Matrix.of fun i j : Fin n => M i j) p := by
  refine ⟨rfl, hs.rep.holds, ?_, h.ple, fun i => h.diag i i.2 i.2, ?_, h.d⟩
  · apply List.ext_getElem?
    intro i
    by_cases hi : i < n
    · rw [h.pval ⟨i, hi⟩ hi, List.getElem?_ofFn, dif_pos hi]
    · rw [List.getElem?_eq_none (by simp only; rw [hs.plen]; omega), List.getElem?_eq_none (by simpa using hi)]
  · intro i j
    have := h.err i j
    rw [R_eq_mul, R_eq_mul, min_eq_right (by omega)] at this
    rw [absM_lower, absM_upper]
    exact this

/-- A sign, seen from outside, that some column had no pivot: row `i` was exchanged with a row above it, or the diagonal entry
is the constant that replaces a zero. -/
def Lost (p : ℕ) (luf : LUFactors) : Prop :=
  ∃ i, i < luf.n ∧ ((∃ q, luf.pivot[i]? = some q ∧ q < i) ∨ luf.lu[i * luf.n + i]? = some (rnd p (1 / 10 ^ 20)))

theorem luR_main {p : ℕ} (hp : 0 < p) (fused : Bool) {n : Nat} (A : _root_.Matrix (Fin n) (Fin n) ℚ)
    (hA : ∀ i, ∃ j, A i j ≠ 0) (m : List ℚ) (H : Holds m A) (old : LUFactors) (h1 : old.n = n)
    (h2 : old.lu.length = n * n) (h3 : old.pivot.length = n) :
    ∃ luf, Matrix.luFactorsAtR (fp p fused) ⟨m, n, n⟩ old = some luf ∧
      luf.n = n ∧ luf.lu.length = n * n ∧ (Lost p luf ∨ ∃ F q, FactoredR (1 / 2 ^ p) A luf F q) := by
  have hf := fp_laws hp fused
  obtain ⟨vv, e, hl, hpos⟩ := vvR_eq hf hA H
  rcases Nat.eq_zero_or_pos n with hn | hn
  · subst hn
    refine ⟨⟨m, 0, old.pivot, 1⟩, ?_, rfl, H.1, Or.inr ⟨A, id, rfl, H, ?_, fun i => i.elim0, fun i => i.elim0, fun i => i.elim0, ?_⟩⟩
    · unfold Matrix.luFactorsAtR
      rw [if_neg (by simp [h1]), h1, goCopy_full (by rw [h2, H.1])]
      refine bind_of e ?_
      rfl
    · simp only [List.ofFn_zero]
      exact List.eq_nil_of_length_eq_zero h3
    · have : rowOrder (id : Fin 0 → Fin 0) 0 = 1 := rfl
      rw [this]; simp
  have init : LUInvR (1 / 2 ^ p) A 0 ⟨m, vv, 0, old.pivot, 1⟩ id (fnOf m n) := by
    refine ⟨?_, by intro i h; omega, by intro i hi; omega, fun i => le_rfl, by rw [rowOrder_zero]; simp⟩
    intro i j
    rw [rowOrder_zero, R_zero, ← H.eq_fnOf]
    simp
  obtain ⟨s, e2, M, hs, hI⟩ := forRange_nat (fun k s => ∃ M, Shape n s M ∧
      (NoPivot (fp p fused) n k s M ∨ ∃ q, LUInvR (1 / 2 ^ p) A k s q M)) (lo := 0) (hi := n) (Nat.zero_le _)
    (luStepR (fp p fused) n) ⟨m, vv, 0, old.pivot, 1⟩
    ⟨fnOf m n, ⟨H.rep, hl, hpos, h3, 0, hn, rfl⟩, Or.inr ⟨id, init⟩⟩ (by
      rintro k s _ hk ⟨M, hs, hI⟩
      obtain ⟨s', M', e, hs', hI'⟩ := stepR_inv hf hk hs hI
      exact ⟨s', e, M', hs', hI'⟩)
  rw [Nat.cast_zero] at e2
  refine ⟨⟨s.m, n, s.pivot, s.d⟩, ?_, rfl, hs.rep.1, ?_⟩
  · unfold Matrix.luFactorsAtR
    rw [if_neg (by simp [h1]), h1, goCopy_full (by rw [h2, H.1])]
    exact bind_of e (bind_of e2 rfl)
  · rcases hI with (⟨i, q, a, b, c, d⟩ | ⟨i, a, b, c⟩) | ⟨q, hI⟩
    · exact Or.inl ⟨i, b, Or.inl ⟨q, c, by exact_mod_cast d⟩⟩
    · refine Or.inl ⟨i, b, Or.inr ?_⟩
      rw [hs.rep.2 i i b b, c]
      rfl
    · exact Or.inr ⟨_, q, hI.factored hs⟩

/-- C138: for every matrix without a zero row, `LU` and `LUFactorsAt` return. Unless the result shows that a column had no
pivot, the product of the factors is the matrix with rows exchanged as recorded, up to `(1 + 2^-p)^(n-1) - 1` times the product
of the absolute values of the factors. No limits of the exponent are modelled. -/
theorem C138_factors {p : ℕ} (hp : 0 < p) (fused : Bool) {n : Nat} (A : _root_.Matrix (Fin n) (Fin n) ℚ)
    (hA : ∀ i, ∃ j, A i j ≠ 0) (m : List ℚ) (H : Holds m A) :
    (∃ luf, Matrix.LUR (fp p fused) ⟨m, n, n⟩ = some luf ∧ luf.n = n ∧ luf.lu.length = n * n ∧
      (Lost p luf ∨ ∃ F q, FactoredR (1 / 2 ^ p) A luf F q)) ∧
    (∀ old : LUFactors, old.n = n → old.lu.length = n * n → old.pivot.length = n →
      ∃ luf, Matrix.luFactorsAtR (fp p fused) ⟨m, n, n⟩ old = some luf ∧
        luf.n = n ∧ luf.lu.length = n * n ∧ (Lost p luf ∨ ∃ F q, FactoredR (1 / 2 ^ p) A luf F q)) := by
  refine ⟨?_, luR_main hp fused A hA m H⟩
  unfold Matrix.LUR
  rw [if_neg (by simp)]
  exact luR_main hp fused A hA m H (newLUFactors n) rfl (by simp [newLUFactors]) (by simp [newLUFactors])

/-- The stored factors, seen as a matrix whose rows are exchanged back. -/
theorem FactoredR.backward {n : Nat} {u : ℚ} {A : _root_.Matrix (Fin n) (Fin n) ℚ} {luf : LUFactors}
    {F : _root_.Matrix (Fin n) (Fin n) ℚ} {q : Fin n → Fin n} (h : FactoredR u A luf F q) :
    ∃ E : _root_.Matrix (Fin n) (Fin n) ℚ, (A + E).submatrix (rowOrder q n) id = lower F * upper F ∧
      ∀ i j, |E (rowOrder q n i) j| ≤ ((1 + u) ^ (n - 1) - 1) * (absM (lower F) * absM (upper F)) i j := by
  refine ⟨_root_.Matrix.of fun i j => (lower F * upper F) ((rowOrder q n).symm i) j - A i j, ?_, ?_⟩
  · ext i j
    simp [_root_.Matrix.submatrix_apply, _root_.Matrix.add_apply]
  · intro i j
    rw [_root_.Matrix.of_apply, Equiv.symm_apply_apply]
    exact h.mul i j

/-- The running product in `Determinant`. -/
def prods (f : FP) (d : ℚ) (a : Nat → ℚ) : Nat → ℚ
  | 0 => d
  | k + 1 => f.fl (prods f d a k * a k)

theorem prods_err {f : FP} {u : ℚ} (h : f.Laws u) (d : ℚ) (a : Nat → ℚ) (k : Nat) :
    |prods f d a k - d * ∏ i ∈ Finset.range k, a i| ≤ ((1 + u) ^ k - 1) * |d * ∏ i ∈ Finset.range k, a i| := by
  have hu := h.nonneg
  induction k with
  | zero => simp [prods]
  | succ k ih =>
    rw [prods, Finset.prod_range_succ, ← mul_assoc]
    have h1 := h.err (prods f d a k * a k)
    generalize prods f d a k = x at *
    generalize (d * ∏ i ∈ Finset.range k, a i) = y at *
    have h2 : |x * a k - y * a k| ≤ ((1 + u) ^ k - 1) * |y * a k| := by
      rw [← sub_mul, abs_mul, abs_mul, ← mul_assoc]
      exact mul_le_mul_of_nonneg_right ih (abs_nonneg _)
    generalize x * a k = x' at *
    generalize y * a k = y' at *
    have h3 : |x'| ≤ |y'| + |x' - y'| := by
      have := abs_add_le y' (x' - y')
      rwa [add_sub_cancel] at this
    have h4 := abs_sub_le (f.fl x') x' y'
    have h5 : u * |x'| ≤ u * (|y'| + ((1 + u) ^ k - 1) * |y'|) := mul_le_mul_of_nonneg_left (by linarith) hu
    rw [pow_succ]
    nlinarith

theorem determinantR_eq (f : FP) {n : Nat} (luf : LUFactors) (hn : luf.n = n) {M : Nat → Nat → ℚ} (r : Rep luf.lu n n M) :
    luf.determinantR f = some (prods f luf.d (fun i => M i i) n) := by
  unfold LUFactors.determinantR
  obtain ⟨d, ed, hd⟩ := forRange_nat (fun k d => d = prods f luf.d (fun i => M i i) k)
    (lo := 0) (hi := n) (Nat.zero_le _) (fun i d => do
    let x ← rd luf.lu (i * n + i)
    some (f.fl (d * x))) luf.d rfl (by
      intro k d _ hk hd
      refine ⟨_, bind_of (r.rd hk hk) rfl, ?_⟩
      rw [hd]
      rfl)
  rw [Nat.cast_zero] at ed
  rw [hn, ed, hd]

/-- C138: the determinant is, up to `(1 + 2^-p)^n - 1` of its size, that of a matrix `A + E` near the one given. -/
theorem C138_determinant {p : ℕ} (hp : 0 < p) (fused : Bool) {n : Nat} (A : _root_.Matrix (Fin n) (Fin n) ℚ)
    (hA : ∀ i, ∃ j, A i j ≠ 0) (m : List ℚ) (H : Holds m A) :
    ∃ luf d, Matrix.LUR (fp p fused) ⟨m, n, n⟩ = some luf ∧ Matrix.determinantR (fp p fused) ⟨m, n, n⟩ = some d ∧
      (Lost p luf ∨ ∃ F q, FactoredR (1 / 2 ^ p) A luf F q ∧ ∃ E : _root_.Matrix (Fin n) (Fin n) ℚ,
        (∀ i j, |E (rowOrder q n i) j| ≤ ((1 + 1 / 2 ^ p) ^ (n - 1) - 1) * (absM (lower F) * absM (upper F)) i j) ∧
        |d - (A + E).det| ≤ ((1 + 1 / 2 ^ p) ^ n - 1) * |(A + E).det|) := by
  have hf := fp_laws hp fused
  obtain ⟨⟨luf, e, hsz, hlen, hl⟩, -⟩ := C138_factors hp fused A hA m H
  have ed := determinantR_eq (fp p fused) luf hsz (rep_fnOf hlen)
  refine ⟨luf, _, e, bind_of e ed, ?_⟩
  rcases hl with hl | ⟨F, q, h⟩
  · exact Or.inl hl
  · right
    obtain ⟨E, h1, h2⟩ := h.backward
    refine ⟨F, q, h, E, h2, ?_⟩
    have hdet : ((Equiv.Perm.sign (rowOrder q n) : ℤ) : ℚ) * (A + E).det = ∏ i, F i i := by
      have := congrArg _root_.Matrix.det h1
      rwa [_root_.Matrix.det_permute, _root_.Matrix.det_mul, det_lower, det_upper, one_mul] at this
    have hpr : ∏ i ∈ Finset.range n, fnOf luf.lu n i i = ∏ i, F i i := by
      rw [Finset.prod_range]
      exact Finset.prod_congr rfl fun i _ => (h.holds.eq_fnOf i i).symm
    have hs : ((Equiv.Perm.sign (rowOrder q n) : ℤ) : ℚ) * ((Equiv.Perm.sign (rowOrder q n) : ℤ) : ℚ) = 1 := by
      rcases Int.units_eq_one_or (Equiv.Perm.sign (rowOrder q n)) with h | h <;> rw [h] <;> simp
    have := prods_err hf luf.d (fun i => fnOf luf.lu n i i) n
    rw [hpr, ← hdet, h.sign, ← mul_assoc, hs, one_mul] at this
    rw [h.sign]
    exact this

/-- The hypotheses are met: `[0 3 1; 3 1 0; 1 1 3]` has no zero row. In single precision the factorisation exchanges two rows, no
column lacks a pivot, and the entries `1/3` are rounded. -/
example : (∀ i, ∃ j, (_root_.Matrix.of ![![0, (3 : ℚ), 1], ![3, 1, 0], ![1, 1, 3]]) i j ≠ 0) ∧
    (Matrix.LUR (fp 24 false) ⟨[0, 3, 1, 3, 1, 0, 1, 1, 3], 3, 3⟩).map (fun l => (l.lu, l.pivot, l.d)) =
      some ([3, 1, 0, 0, 3, 1, 11184811 / 33554432, 1864135 / 8388608, 2912711 / 1048576], [1, 1, 2], -1) ∧
    Matrix.determinantR (fp 24 false) ⟨[0, 3, 1, 3, 1, 0, 1, 1, 3], 3, 3⟩ = some (-25) :=
  ⟨fun i => match i with
    | 0 => ⟨1, by decide +kernel⟩
    | 1 => ⟨0, by decide +kernel⟩
    | 2 => ⟨0, by decide +kernel⟩, by decide +kernel, by decide +kernel⟩

/-- Without a pivot: the rows of `[1 2; 2 4]` are exchanged upwards in the second column. -/
example : (Matrix.LUR (fp 53 true) ⟨[1, 2, 2, 4], 2, 2⟩).map (·.pivot) = some [0, 0] ∧
    Matrix.determinantR (fp 53 true) ⟨[1, 2, 2, 4], 2, 2⟩ = some (-4) := by decide +kernel

end Verif.Mat
