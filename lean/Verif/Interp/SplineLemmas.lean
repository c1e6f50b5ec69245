import Verif.Interp.TriDiag

/-! What the spline constructor computes. -/

namespace Verif.Interp

open Verif.Go

section
variable (X Y : Nat → ℚ)

/-- Sub-diagonal of the spline system. -/
def sA (i : Nat) : ℚ := (X (i + 1) - X i) / 6
/-- Diagonal of the spline system. -/
def sB (i : Nat) : ℚ := (X (i + 2) - X i) / 3
/-- Super-diagonal of the spline system. -/
def sC (i : Nat) : ℚ := (X (i + 2) - X (i + 1)) / 6
/-- Right-hand side of the spline system. -/
def sR (i : Nat) : ℚ :=
  (Y (i + 2) - Y (i + 1)) / (X (i + 2) - X (i + 1)) - (Y (i + 1) - Y i) / (X (i + 1) - X i)

/-- The second derivatives at the knots. -/
def sS (n k : Nat) : ℚ :=
  if k = 0 ∨ n ≤ k + 1 then 0
  else tU (sA X) (sB X) (sC X) (sR X Y) (n - 2) (n - 2 - 1 - (k - 1))

/-- The coefficients of piece `i`. -/
def sK (S : Nat → ℚ) (i : Nat) : Coeff where
  a := (-S i / 6 + S (i + 1) / 6) / (X (i + 1) - X i)
  b := S i / 2
  c := (Y (i + 1) - Y i) / (X (i + 1) - X i) + (X (i + 1) - X i) * (-S i / 3 - S (i + 1) / 6)
  d := Y i

/-- The pivots of the spline system do not vanish. -/
def sOk (n : Nat) : Prop := 1 ≤ n - 2 ∧ ∀ i < n - 2, tBet (sA X) (sB X) (sC X) i ≠ 0

end

theorem y2Rows {xs ys : List ℚ} {X Y : Nat → ℚ} {n : Nat} (hn : 2 ≤ n)
    (hx : ∀ i < n, xs[i]? = some (X i)) (hy : ∀ i < n, ys[i]? = some (Y i)) :
    ∃ as bs cs rs, forRange 0 ((n : Int) - 2) (y2Row xs ys)
        (List.replicate (n - 2) 0, List.replicate (n - 2) 0, List.replicate (n - 2) 0,
          List.replicate (n - 2) 0) = some (as, bs, cs, rs) ∧
      as.length = n - 2 ∧ bs.length = n - 2 ∧ cs.length = n - 2 ∧ rs.length = n - 2 ∧
      (∀ i < n - 2, as[i]? = some (sA X i)) ∧ (∀ i < n - 2, bs[i]? = some (sB X i)) ∧
      (∀ i < n - 2, cs[i]? = some (sC X i)) ∧ ∀ i < n - 2, rs[i]? = some (sR X Y i) := by
  have fill : ∀ (F : Nat → ℚ) (l : List ℚ) (k : Nat), k < n - 2 → l.length = n - 2 →
      (∀ i < k, l[i]? = some (F i)) → ∀ v, v = F k →
      ((l.set k v).length = n - 2 ∧ ∀ i < k + 1, (l.set k v)[i]? = some (F i)) := by
    intro F l k hk hl h v hv
    refine ⟨by simpa using hl, ?_⟩
    intro i hi
    rw [List.getElem?_set]
    by_cases e : k = i
    · subst e; rw [if_pos rfl, if_pos (by omega), hv]
    · rw [if_neg e]; exact h i (by omega)
  obtain ⟨⟨as, bs, cs, rs⟩, e, ⟨l1, h1⟩, ⟨l2, h2⟩, ⟨l3, h3⟩, l4, h4⟩ := forRange_nat
    (fun k (s : List ℚ × List ℚ × List ℚ × List ℚ) =>
      (s.1.length = n - 2 ∧ ∀ i < k, s.1[i]? = some (sA X i)) ∧
      (s.2.1.length = n - 2 ∧ ∀ i < k, s.2.1[i]? = some (sB X i)) ∧
      (s.2.2.1.length = n - 2 ∧ ∀ i < k, s.2.2.1[i]? = some (sC X i)) ∧
      (s.2.2.2.length = n - 2 ∧ ∀ i < k, s.2.2.2[i]? = some (sR X Y i)))
    (lo := 0) (hi := n - 2) (by omega) (y2Row xs ys)
    (List.replicate (n - 2) 0, List.replicate (n - 2) 0, List.replicate (n - 2) 0,
      List.replicate (n - 2) 0) (by simp) (by
      rintro k ⟨as, bs, cs, rs⟩ _ hk ⟨⟨l1, h1⟩, ⟨l2, h2⟩, ⟨l3, h3⟩, l4, h4⟩
      simp only at l1 h1 l2 h2 l3 h3 l4 h4
      have a1 : rd xs ((k : Int) + 1) = some (X (k + 1)) := rd_fn_nat hx (k + 1) (by push_cast; rfl) (by omega)
      have a2 : rd xs ((k : Int) + 1 - 1) = some (X k) := rd_fn_nat hx k (by ring) (by omega)
      have a3 : rd xs ((k : Int) + 1 + 1) = some (X (k + 2)) :=
        rd_fn_nat hx (k + 2) (by push_cast; ring) (by omega)
      have b1 : rd ys ((k : Int) + 1) = some (Y (k + 1)) := rd_fn_nat hy (k + 1) (by push_cast; rfl) (by omega)
      have b2 : rd ys ((k : Int) + 1 - 1) = some (Y k) := rd_fn_nat hy k (by ring) (by omega)
      have b3 : rd ys ((k : Int) + 1 + 1) = some (Y (k + 2)) :=
        rd_fn_nat hy (k + 2) (by push_cast; ring) (by omega)
      refine ⟨(as.set k (sA X k), bs.set k (sB X k), cs.set k (sC X k), rs.set k (sR X Y k)), ?_, ?_⟩
      · unfold y2Row
        simp only [a1, a2, a3, b1, b2, b3, bind, Option.bind_some,
          wr_natCast (show k < as.length by omega), wr_natCast (show k < bs.length by omega),
          wr_natCast (show k < cs.length by omega), wr_natCast (show k < rs.length by omega)]
        rfl
      · exact ⟨fill _ as k hk l1 h1 _ rfl, fill _ bs k hk l2 h2 _ rfl, fill _ cs k hk l3 h3 _ rfl,
          fill _ rs k hk l4 h4 _ rfl⟩)
  rw [Nat.cast_zero, show ((n - 2 : Nat) : Int) = (n : Int) - 2 by omega] at e
  exact ⟨as, bs, cs, rs, e, l1, l2, l3, l4, h1, h2, h3, h4⟩

open Classical in
theorem calcY2s_eq {xs ys y2s : List ℚ} {X Y : Nat → ℚ} {n : Nat} (hn : 2 ≤ n) (lx : xs.length = n)
    (hx : ∀ i < n, xs[i]? = some (X i)) (hy : ∀ i < n, ys[i]? = some (Y i)) (l2 : y2s.length = n) :
    calcY2s xs ys y2s = if sOk X n then some ((List.range n).map (sS X Y n)) else none := by
  obtain ⟨as, bs, cs, rs, e, la, lb, lc, lr, ha, hb, hc, hr⟩ := y2Rows hn hx hy
  unfold calcY2s
  simp only [lx]
  rw [if_neg (by omega)]
  have t : ((n : Int) - 2).toNat = n - 2 := by omega
  have t' : ((n : Int) - 1).toNat = n - 1 := by omega
  have w0 : wr y2s 0 0 = some (y2s.set 0 0) := wr_natCast (i := 0) (by omega)
  have w1 : wr (y2s.set 0 0) ((n : Int) - 1) 0 = some ((y2s.set 0 0).set (n - 1) 0) := by
    rw [show (n : Int) - 1 = ((n - 1 : Nat) : Int) by omega]
    exact wr_natCast (by simp; omega)
  simp only [t, t', w0, w1, bind, Option.bind_some, e]
  rw [triDiagAt_eq ha hb hc hr la lb lc lr (by simp; omega)]
  by_cases c : sOk X n
  · have c' : 1 ≤ n - 2 ∧ ∀ i < n - 2, tBet (sA X) (sB X) (sC X) i ≠ 0 := c
    rw [if_pos c, if_pos c']
    simp only [Option.bind_some]
    congr 1
    apply List.ext_getElem?
    intro i
    have c1 := c.1
    have e1 : (((y2s.set 0 0).set (n - 1) 0).take 1) = [0] := by
      apply List.ext_getElem?
      intro i
      rcases i with _ | i
      · simp [List.getElem?_set, show n ≠ 1 by omega, show 0 < n by omega, l2, show ¬ n - 1 = 0 by omega]
      · simp [List.getElem?_take]
    have e2 : (((y2s.set 0 0).set (n - 1) 0).drop (n - 1)) = [0] := by
      apply List.ext_getElem?
      intro i
      rcases i with _ | i
      · simp [List.getElem?_set, l2, show n - 1 < n by omega]
      · rw [List.getElem?_drop, List.getElem?_eq_none (by simp; omega)]
        simp
    rw [e1, e2]
    rcases i with _ | i
    · simp [sS, show 0 < n by omega]
    · rw [List.append_assoc, List.singleton_append, List.getElem?_cons_succ]
      by_cases hi : i < n - 2
      · rw [List.getElem?_append_left (by simpa using hi)]
        simp [hi, sS, show i + 1 < n by omega, show ¬ (n ≤ i + 1 + 1) by omega]
      · rw [List.getElem?_append_right (by simp; omega)]
        by_cases hi' : i = n - 2
        · subst hi'
          simp [sS, show n - 2 + 1 < n by omega, show n ≤ n - 2 + 1 + 1 by omega]
        · rw [List.getElem?_eq_none (by simp; omega), List.getElem?_eq_none (by simp; omega)]
  · have c' : ¬ (1 ≤ n - 2 ∧ ∀ i < n - 2, tBet (sA X) (sB X) (sC X) i ≠ 0) := c
    rw [if_neg c, if_neg c']
    rfl

theorem calcCoeffs_eq {xs ys y2s : List ℚ} {X Y S : Nat → ℚ} {n : Nat} (hn : 2 ≤ n)
    (hx : ∀ i < n, xs[i]? = some (X i)) (hy : ∀ i < n, ys[i]? = some (Y i))
    (hs : ∀ i < n, y2s[i]? = some (S i)) {co : List Coeff} (lc : co.length = n - 1) :
    calcCoeffs xs ys y2s co = some ((List.range (n - 1)).map (sK X Y S)) := by
  unfold calcCoeffs
  rw [lc]
  obtain ⟨r, e, l, h⟩ := forRange_fill (sK X Y S) (lo := 0) (hi := n - 1) (n := n - 1) (by omega) le_rfl co lc
    (fun i coeffs => do
      let x1 ← rd xs (i + 1)
      let x0 ← rd xs i
      let dx := x1 - x0
      let s0 ← rd y2s i
      let s1 ← rd y2s (i + 1)
      let y1 ← rd ys (i + 1)
      let y0 ← rd ys i
      wr coeffs i
        { a := (-s0 / 6 + s1 / 6) / dx
          b := s0 / 2
          c := (y1 - y0) / dx + dx * (-s0 / 3 - s1 / 6)
          d := y0 }) (by
      intro k st _ hk _ _
      have a1 : rd xs ((k : Int) + 1) = some (X (k + 1)) := rd_fn_nat hx (k + 1) (by push_cast; rfl) (by omega)
      have a2 : rd xs (k : Int) = some (X k) := rd_fn_nat hx k rfl (by omega)
      have b1 : rd ys ((k : Int) + 1) = some (Y (k + 1)) := rd_fn_nat hy (k + 1) (by push_cast; rfl) (by omega)
      have b2 : rd ys (k : Int) = some (Y k) := rd_fn_nat hy k rfl (by omega)
      have c1 : rd y2s ((k : Int) + 1) = some (S (k + 1)) := rd_fn_nat hs (k + 1) (by push_cast; rfl) (by omega)
      have c2 : rd y2s (k : Int) = some (S k) := rd_fn_nat hs k rfl (by omega)
      simp only [a1, a2, b1, b2, c1, c2, bind, Option.bind_some]
      rfl)
  rw [Nat.cast_zero] at e
  rw [e]
  congr 1
  apply List.ext_getElem?
  intro i
  rw [h i]
  by_cases hi : i < n - 1
  · rw [if_pos (by omega)]; simp [hi]
  · rw [if_neg (by omega), List.getElem?_eq_none (by omega), List.getElem?_eq_none (by simp; omega)]

/-! ### Strictly monotone tables -/

/-- `X` is strictly increasing (`s = 1`) or strictly decreasing (`s = -1`) on `0..n-1`. -/
structure Dir (s : ℚ) (X : Nat → ℚ) (n : Nat) : Prop where
  sgn : s = 1 ∨ s = -1
  lt : ∀ i j, i < j → j < n → s * X i < s * X j

theorem Dir.ne {s : ℚ} {X : Nat → ℚ} {n : Nat} (d : Dir s X n) {i : Nat} (h : i + 1 < n) :
    X (i + 1) - X i ≠ 0 := by
  have := d.lt i (i + 1) (by omega) h
  intro e
  rw [sub_eq_zero.mp e] at this
  exact lt_irrefl _ this

theorem Dir.dominant {s : ℚ} {X : Nat → ℚ} {n : Nat} (d : Dir s X n) (i : Nat) (hi : i < n - 2) :
    (if i = 0 then 0 else |sA X i|) + (if i + 1 = n - 2 then 0 else |sC X i|) < |sB X i| := by
  have h1 := d.lt i (i + 1) (by omega) (by omega)
  have h2 := d.lt (i + 1) (i + 2) (by omega) (by omega)
  have key : |sA X i| + |sC X i| < |sB X i| := by
    unfold sA sB sC
    rcases d.sgn with e | e
    · rw [e] at h1 h2
      simp only [one_mul] at h1 h2
      rw [abs_of_pos (div_pos (by linarith) (by norm_num)), abs_of_pos (div_pos (by linarith) (by norm_num)),
        abs_of_pos (div_pos (by linarith) (by norm_num))]
      linarith
    · rw [e] at h1 h2
      simp only [neg_mul, one_mul, neg_lt_neg_iff] at h1 h2
      rw [abs_of_neg (div_neg_of_neg_of_pos (by linarith) (by norm_num)),
        abs_of_neg (div_neg_of_neg_of_pos (by linarith) (by norm_num)),
        abs_of_neg (div_neg_of_neg_of_pos (by linarith) (by norm_num))]
      linarith
  have p1 := abs_nonneg (sA X i)
  have p2 := abs_nonneg (sC X i)
  split <;> split <;> linarith

theorem Dir.ok {s : ℚ} {X : Nat → ℚ} {n : Nat} (d : Dir s X n) (hn : 3 ≤ n) : sOk X n := by
  refine ⟨by omega, ?_⟩
  intro i hi hz
  have := tri_dominant (A := sA X) (B := sB X) (C := sC X) (n := n - 2)
    (fun i hi => d.dominant i hi) i hi
  rw [hz, abs_zero] at this
  split at this
  · exact lt_irrefl _ this
  · exact absurd this (not_lt.mpr (abs_nonneg _))

/-- The rows of the spline system. -/
theorem sS_row {X Y : Nat → ℚ} {n : Nat} (h : sOk X n) {i : Nat} (hi : i < n - 2) :
    sA X i * sS X Y n i + sB X i * sS X Y n (i + 1) + sC X i * sS X Y n (i + 2) = sR X Y i := by
  have key := tri_solves (A := sA X) (B := sB X) (C := sC X) (R := sR X Y) h.2 i hi
  rw [← key]
  have e0 : sA X i * sS X Y n i =
      if i = 0 then 0 else sA X i * tU (sA X) (sB X) (sC X) (sR X Y) (n - 2) (n - 2 - 1 - (i - 1)) := by
    by_cases c : i = 0
    · rw [if_pos c, sS, if_pos (Or.inl c), mul_zero]
    · rw [if_neg c, sS, if_neg (by omega)]
  have e1 : sS X Y n (i + 1) = tU (sA X) (sB X) (sC X) (sR X Y) (n - 2) (n - 2 - 1 - i) := by
    rw [sS, if_neg (by omega)]; rfl
  have e2 : sC X i * sS X Y n (i + 2) = if i + 1 = n - 2 then 0
      else sC X i * tU (sA X) (sB X) (sC X) (sR X Y) (n - 2) (n - 2 - 1 - (i + 1)) := by
    by_cases c : i + 1 = n - 2
    · rw [if_pos c, sS, if_pos (by omega), mul_zero]
    · rw [if_neg c, sS, if_neg (by omega)]; rfl
  rw [e0, e1, e2]

theorem checkSorted_ok {xs : List ℚ} {X : Nat → ℚ} {n : Nat} (hl : xs.length = n) (hn : 2 ≤ n)
    (hx : ∀ i < n, xs[i]? = some (X i)) (bad : ℚ → ℚ → Bool)
    (h : ∀ i, i + 1 < n → bad (X (i + 1)) (X i) = false) : checkSorted xs bad = some () := by
  unfold checkSorted
  rw [hl]
  obtain ⟨r, e, _⟩ := forRange_nat (fun _ (_ : Unit) => True) (lo := 0) (hi := n - 1) (by omega)
    (fun i _ => do
      let b ← rd xs (i + 1)
      let a ← rd xs i
      if bad b a then none else some ()) () trivial (by
      intro k _ _ hk _
      have a1 : rd xs ((k : Int) + 1) = some (X (k + 1)) := rd_fn_nat hx (k + 1) (by push_cast; rfl) (by omega)
      have a2 : rd xs (k : Int) = some (X k) := rd_fn_nat hx k rfl (by omega)
      simp only [a1, a2, bind, Option.bind_some, h k (by omega)]
      exact ⟨(), rfl, trivial⟩)
  rw [Nat.cast_zero, show ((n - 1 : Nat) : Int) = (n : Int) - 1 by omega] at e
  rw [e]

/-- What is known of a spline object built for the knots `X`, `Y`. -/
structure Spline.For (sp : Spline) (s : ℚ) (X Y : Nat → ℚ) (n : Nat) : Prop where
  three : 3 ≤ n
  dir : Dir s X n
  lx : sp.xs.length = n
  ly : sp.ys.length = n
  hx : ∀ i < n, sp.xs[i]? = some (X i)
  hy : ∀ i < n, sp.ys[i]? = some (Y i)
  hk : ∀ i < n - 1, sp.coeffs[i]? = some (sK X Y (sS X Y n) i)
  l2 : sp.y2s.length = n
  lk : sp.coeffs.length = n - 1
  incr : sp.incr = decide (s = 1)

/-- `Init` on a spline object of the right size, whatever it held before, for a strictly monotone table. -/
theorem spline_init {xs ys : List ℚ} {X Y : Nat → ℚ} {n : Nat} {s : ℚ} (hn : 3 ≤ n) (d : Dir s X n)
    (lx : xs.length = n) (ly : ys.length = n)
    (hx : ∀ i < n, xs[i]? = some (X i)) (hy : ∀ i < n, ys[i]? = some (Y i)) :
    ∃ sp : Spline, sp.For s X Y n ∧ sp.xs = xs ∧ sp.ys = ys ∧ ∀ sp0 : Spline,
      sp0.xs.length = n → sp0.ys.length = n → sp0.y2s.length = n → sp0.coeffs.length = n - 1 →
      sp0.init xs ys = some sp := by
  classical
  let y2s := (List.range n).map (sS X Y n)
  let co := (List.range (n - 1)).map (sK X Y (sS X Y n))
  refine ⟨⟨xs, ys, y2s, co, decide (s = 1), (X (n - 1) - X 0) / (((n : Int) - 1 : Int) : ℚ)⟩,
    ⟨hn, d, lx, ly, hx, hy, ?_, by simp [y2s], by simp [co], rfl⟩, rfl, rfl, ?_⟩
  · intro i hi
    simp [co, hi]
  intro sp0 l1 l2 l3 l4
  unfold Spline.init
  rw [if_neg (by omega)]
  have r0 : rd xs 0 = some (X 0) := rd_fn_nat hx 0 rfl (by omega)
  have r1 : rd xs 1 = some (X 1) := rd_fn_nat hx 1 rfl (by omega)
  have rl : rd xs ((n : Int) - 1) = some (X (n - 1)) := rd_fn_nat hx (n - 1) (by omega) (by omega)
  have inc : decide (X 0 < X 1) = decide (s = 1) := by
    have := d.lt 0 1 (by omega) (by omega)
    rcases d.sgn with e | e
    · rw [e] at this ⊢; simp only [one_mul] at this; simp [this]
    · rw [e] at this ⊢; simp only [neg_mul, one_mul, neg_lt_neg_iff] at this
      rw [decide_eq_false (by linarith), decide_eq_false (by norm_num)]
  have chk : checkSorted xs (if decide (s = 1) = true then (fun b a => decide (b < a))
      else (fun b a => decide (b > a))) = some () := by
    apply checkSorted_ok lx (by omega) hx
    intro i hi
    have := d.lt i (i + 1) (by omega) hi
    rcases d.sgn with e | e
    · rw [e] at this ⊢; simp only [one_mul] at this; simp; linarith
    · rw [e] at this ⊢; simp only [neg_mul, one_mul, neg_lt_neg_iff] at this
      rw [if_neg (by norm_num)]; simp; linarith
  have hs : ∀ i < n, y2s[i]? = some (sS X Y n i) := by intro i hi; simp [y2s, hi]
  simp only [lx, r0, r1, rl, bind, Option.bind_some, inc, chk]
  rw [calcY2s_eq (by omega) lx hx hy l3, if_pos (d.ok hn)]
  simp only [Option.bind_some]
  rw [calcCoeffs_eq (by omega) hx hy hs l4]
  simp only [Option.bind_some]
  rfl

/-- `NewSpline` on a strictly monotone table. -/
theorem spline_new {xs ys : List ℚ} {X Y : Nat → ℚ} {n : Nat} {s : ℚ} (hn : 3 ≤ n) (d : Dir s X n)
    (lx : xs.length = n) (ly : ys.length = n)
    (hx : ∀ i < n, xs[i]? = some (X i)) (hy : ∀ i < n, ys[i]? = some (Y i)) :
    ∃ sp : Spline, newSpline xs ys = some sp ∧ sp.For s X Y n ∧ sp.xs = xs ∧ sp.ys = ys ∧
      ∀ sp0 : Spline, sp0.xs.length = n → sp0.ys.length = n → sp0.y2s.length = n →
        sp0.coeffs.length = n - 1 → sp0.init xs ys = some sp := by
  obtain ⟨sp, h1, h2, h3, h4⟩ := spline_init hn d lx ly hx hy
  refine ⟨sp, ?_, h1, h2, h3, h4⟩
  unfold newSpline
  rw [if_neg (by omega), if_neg (by omega)]
  exact h4 _ lx ly (by simpa using lx) (by simp [lx])

/-! ### Evaluation -/

/-- `x` lies in cell `i`. -/
def Brk (s : ℚ) (X : Nat → ℚ) (i : Nat) (x : ℚ) : Prop := s * X i ≤ s * x ∧ s * x ≤ s * X (i + 1)

/-- The cubic of piece `i`. -/
def pc (X Y S : Nat → ℚ) (i : Nat) (x : ℚ) : ℚ :=
  (sK X Y S i).a * (x - X i) * (x - X i) * (x - X i) + (sK X Y S i).b * (x - X i) * (x - X i) +
    (sK X Y S i).c * (x - X i) + (sK X Y S i).d

theorem pc_left (X Y S : Nat → ℚ) (i : Nat) : pc X Y S i (X i) = Y i := by
  simp [pc, sK]

theorem pc_right {s : ℚ} {X : Nat → ℚ} {n : Nat} (d : Dir s X n) (Y S : Nat → ℚ) {i : Nat}
    (hi : i + 1 < n) : pc X Y S i (X (i + 1)) = Y (i + 1) := by
  have := d.ne hi
  unfold pc sK
  field_simp
  ring

theorem mul_left_inj_sgn {s a b : ℚ} (h : s = 1 ∨ s = -1) (e : s * a = s * b) : a = b := by
  rcases h with h | h <;> subst h <;> linarith

/-- Two cells containing `x` are the same or share `x` as a knot. -/
theorem brk_cases {s : ℚ} {X : Nat → ℚ} {n : Nat} (d : Dir s X n) {x : ℚ} {i j : Nat} (hi : i + 1 < n)
    (hj : j + 1 < n) (bi : Brk s X i x) (bj : Brk s X j x) :
    i = j ∨ (j = i + 1 ∧ x = X j) ∨ (i = j + 1 ∧ x = X i) := by
  have lt_of : ∀ p q, p < q → q + 1 < n → Brk s X p x → Brk s X q x → q = p + 1 ∧ x = X q := by
    intro p q h1 h2 b1 b2
    rcases Nat.lt_or_ge (p + 1) q with h | h
    · have := d.lt (p + 1) q h (by omega)
      exact absurd (b2.1.trans b1.2) (not_le.mpr this)
    · obtain rfl : q = p + 1 := by omega
      exact ⟨rfl, mul_left_inj_sgn d.sgn (le_antisymm b1.2 b2.1)⟩
  rcases Nat.lt_trichotomy i j with h | h | h
  · right; left; exact lt_of i j h hj bi bj
  · left; exact h
  · right; right; exact lt_of j i h hi bj bi

theorem pc_indep {s : ℚ} {X : Nat → ℚ} {n : Nat} (d : Dir s X n) (Y S : Nat → ℚ) {x : ℚ} {i j : Nat}
    (hi : i + 1 < n) (hj : j + 1 < n) (bi : Brk s X i x) (bj : Brk s X j x) :
    pc X Y S i x = pc X Y S j x := by
  rcases brk_cases d hi hj bi bj with h | ⟨h, hx⟩ | ⟨h, hx⟩
  · rw [h]
  · subst h; rw [hx, pc_right d Y S hi, pc_left]
  · subst h; rw [hx, pc_right d Y S hj, pc_left]

theorem brk_range {s : ℚ} {X : Nat → ℚ} {n : Nat} (d : Dir s X n) {x : ℚ} {i : Nat} (hi : i + 1 < n)
    (b : Brk s X i x) : s * X 0 ≤ s * x ∧ s * x ≤ s * X (n - 1) := by
  constructor
  · rcases Nat.eq_zero_or_pos i with h | h
    · rw [h] at b; exact b.1
    · exact (d.lt 0 i h (by omega)).le.trans b.1
  · rcases Nat.lt_or_ge (i + 1) (n - 1) with h | h
    · exact b.2.trans (d.lt _ _ h (by omega)).le
    · have : i + 1 = n - 1 := by omega
      rw [← this]; exact b.2

/-- The spline's table search, whatever the guess. -/
theorem bsearchWith_spec {sp : Spline} {s : ℚ} {X Y : Nat → ℚ} {n : Nat} (f : sp.For s X Y n) {x : ℚ}
    (h0 : s * X 0 ≤ s * x) (h1 : s * x ≤ s * X (n - 1)) (g : Int) :
    ∃ i : Nat, sp.bsearchWith x g = some (i : Int) ∧ i + 1 < n ∧ Brk s X i x := by
  have hn := f.three
  obtain ⟨ok, e, h⟩ := guessOk_spec X n sp.xs f.lx f.hx sp.incr x g
  unfold Spline.bsearchWith
  simp only [e, bind, Option.bind_some]
  cases ok with
  | true =>
    obtain ⟨i, rfl, a, b, c⟩ := h rfl
    refine ⟨i, rfl, a, ?_⟩
    rw [f.incr] at b c
    unfold Brk
    rcases f.dir.sgn with e | e
    · rw [e] at b c ⊢
      simp at b c
      constructor <;> linarith
    · rw [e] at b c ⊢
      rw [decide_eq_false (show ¬ ((-1 : ℚ) = 1) by norm_num)] at b c
      simp at b c
      constructor <;> linarith
  | false =>
    obtain ⟨i, e1, a, b, c, d⟩ := bisect_spec X n sp.xs f.hx sp.incr x 0 (n - 1) (by omega) (by omega)
    refine ⟨i, ?_, by omega, ?_, ?_⟩
    · simp only [Bool.false_eq_true, if_false, f.lx, e1, Option.bind_some]
      rw [if_neg (by omega)]
    · rcases c with c | c
      · rw [c]; exact h0
      · rw [f.incr] at c
        rcases f.dir.sgn with e | e
        · rw [e] at c ⊢; simp at c; linarith
        · rw [e, decide_eq_false (show ¬ ((-1 : ℚ) = 1) by norm_num)] at c
          rw [e]; simp at c; linarith
    · rcases d with d | d
      · rw [d]; exact h1
      · rw [f.incr] at d
        rcases f.dir.sgn with e | e
        · rw [e] at d ⊢; simp at d; linarith
        · rw [e, decide_eq_false (show ¬ ((-1 : ℚ) = 1) by norm_num)] at d
          rw [e]; simp at d; linarith

theorem bsearch_spec {sp : Spline} {s : ℚ} {X Y : Nat → ℚ} {n : Nat} (f : sp.For s X Y n) {x : ℚ}
    (h0 : s * X 0 ≤ s * x) (h1 : s * x ≤ s * X (n - 1)) :
    ∃ i : Nat, sp.bsearch x = some (i : Int) ∧ i + 1 < n ∧ Brk s X i x := by
  have hn := f.three
  have r0 : rd sp.xs 0 = some (X 0) := rd_fn_nat f.hx 0 rfl (by omega)
  unfold Spline.bsearch
  simp only [r0, bind, Option.bind_some]
  exact bsearchWith_spec f h0 h1 _

theorem spline_eval {sp : Spline} {s : ℚ} {X Y : Nat → ℚ} {n : Nat} (f : sp.For s X Y n) {x : ℚ} {i : Nat}
    (hi : i + 1 < n) (b : Brk s X i x) : sp.eval x = some (pc X Y (sS X Y n) i x) := by
  have hn := f.three
  have r0 : rd sp.xs 0 = some (X 0) := rd_fn_nat f.hx 0 rfl (by omega)
  have rl : rd sp.xs ((sp.xs.length : Int) - 1) = some (X (n - 1)) :=
    rd_fn_nat f.hx (n - 1) (by rw [f.lx]; omega) (by omega)
  have y0 : rd sp.ys 0 = some (Y 0) := rd_fn_nat f.hy 0 rfl (by omega)
  have yl : rd sp.ys ((sp.ys.length : Int) - 1) = some (Y (n - 1)) :=
    rd_fn_nat f.hy (n - 1) (by rw [f.ly]; omega) (by omega)
  obtain ⟨g0, g1⟩ := brk_range f.dir hi b
  unfold Spline.eval
  simp only [r0, rl, bind, Option.bind_some]
  by_cases c : decide (x ≤ X 0) = sp.incr ∨ decide (x ≥ X (n - 1)) = sp.incr
  · rw [if_pos c]
    by_cases c0 : x = X 0
    · rw [if_pos c0, y0, c0, pc_indep f.dir Y _ hi (show 0 + 1 < n by omega) (c0 ▸ b)
        ⟨le_rfl, (f.dir.lt 0 1 (by omega) (by omega)).le⟩, pc_left]
    · rw [if_neg c0]
      by_cases c1 : x = X (n - 1)
      · obtain ⟨m, hm⟩ : ∃ m, n - 1 = m + 1 := ⟨n - 2, by omega⟩
        rw [if_pos c1, yl, c1, pc_indep f.dir Y _ hi (show m + 1 < n by omega) (c1 ▸ b)
          ⟨by rw [hm]; exact (f.dir.lt m (m + 1) (by omega) (by omega)).le, by rw [hm]⟩, hm,
          pc_right f.dir Y _ (by omega)]
      · exfalso
        rw [f.incr] at c
        have n0 : s * X 0 ≠ s * x := fun e => c0 (mul_left_inj_sgn f.dir.sgn e).symm
        have n1 : s * x ≠ s * X (n - 1) := fun e => c1 (mul_left_inj_sgn f.dir.sgn e)
        have l0 := lt_of_le_of_ne g0 n0
        have l1 := lt_of_le_of_ne g1 n1
        rcases f.dir.sgn with e | e
        · rw [e] at c l0 l1
          simp at c
          rcases c with c | c <;> linarith
        · rw [e, decide_eq_false (show ¬ ((-1 : ℚ) = 1) by norm_num)] at c
          rw [e] at l0 l1
          simp at c
          rcases c with c | c <;> linarith
  · rw [if_neg c]
    obtain ⟨j, e, hj, bj⟩ := bsearch_spec f g0 g1
    have rx : rd sp.xs (j : Int) = some (X j) := rd_fn_nat f.hx j rfl (by omega)
    have rk : rd sp.coeffs (j : Int) = some (sK X Y (sS X Y n) j) := rd_fn_nat f.hk j rfl (by omega)
    simp only [e, rx, rk, Option.bind_some]
    rw [← pc_indep f.dir Y _ hj hi bj b]
    rfl

theorem spline_eval_outside {sp : Spline} {s : ℚ} {X Y : Nat → ℚ} {n : Nat} (f : sp.For s X Y n) {x : ℚ}
    (h : s * x < s * X 0 ∨ s * X (n - 1) < s * x) : sp.eval x = none := by
  have hn := f.three
  have r0 : rd sp.xs 0 = some (X 0) := rd_fn_nat f.hx 0 rfl (by omega)
  have rl : rd sp.xs ((sp.xs.length : Int) - 1) = some (X (n - 1)) :=
    rd_fn_nat f.hx (n - 1) (by rw [f.lx]; omega) (by omega)
  have hlt := f.dir.lt 0 (n - 1) (by omega) (by omega)
  unfold Spline.eval
  simp only [r0, rl, bind, Option.bind_some]
  rw [if_pos, if_neg, if_neg]
  · rintro rfl; rcases h with h | h
    · exact absurd (h.trans hlt) (lt_irrefl _)
    · exact lt_irrefl _ h
  · rintro rfl; rcases h with h | h
    · exact lt_irrefl _ h
    · exact absurd (h.trans hlt) (lt_irrefl _)
  · rw [f.incr]
    rcases f.dir.sgn with e | e
    · rw [e] at h ⊢; simp only [one_mul] at h; simp
      rcases h with h | h
      · left; exact h.le
      · right; exact h.le
    · rw [e] at h ⊢; simp only [neg_mul, one_mul, neg_lt_neg_iff] at h
      rw [decide_eq_false (show ¬ ((-1 : ℚ) = 1) by norm_num)]; simp
      exact h

/-- Every argument in range lies in a cell. -/
theorem exists_brk {sp : Spline} {s : ℚ} {X Y : Nat → ℚ} {n : Nat} (f : sp.For s X Y n) {x : ℚ}
    (h0 : s * X 0 ≤ s * x) (h1 : s * x ≤ s * X (n - 1)) : ∃ i, i + 1 < n ∧ Brk s X i x := by
  obtain ⟨i, _, h⟩ := bsearch_spec f h0 h1
  exact ⟨i, h⟩

end Verif.Interp
