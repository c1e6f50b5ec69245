import Verif.Interp.RoundTri
import Verif.Interp.Spline

/-!
# Splines in machine arithmetic

What the constructor of `math/interpolate/spline.go` computes when every operation is rounded, and how far `Eval` is from
the natural spline through the same points (property C150).
-/

set_option autoImplicit false

namespace Verif.Interp

open Verif.Go Verif.Mat

section
variable (f : FP) (X Y : Nat → ℚ)

/-- Rounded sub-diagonal of the spline system. -/
def sAR (i : Nat) : ℚ := f.fl (f.fl (X (i + 1) - X i) / 6)
/-- Rounded diagonal of the spline system. -/
def sBR (i : Nat) : ℚ := f.fl (f.fl (X (i + 2) - X i) / 3)
/-- Rounded super-diagonal of the spline system. -/
def sCR (i : Nat) : ℚ := f.fl (f.fl (X (i + 2) - X (i + 1)) / 6)
/-- Rounded right-hand side of the spline system. -/
def sRR (i : Nat) : ℚ :=
  f.fl (f.fl (f.fl (Y (i + 2) - Y (i + 1)) / f.fl (X (i + 2) - X (i + 1))) -
    f.fl (f.fl (Y (i + 1) - Y i) / f.fl (X (i + 1) - X i)))

/-- The computed second derivatives at the knots. -/
def sSR (n k : Nat) : ℚ :=
  if k = 0 ∨ n ≤ k + 1 then 0
  else tUR f (sAR f X) (sBR f X) (sCR f X) (sRR f X Y) (n - 2) (n - 2 - 1 - (k - 1))

/-- The computed coefficients of piece `i`. -/
def sKR (S : Nat → ℚ) (i : Nat) : Coeff where
  a := f.fl (f.fl (f.fl (-S i / 6) + f.fl (S (i + 1) / 6)) / f.fl (X (i + 1) - X i))
  b := f.fl (S i / 2)
  c := f.mac (f.fl (f.fl (Y (i + 1) - Y i) / f.fl (X (i + 1) - X i))) (f.fl (X (i + 1) - X i))
    (f.fl (f.fl (-S i / 3) - f.fl (S (i + 1) / 6)))
  d := Y i

/-- The computed pivots of the spline system do not vanish. -/
def sOkR (n : Nat) : Prop := 1 ≤ n - 2 ∧ ∀ i < n - 2, tBetR f (sAR f X) (sBR f X) (sCR f X) i ≠ 0

end

/-- What is known of a spline object built for the knots `X`, `Y`. -/
structure Spline.ForR (sp : Spline) (f : FP) (s : ℚ) (X Y : Nat → ℚ) (n : Nat) : Prop where
  three : 3 ≤ n
  dir : Dir s X n
  lx : sp.xs.length = n
  ly : sp.ys.length = n
  hx : ∀ i < n, sp.xs[i]? = some (X i)
  hy : ∀ i < n, sp.ys[i]? = some (Y i)
  hk : ∀ i < n - 1, sp.coeffs[i]? = some (sKR f X Y (sSR f X Y n) i)
  l2 : sp.y2s.length = n
  lk : sp.coeffs.length = n - 1
  incr : sp.incr = decide (s = 1)

theorem y2RowsR {f : FP} {xs ys : List ℚ} {X Y : Nat → ℚ} {n : Nat} (hn : 2 ≤ n)
    (hx : ∀ i < n, xs[i]? = some (X i)) (hy : ∀ i < n, ys[i]? = some (Y i)) :
    ∃ as bs cs rs, forRange 0 ((n : Int) - 2) (y2RowR f xs ys)
        (List.replicate (n - 2) 0, List.replicate (n - 2) 0, List.replicate (n - 2) 0,
          List.replicate (n - 2) 0) = some (as, bs, cs, rs) ∧
      as.length = n - 2 ∧ bs.length = n - 2 ∧ cs.length = n - 2 ∧ rs.length = n - 2 ∧
      (∀ i < n - 2, as[i]? = some (sAR f X i)) ∧ (∀ i < n - 2, bs[i]? = some (sBR f X i)) ∧
      (∀ i < n - 2, cs[i]? = some (sCR f X i)) ∧ ∀ i < n - 2, rs[i]? = some (sRR f X Y i) := by
  have fill : ∀ (F : Nat → ℚ) (l : List ℚ) (k : Nat), k < n - 2 → l.length = n - 2 →
      (∀ i < k, l[i]? = some (F i)) → ∀ v, v = F k →
      ((l.set k v).length = n - 2 ∧ ∀ i < k + 1, (l.set k v)[i]? = some (F i)) := by
    intro F l k hk hl h v hv
    refine ⟨by simpa using hl, ?_⟩
    intro i hi
    rw [List.getElem?_set]
    by_cases e : k = i
    · subst e; rw [if_pos rfl, if_pos (by omega), hv]
    · rw [if_neg e]; exact h i (by omega)
  obtain ⟨⟨as, bs, cs, rs⟩, e, ⟨l1, h1⟩, ⟨l2, h2⟩, ⟨l3, h3⟩, l4, h4⟩ := forRange_nat
    (fun k (s : List ℚ × List ℚ × List ℚ × List ℚ) =>
      (s.1.length = n - 2 ∧ ∀ i < k, s.1[i]? = some (sAR f X i)) ∧
      (s.2.1.length = n - 2 ∧ ∀ i < k, s.2.1[i]? = some (sBR f X i)) ∧
      (s.2.2.1.length = n - 2 ∧ ∀ i < k, s.2.2.1[i]? = some (sCR f X i)) ∧
      (s.2.2.2.length = n - 2 ∧ ∀ i < k, s.2.2.2[i]? = some (sRR f X Y i)))
    (lo := 0) (hi := n - 2) (by omega) (y2RowR f xs ys)
    (List.replicate (n - 2) 0, List.replicate (n - 2) 0, List.replicate (n - 2) 0,
      List.replicate (n - 2) 0) (by simp) (by
      rintro k ⟨as, bs, cs, rs⟩ _ hk ⟨⟨l1, h1⟩, ⟨l2, h2⟩, ⟨l3, h3⟩, l4, h4⟩
      simp only at l1 h1 l2 h2 l3 h3 l4 h4
      have a1 : rd xs ((k : Int) + 1) = some (X (k + 1)) := rd_fn_nat hx (k + 1) (by push_cast; rfl) (by omega)
      have a2 : rd xs ((k : Int) + 1 - 1) = some (X k) := rd_fn_nat hx k (by ring) (by omega)
      have a3 : rd xs ((k : Int) + 1 + 1) = some (X (k + 2)) :=
        rd_fn_nat hx (k + 2) (by push_cast; ring) (by omega)
      have b1 : rd ys ((k : Int) + 1) = some (Y (k + 1)) := rd_fn_nat hy (k + 1) (by push_cast; rfl) (by omega)
      have b2 : rd ys ((k : Int) + 1 - 1) = some (Y k) := rd_fn_nat hy k (by ring) (by omega)
      have b3 : rd ys ((k : Int) + 1 + 1) = some (Y (k + 2)) :=
        rd_fn_nat hy (k + 2) (by push_cast; ring) (by omega)
      refine ⟨(as.set k (sAR f X k), bs.set k (sBR f X k), cs.set k (sCR f X k), rs.set k (sRR f X Y k)), ?_, ?_⟩
      · unfold y2RowR
        simp only [a1, a2, a3, b1, b2, b3, bind, Option.bind_some,
          wr_natCast (show k < as.length by omega), wr_natCast (show k < bs.length by omega),
          wr_natCast (show k < cs.length by omega), wr_natCast (show k < rs.length by omega)]
        rfl
      · exact ⟨fill _ as k hk l1 h1 _ rfl, fill _ bs k hk l2 h2 _ rfl, fill _ cs k hk l3 h3 _ rfl,
          fill _ rs k hk l4 h4 _ rfl⟩)
  rw [Nat.cast_zero, show ((n - 2 : Nat) : Int) = (n : Int) - 2 by omega] at e
  exact ⟨as, bs, cs, rs, e, l1, l2, l3, l4, h1, h2, h3, h4⟩

open Classical in
theorem calcY2s_eqR {f : FP} {xs ys y2s : List ℚ} {X Y : Nat → ℚ} {n : Nat} (hn : 2 ≤ n) (lx : xs.length = n)
    (hx : ∀ i < n, xs[i]? = some (X i)) (hy : ∀ i < n, ys[i]? = some (Y i)) (l2 : y2s.length = n) :
    calcY2sR f xs ys y2s = if sOkR f X n then some ((List.range n).map (sSR f X Y n)) else none := by
  obtain ⟨as, bs, cs, rs, e, la, lb, lc, lr, ha, hb, hc, hr⟩ := y2RowsR (f := f) hn hx hy
  unfold calcY2sR
  simp only [lx]
  rw [if_neg (by omega)]
  have t : ((n : Int) - 2).toNat = n - 2 := by omega
  have t' : ((n : Int) - 1).toNat = n - 1 := by omega
  have w0 : wr y2s 0 0 = some (y2s.set 0 0) := wr_natCast (i := 0) (by omega)
  have w1 : wr (y2s.set 0 0) ((n : Int) - 1) 0 = some ((y2s.set 0 0).set (n - 1) 0) := by
    rw [show (n : Int) - 1 = ((n - 1 : Nat) : Int) by omega]
    exact wr_natCast (by simp; omega)
  simp only [t, t', w0, w1, bind, Option.bind_some, e]
  rw [triDiagAtR_eq (f := f) ha hb hc hr la lb lc lr (by simp; omega)]
  by_cases c : sOkR f X n
  · have c' : 1 ≤ n - 2 ∧ ∀ i < n - 2, tBetR f (sAR f X) (sBR f X) (sCR f X) i ≠ 0 := c
    rw [if_pos c, if_pos c']
    simp only [Option.bind_some]
    congr 1
    apply List.ext_getElem?
    intro i
    have c1 := c.1
    have e1 : (((y2s.set 0 0).set (n - 1) 0).take 1) = [0] := by
      apply List.ext_getElem?
      intro i
      rcases i with _ | i
      · simp [List.getElem?_set, show n ≠ 1 by omega, show 0 < n by omega, l2, show ¬ n - 1 = 0 by omega]
      · simp [List.getElem?_take]
    have e2 : (((y2s.set 0 0).set (n - 1) 0).drop (n - 1)) = [0] := by
      apply List.ext_getElem?
      intro i
      rcases i with _ | i
      · simp [List.getElem?_set, l2, show n - 1 < n by omega]
      · rw [List.getElem?_drop, List.getElem?_eq_none (by simp; omega)]
        simp
    rw [e1, e2]
    rcases i with _ | i
    · simp [sSR, show 0 < n by omega]
    · rw [List.append_assoc, List.singleton_append, List.getElem?_cons_succ]
      by_cases hi : i < n - 2
      · rw [List.getElem?_append_left (by simpa using hi)]
        simp [hi, sSR, show i + 1 < n by omega, show ¬ (n ≤ i + 1 + 1) by omega]
      · rw [List.getElem?_append_right (by simp; omega)]
        by_cases hi' : i = n - 2
        · subst hi'
          simp [sSR, show n - 2 + 1 < n by omega, show n ≤ n - 2 + 1 + 1 by omega]
        · rw [List.getElem?_eq_none (by simp; omega), List.getElem?_eq_none (by simp; omega)]
  · have c' : ¬ (1 ≤ n - 2 ∧ ∀ i < n - 2, tBetR f (sAR f X) (sBR f X) (sCR f X) i ≠ 0) := c
    rw [if_neg c, if_neg c']
    rfl

theorem calcCoeffs_eqR {f : FP} {xs ys y2s : List ℚ} {X Y S : Nat → ℚ} {n : Nat} (hn : 2 ≤ n)
    (hx : ∀ i < n, xs[i]? = some (X i)) (hy : ∀ i < n, ys[i]? = some (Y i))
    (hs : ∀ i < n, y2s[i]? = some (S i)) {co : List Coeff} (lc : co.length = n - 1) :
    calcCoeffsR f xs ys y2s co = some ((List.range (n - 1)).map (sKR f X Y S)) := by
  unfold calcCoeffsR
  rw [lc]
  obtain ⟨r, e, l, h⟩ := forRange_fill (sKR f X Y S) (lo := 0) (hi := n - 1) (n := n - 1) (by omega) le_rfl co lc
    (fun i coeffs => do
      let x1 ← rd xs (i + 1)
      let x0 ← rd xs i
      let dx := f.fl (x1 - x0)
      let s0 ← rd y2s i
      let s1 ← rd y2s (i + 1)
      let y1 ← rd ys (i + 1)
      let y0 ← rd ys i
      wr coeffs i
        { a := f.fl (f.fl (f.fl (-s0 / 6) + f.fl (s1 / 6)) / dx)
          b := f.fl (s0 / 2)
          c := f.mac (f.fl (f.fl (y1 - y0) / dx)) dx (f.fl (f.fl (-s0 / 3) - f.fl (s1 / 6)))
          d := y0 }) (by
      intro k st _ hk _ _
      have a1 : rd xs ((k : Int) + 1) = some (X (k + 1)) := rd_fn_nat hx (k + 1) (by push_cast; rfl) (by omega)
      have a2 : rd xs (k : Int) = some (X k) := rd_fn_nat hx k rfl (by omega)
      have b1 : rd ys ((k : Int) + 1) = some (Y (k + 1)) := rd_fn_nat hy (k + 1) (by push_cast; rfl) (by omega)
      have b2 : rd ys (k : Int) = some (Y k) := rd_fn_nat hy k rfl (by omega)
      have c1 : rd y2s ((k : Int) + 1) = some (S (k + 1)) := rd_fn_nat hs (k + 1) (by push_cast; rfl) (by omega)
      have c2 : rd y2s (k : Int) = some (S k) := rd_fn_nat hs k rfl (by omega)
      simp only [a1, a2, b1, b2, c1, c2, bind, Option.bind_some]
      rfl)
  rw [Nat.cast_zero] at e
  rw [e]
  congr 1
  apply List.ext_getElem?
  intro i
  rw [h i]
  by_cases hi : i < n - 1
  · rw [if_pos (by omega)]; simp [hi]
  · rw [if_neg (by omega), List.getElem?_eq_none (by omega), List.getElem?_eq_none (by simp; omega)]

/-- `Init` on a spline object of the right size, whatever it held before, for a strictly monotone table. -/
theorem spline_initR {f : FP} {xs ys : List ℚ} {X Y : Nat → ℚ} {n : Nat} {s : ℚ} (hn : 3 ≤ n) (d : Dir s X n) (ok : sOkR f X n)
    (lx : xs.length = n) (ly : ys.length = n)
    (hx : ∀ i < n, xs[i]? = some (X i)) (hy : ∀ i < n, ys[i]? = some (Y i)) :
    ∃ sp : Spline, sp.ForR f s X Y n ∧ sp.xs = xs ∧ sp.ys = ys ∧ ∀ sp0 : Spline,
      sp0.xs.length = n → sp0.ys.length = n → sp0.y2s.length = n → sp0.coeffs.length = n - 1 →
      sp0.initR f xs ys = some sp := by
  classical
  let y2s := (List.range n).map (sSR f X Y n)
  let co := (List.range (n - 1)).map (sKR f X Y (sSR f X Y n))
  refine ⟨⟨xs, ys, y2s, co, decide (s = 1), f.fl (f.fl (X (n - 1) - X 0) / (((n : Int) - 1 : Int) : ℚ))⟩,
    ⟨hn, d, lx, ly, hx, hy, ?_, by simp [y2s], by simp [co], rfl⟩, rfl, rfl, ?_⟩
  · intro i hi
    simp [co, hi]
  intro sp0 l1 l2 l3 l4
  unfold Spline.initR
  rw [if_neg (by omega)]
  have r0 : rd xs 0 = some (X 0) := rd_fn_nat hx 0 rfl (by omega)
  have r1 : rd xs 1 = some (X 1) := rd_fn_nat hx 1 rfl (by omega)
  have rl : rd xs ((n : Int) - 1) = some (X (n - 1)) := rd_fn_nat hx (n - 1) (by omega) (by omega)
  have inc : decide (X 0 < X 1) = decide (s = 1) := by
    have := d.lt 0 1 (by omega) (by omega)
    rcases d.sgn with e | e
    · rw [e] at this ⊢; simp only [one_mul] at this; simp [this]
    · rw [e] at this ⊢; simp only [neg_mul, one_mul, neg_lt_neg_iff] at this
      rw [decide_eq_false (by linarith), decide_eq_false (by norm_num)]
  have chk : checkSorted xs (if decide (s = 1) = true then (fun b a => decide (b < a))
      else (fun b a => decide (b > a))) = some () := by
    apply checkSorted_ok lx (by omega) hx
    intro i hi
    have := d.lt i (i + 1) (by omega) hi
    rcases d.sgn with e | e
    · rw [e] at this ⊢; simp only [one_mul] at this; simp; linarith
    · rw [e] at this ⊢; simp only [neg_mul, one_mul, neg_lt_neg_iff] at this
      rw [if_neg (by norm_num)]; simp; linarith
  have hs : ∀ i < n, y2s[i]? = some (sSR f X Y n i) := by intro i hi; simp [y2s, hi]
  simp only [lx, r0, r1, rl, bind, Option.bind_some, inc, chk]
  rw [calcY2s_eqR (f := f) (by omega) lx hx hy l3, if_pos ok]
  simp only [Option.bind_some]
  rw [calcCoeffs_eqR (f := f) (by omega) hx hy hs l4]
  simp only [Option.bind_some]
  rfl

/-- `NewSpline` on a strictly monotone table. -/
theorem spline_newR {f : FP} {xs ys : List ℚ} {X Y : Nat → ℚ} {n : Nat} {s : ℚ} (hn : 3 ≤ n) (d : Dir s X n) (ok : sOkR f X n)
    (lx : xs.length = n) (ly : ys.length = n)
    (hx : ∀ i < n, xs[i]? = some (X i)) (hy : ∀ i < n, ys[i]? = some (Y i)) :
    ∃ sp : Spline, newSplineR f xs ys = some sp ∧ sp.ForR f s X Y n ∧ sp.xs = xs ∧ sp.ys = ys ∧
      ∀ sp0 : Spline, sp0.xs.length = n → sp0.ys.length = n → sp0.y2s.length = n →
        sp0.coeffs.length = n - 1 → sp0.initR f xs ys = some sp := by
  obtain ⟨sp, h1, h2, h3, h4⟩ := spline_initR hn d ok lx ly hx hy
  refine ⟨sp, ?_, h1, h2, h3, h4⟩
  unfold newSplineR
  rw [if_neg (by omega), if_neg (by omega)]
  exact h4 _ lx ly (by simpa using lx) (by simp [lx])

end Verif.Interp
