import Verif.Interp.SplineLemmas
import Mathlib.Algebra.Polynomial.Derivative
import Mathlib.Tactic.ComputeDegree
import Mathlib.Tactic.LinearCombination

/-! Splines: properties C17 (spline part), C19, C20, C21. -/

namespace Verif.Interp

open Verif.Go Polynomial

/-! Specification. -/

/-- The polynomials `P i` are the pieces of a natural cubic spline through the points `(xs[i], ys[i])`:
piece `i` joins knots `i` and `i+1`. -/
structure NaturalSpline (xs ys : List ℚ) (P : Nat → ℚ[X]) : Prop where
  cubic : ∀ i, (P i).natDegree ≤ 3
  left : ∀ (i : Nat) (x y : ℚ), xs[i]? = some x → ys[i]? = some y → i + 1 < xs.length → (P i).eval x = y
  right : ∀ (i : Nat) (x y : ℚ), xs[i + 1]? = some x → ys[i + 1]? = some y → (P i).eval x = y
  slope : ∀ (i : Nat) (x : ℚ), xs[i + 1]? = some x → i + 2 < xs.length →
    (derivative (P i)).eval x = (derivative (P (i + 1))).eval x
  curvature : ∀ (i : Nat) (x : ℚ), xs[i + 1]? = some x → i + 2 < xs.length →
    (derivative (derivative (P i))).eval x = (derivative (derivative (P (i + 1)))).eval x
  natural_first : ∀ x : ℚ, xs[0]? = some x → (derivative (derivative (P 0))).eval x = 0
  natural_last : ∀ (i : Nat) (x : ℚ), i + 2 = xs.length → xs[i + 1]? = some x →
    (derivative (derivative (P i))).eval x = 0

/-- `x` lies between the knots `i` and `i+1`, the ends included. -/
def InCell (xs : List ℚ) (i : Nat) (x : ℚ) : Prop :=
  ∃ u v, xs[i]? = some u ∧ xs[i + 1]? = some v ∧ (u ≤ x ∧ x ≤ v ∨ v ≤ x ∧ x ≤ u)

/-- `x` lies strictly between the knots `i` and `i+1`. -/
def InsideCell (xs : List ℚ) (i : Nat) (x : ℚ) : Prop :=
  ∃ u v, xs[i]? = some u ∧ xs[i + 1]? = some v ∧ (u < x ∧ x < v ∨ v < x ∧ x < u)

/-! The pieces. -/

/-- Piece `i` as a polynomial. -/
noncomputable def sP (X Y S : Nat → ℚ) (i : Nat) : ℚ[X] :=
  C (sK X Y S i).a * (Polynomial.X - C (X i)) ^ 3 + C (sK X Y S i).b * (Polynomial.X - C (X i)) ^ 2 +
    C (sK X Y S i).c * (Polynomial.X - C (X i)) + C (sK X Y S i).d

theorem sP_eval (X Y S : Nat → ℚ) (i : Nat) (x : ℚ) : (sP X Y S i).eval x = pc X Y S i x := by
  simp [sP, pc]; ring

theorem sP_d1 (X Y S : Nat → ℚ) (i : Nat) (x : ℚ) : (derivative (sP X Y S i)).eval x =
    3 * (sK X Y S i).a * (x - X i) * (x - X i) + 2 * (sK X Y S i).b * (x - X i) + (sK X Y S i).c := by
  simp [sP, derivative_pow]; ring

theorem sP_d2 (X Y S : Nat → ℚ) (i : Nat) (x : ℚ) : (derivative (derivative (sP X Y S i))).eval x =
    6 * (sK X Y S i).a * (x - X i) + 2 * (sK X Y S i).b := by
  simp [sP, derivative_pow]; ring

theorem sP_d3 (X Y S : Nat → ℚ) (i : Nat) (x : ℚ) :
    (derivative (derivative (derivative (sP X Y S i)))).eval x = 6 * (sK X Y S i).a := by
  simp [sP, derivative_pow]; ring

theorem sP_deg (X Y S : Nat → ℚ) (i : Nat) : (sP X Y S i).natDegree ≤ 3 := by
  unfold sP
  compute_degree

theorem sP_natural {xs ys : List ℚ} {X Y : Nat → ℚ} {n : Nat} {s : ℚ} (hn : 3 ≤ n) (d : Dir s X n)
    (lx : xs.length = n) (hx : ∀ i < n, xs[i]? = some (X i))
    (hy : ∀ i < n, ys[i]? = some (Y i)) : NaturalSpline xs ys (sP X Y (sS X Y n)) := by
  have hX : ∀ {i : Nat} {x : ℚ}, xs[i]? = some x → i < n ∧ x = X i := by
    intro i x h
    have hi := (List.getElem?_eq_some_iff.mp h).1
    rw [lx] at hi
    rw [hx i hi] at h
    exact ⟨hi, (Option.some.inj h).symm⟩
  have hY : ∀ {i : Nat} {y : ℚ}, i < n → ys[i]? = some y → y = Y i := by
    intro i x hi h
    rw [hy i hi] at h
    exact (Option.some.inj h).symm
  refine ⟨sP_deg _ _ _, ?_, ?_, ?_, ?_, ?_, ?_⟩
  · intro i x y h1 h2 _
    obtain ⟨hi, rfl⟩ := hX h1
    rw [hY hi h2, sP_eval, pc_left]
  · intro i x y h1 h2
    obtain ⟨hi, rfl⟩ := hX h1
    rw [hY hi h2, sP_eval, pc_right d _ _ hi]
  · intro i x h1 h2
    obtain ⟨hi, rfl⟩ := hX h1
    have row := sS_row (Y := Y) (d.ok hn) (i := i) (by omega)
    have n1 := d.ne (i := i) (by omega)
    have n2 := d.ne (i := i + 1) (by omega)
    rw [sP_d1, sP_d1]
    unfold sA sB sC sR at row
    unfold sK
    simp only [sub_self, mul_zero, zero_add]
    have e2 : i + 1 + 1 = i + 2 := rfl
    rw [e2] at *
    generalize sS X Y n i = S0 at *
    generalize sS X Y n (i + 1) = S1 at *
    generalize sS X Y n (i + 2) = S2 at *
    have e : 3 * ((-S0 / 6 + S1 / 6) / (X (i + 1) - X i)) * (X (i + 1) - X i) * (X (i + 1) - X i) =
        3 * (-S0 / 6 + S1 / 6) * (X (i + 1) - X i) := by
      field_simp
    rw [e]
    linear_combination row
  · intro i x h1 h2
    obtain ⟨hi, rfl⟩ := hX h1
    have n1 := d.ne (i := i) (by omega)
    rw [sP_d2, sP_d2]
    unfold sK
    simp only [sub_self, mul_zero, zero_add]
    field_simp
    ring
  · intro x h1
    obtain ⟨hi, rfl⟩ := hX h1
    rw [sP_d2]
    unfold sK
    simp [sS]
  · intro i x h1 h2
    obtain ⟨hi, rfl⟩ := hX h2
    have n1 := d.ne (i := i) (by omega)
    have e : sS X Y n (i + 1) = 0 := by rw [sS, if_pos (by omega)]
    rw [sP_d2]
    unfold sK
    simp only [e]
    field_simp
    ring

/-! ### From lists to functions -/

theorem dir_incr {xs : List ℚ} (h : xs.Pairwise (· < ·)) : Dir 1 (fun i => xs.getD i 0) xs.length :=
  ⟨Or.inl rfl, fun i j h1 h2 => by simpa using mono_of_pairwise h i j h1 h2⟩

theorem dir_decr {xs : List ℚ} (h : xs.Pairwise (· > ·)) : Dir (-1) (fun i => xs.getD i 0) xs.length := by
  refine ⟨Or.inr rfl, fun i j hij hj => ?_⟩
  have := List.pairwise_iff_getElem.mp h i j (by omega) hj hij
  have e1 := rd_getD (show i < xs.length by omega)
  have e2 := rd_getD hj
  rw [List.getElem?_eq_getElem (by omega)] at e1
  rw [List.getElem?_eq_getElem hj] at e2
  show -1 * xs.getD i 0 < -1 * xs.getD j 0
  rw [← Option.some.inj e1, ← Option.some.inj e2]
  linarith

theorem inCell_brk {xs : List ℚ} {s : ℚ} (d : Dir s (fun i => xs.getD i 0) xs.length) {i : Nat} {x : ℚ} :
    InCell xs i x ↔ i + 1 < xs.length ∧ Brk s (fun i => xs.getD i 0) i x := by
  unfold InCell Brk
  constructor
  · rintro ⟨u, v, hu, hv, h⟩
    have hi := (List.getElem?_eq_some_iff.mp hv).1
    rw [rd_getD (show i < xs.length by omega)] at hu
    rw [rd_getD hi] at hv
    have hu := Option.some.inj hu
    have hv := Option.some.inj hv
    subst hu hv
    refine ⟨hi, ?_⟩
    have : s * xs.getD i 0 < s * xs.getD (i + 1) 0 := d.lt i (i + 1) (by omega) hi
    rcases d.sgn with e | e
    · rw [e] at this ⊢
      rcases h with h | h <;> constructor <;> linarith [h.1, h.2]
    · rw [e] at this ⊢
      rcases h with h | h <;> constructor <;> linarith [h.1, h.2]
  · rintro ⟨hi, h⟩
    refine ⟨_, _, rd_getD (by omega), rd_getD hi, ?_⟩
    rcases d.sgn with e | e
    · rw [e] at h; left; constructor <;> linarith [h.1, h.2]
    · rw [e] at h; right; constructor <;> linarith [h.1, h.2]

/-- Everything the property theorems need, for a strictly monotone table. -/
theorem spline_facts {xs ys : List ℚ} {s : ℚ} (hl : xs.length = ys.length) (hn : 3 ≤ xs.length)
    (d : Dir s (fun i => xs.getD i 0) xs.length) :
    ∃ sp : Spline, newSpline xs ys = some sp ∧
      sp.For s (fun i => xs.getD i 0) (fun i => ys.getD i 0) xs.length ∧
      NaturalSpline xs ys (sP (fun i => xs.getD i 0) (fun i => ys.getD i 0)
        (sS (fun i => xs.getD i 0) (fun i => ys.getD i 0) xs.length)) := by
  obtain ⟨sp, e, f, _, _⟩ := spline_new hn d rfl hl.symm (fun i hi => rd_getD hi)
    (fun i hi => rd_getD (show i < ys.length by omega))
  exact ⟨sp, e, f, sP_natural hn d rfl (fun i hi => rd_getD hi)
    (fun i hi => rd_getD (show i < ys.length by omega))⟩

theorem monotone_dir {xs : List ℚ} (h : xs.Pairwise (· < ·) ∨ xs.Pairwise (· > ·)) :
    ∃ s, Dir s (fun i => xs.getD i 0) xs.length := by
  rcases h with h | h
  · exact ⟨1, dir_incr h⟩
  · exact ⟨-1, dir_decr h⟩

/-! ### Properties -/

/-- C19: for a strictly increasing table of three or more points `NewSpline` returns, and `Eval` is a
natural, twice continuously differentiable cubic spline through the points; outside the table it
panics. -/
theorem C19_spline (xs ys : List ℚ) (hl : xs.length = ys.length) (hn : 3 ≤ xs.length)
    (hm : xs.Pairwise (· < ·)) :
    ∃ sp P, newSpline xs ys = some sp ∧ NaturalSpline xs ys P ∧
      (∀ i x, InCell xs i x → sp.eval x = some ((P i).eval x)) ∧
      (∀ (i : Nat) (x y : ℚ), xs[i]? = some x → ys[i]? = some y → sp.eval x = some y) ∧
      (∀ x, (∀ a ∈ xs, x < a) ∨ (∀ a ∈ xs, a < x) → sp.eval x = none) := by
  have d := dir_incr hm
  obtain ⟨sp, e, f, ns⟩ := spline_facts hl hn d
  have hcell : ∀ i x, InCell xs i x → sp.eval x = some ((sP (fun i => xs.getD i 0)
      (fun i => ys.getD i 0) (sS (fun i => xs.getD i 0) (fun i => ys.getD i 0) xs.length) i).eval x) := by
    intro i x h
    obtain ⟨hi, b⟩ := (inCell_brk d).mp h
    rw [sP_eval]
    exact spline_eval f hi b
  refine ⟨sp, _, e, ns, hcell, ?_, ?_⟩
  · intro i x y h1 h2
    have hi := (List.getElem?_eq_some_iff.mp h1).1
    by_cases c : i + 1 < xs.length
    · have hx' := rd_getD c
      have := List.pairwise_iff_getElem.mp hm i (i + 1) hi c (by omega)
      rw [hcell i x ⟨x, _, h1, List.getElem?_eq_getElem c, Or.inl ⟨le_rfl, ?_⟩⟩,
        ns.left i x y h1 h2 c]
      rw [List.getElem?_eq_getElem hi] at h1
      rw [← Option.some.inj h1]
      exact this.le
    · obtain ⟨k, rfl⟩ : ∃ k, i = k + 1 := ⟨i - 1, by omega⟩
      have := List.pairwise_iff_getElem.mp hm k (k + 1) (by omega) hi (by omega)
      rw [hcell k x ⟨_, x, List.getElem?_eq_getElem (by omega), h1, Or.inl ⟨?_, le_rfl⟩⟩,
        ns.right k x y h1 h2]
      rw [List.getElem?_eq_getElem hi] at h1
      rw [← Option.some.inj h1]
      exact this.le
  · intro x h
    apply spline_eval_outside f
    rcases h with h | h
    · left; simpa using h _ (List.mem_of_getElem? (rd_getD (show 0 < xs.length by omega)))
    · right; simpa using h _ (List.mem_of_getElem? (rd_getD (show xs.length - 1 < xs.length by omega)))

example : ∃ sp, newSpline [0, 1, 3, 4] [1, 0, 2, 5] = some sp ∧ sp.eval 1 = some 0 ∧
    sp.eval (1/2) = some (13/32) := by
  have h : (newSpline [0, 1, 3, 4] [1, 0, 2, 5]).map (fun sp => (sp.eval 1, sp.eval (1/2))) =
      some (some 0, some (13/32)) := by
    decide +kernel
  obtain ⟨sp, e, h⟩ := Option.map_eq_some_iff.mp h
  simp only [Prod.mk.injEq] at h
  exact ⟨sp, e, h⟩

/-- C19: two points are not enough, contrary to the check `len(xs) <= 1` in the constructor. -/
theorem C19_two_points_panic (x0 x1 y0 y1 : ℚ) : newSpline [x0, x1] [y0, y1] = none := by
  have hx : ∀ i < 2, [x0, x1][i]? = some ((fun i => [x0, x1].getD i 0) i) := fun i hi => rd_getD hi
  have hy : ∀ i < 2, [y0, y1][i]? = some ((fun i => [y0, y1].getD i 0) i) := fun i hi => rd_getD hi
  have h : ∀ y2s : List ℚ, y2s.length = 2 → calcY2s [x0, x1] [y0, y1] y2s = none := by
    classical
    intro y2s hl
    rw [calcY2s_eq (n := 2) le_rfl rfl hx hy hl, if_neg]
    rintro ⟨h, _⟩
    omega
  unfold newSpline
  rw [if_neg (by simp), if_neg (by simp)]
  unfold Spline.init
  rw [if_neg (by simp)]
  simp only [List.length_cons, List.length_nil]
  have key : ∀ o : Option Unit, (o >>= fun _ => (rd [x0, x1] (((0 + 1 + 1 : Nat) : Int) - 1)) >>= fun l =>
      (calcY2s [x0, x1] [y0, y1] (List.replicate (0 + 1 + 1) 0)) >>= fun y2s =>
      (calcCoeffs [x0, x1] [y0, y1] y2s (List.replicate (0 + 1 + 1 - 1) ⟨0, 0, 0, 0⟩)) >>= fun coeffs =>
      some (Spline.mk [x0, x1] [y0, y1] y2s coeffs (decide (x0 < x1))
        ((l - x0) / ((((0 + 1 + 1 : Nat) : Int) - 1 : Int) : ℚ)))) = none := by
    intro o
    cases o with
    | none => rfl
    | some u =>
      simp only [bind, Option.bind_some]
      rw [h _ (by simp)]
      cases rd [x0, x1] (((0 + 1 + 1 : Nat) : Int) - 1) <;> rfl
  exact key _

example : newSpline [0, 1] [3, 4] = none := C19_two_points_panic 0 1 3 4

/-- C17, spline part: a strictly decreasing table of three or more points is accepted, and `Eval` is the
natural cubic spline through the points; in particular it reproduces the knots.
Missing: `Linear`, for which the property is false (`C17_linear_decreasing_counterexample`). -/
theorem C17_spline_decreasing_partial (xs ys : List ℚ) (hl : xs.length = ys.length) (hn : 3 ≤ xs.length)
    (hm : xs.Pairwise (· > ·)) :
    ∃ sp P, newSpline xs ys = some sp ∧ NaturalSpline xs ys P ∧
      (∀ i x, InCell xs i x → sp.eval x = some ((P i).eval x)) ∧
      (∀ (i : Nat) (x y : ℚ), xs[i]? = some x → ys[i]? = some y → sp.eval x = some y) := by
  have d := dir_decr hm
  obtain ⟨sp, e, f, ns⟩ := spline_facts hl hn d
  have hcell : ∀ i x, InCell xs i x → sp.eval x = some ((sP (fun i => xs.getD i 0)
      (fun i => ys.getD i 0) (sS (fun i => xs.getD i 0) (fun i => ys.getD i 0) xs.length) i).eval x) := by
    intro i x h
    obtain ⟨hi, b⟩ := (inCell_brk d).mp h
    rw [sP_eval]
    exact spline_eval f hi b
  refine ⟨sp, _, e, ns, hcell, ?_⟩
  intro i x y h1 h2
  have hi := (List.getElem?_eq_some_iff.mp h1).1
  by_cases c : i + 1 < xs.length
  · have := List.pairwise_iff_getElem.mp hm i (i + 1) hi c (by omega)
    rw [hcell i x ⟨x, _, h1, List.getElem?_eq_getElem c, Or.inr ⟨?_, le_rfl⟩⟩,
      ns.left i x y h1 h2 c]
    rw [List.getElem?_eq_getElem hi] at h1
    rw [← Option.some.inj h1]
    exact le_of_lt this
  · obtain ⟨k, rfl⟩ : ∃ k, i = k + 1 := ⟨i - 1, by omega⟩
    have := List.pairwise_iff_getElem.mp hm k (k + 1) (by omega) hi (by omega)
    rw [hcell k x ⟨_, x, List.getElem?_eq_getElem (by omega), h1, Or.inr ⟨le_rfl, ?_⟩⟩,
      ns.right k x y h1 h2]
    rw [List.getElem?_eq_getElem hi] at h1
    rw [← Option.some.inj h1]
    exact le_of_lt this

example : ∃ sp, newSpline [4, 3, 1, 0] [5, 2, 0, 1] = some sp ∧ sp.eval 4 = some 5 ∧
    sp.eval 3 = some 2 ∧ sp.eval (1/2) = some (13/32) := by
  have h : (newSpline [4, 3, 1, 0] [5, 2, 0, 1]).map (fun sp => (sp.eval 4, sp.eval 3, sp.eval (1/2))) =
      some (some 5, some 2, some (13/32)) := by
    decide +kernel
  obtain ⟨sp, e, h⟩ := Option.map_eq_some_iff.mp h
  simp only [Prod.mk.injEq] at h
  exact ⟨sp, e, h⟩

/-- Value of `Deriv` where it returns. -/
theorem spline_deriv {sp : Spline} {s : ℚ} {X Y : Nat → ℚ} {n : Nat} (f : sp.For s X Y n) {x : ℚ}
    (h0 : s * X 0 ≤ s * x) (h1 : s * x ≤ s * X (n - 1))
    (hs : s = 1 ∨ (s * X 0 < s * x ∧ s * x < s * X (n - 1))) :
    ∃ i, i + 1 < n ∧ Brk s X i x ∧ ∀ k : Nat,
      sp.deriv x k = some ((derivative^[k] (sP X Y (sS X Y n) i)).eval x) := by
  have hn := f.three
  have r0 : rd sp.xs 0 = some (X 0) := rd_fn_nat f.hx 0 rfl (by omega)
  have rl : rd sp.xs ((sp.xs.length : Int) - 1) = some (X (n - 1)) :=
    rd_fn_nat f.hx (n - 1) (by rw [f.lx]; omega) (by omega)
  obtain ⟨i, e, hi, b⟩ := bsearch_spec f h0 h1
  have rx : rd sp.xs (i : Int) = some (X i) := rd_fn_nat f.hx i rfl (by omega)
  have rk : rd sp.coeffs (i : Int) = some (sK X Y (sS X Y n) i) := rd_fn_nat f.hk i rfl (by omega)
  refine ⟨i, hi, b, ?_⟩
  intro k
  unfold Spline.deriv
  simp only [r0, rl, bind, Option.bind_some]
  rw [if_neg]
  · simp only [e, rx, rk, Option.bind_some]
    congr 1
    rcases k with _ | _ | _ | _ | k
    · rw [if_pos (by simp)]
      simp only [Function.iterate_zero, id]
      rw [sP_eval]; rfl
    · rw [if_neg (by simp), if_pos (by simp)]
      simp only [Function.iterate_succ, Function.iterate_zero, Function.comp, id]
      rw [sP_d1]
    · rw [if_neg (by simp), if_neg (by simp), if_pos (by simp)]
      simp only [Function.iterate_succ, Function.iterate_zero, Function.comp, id]
      rw [sP_d2]
    · rw [if_neg (by simp), if_neg (by simp), if_neg (by simp), if_pos (by simp)]
      simp only [Function.iterate_succ, Function.iterate_zero, Function.comp, id]
      rw [sP_d3]
    · rw [if_neg (by push_cast; omega), if_neg (by push_cast; omega), if_neg (by push_cast; omega),
        if_neg (by push_cast; omega)]
      rw [iterate_derivative_eq_zero (lt_of_le_of_lt (sP_deg _ _ _ _) (by omega))]
      simp
  · rw [f.incr]
    rcases f.dir.sgn with e | e
    · rw [e] at h0 h1 ⊢
      simp only [one_mul] at h0 h1
      simp; exact ⟨h0, h1⟩
    · rw [e] at hs ⊢
      rcases hs with hs | hs
      · norm_num at hs
      · simp only [neg_mul, one_mul, neg_lt_neg_iff] at hs
        rw [decide_eq_false (show ¬ ((-1 : ℚ) = 1) by norm_num)]; simp
        exact hs

/-- C20: on a strictly monotone table, `Deriv(x, k)` is the `k`-th derivative of the cubic piece `Eval` uses at
`x`, for every order `k` and every `x` strictly inside the table; strictly inside a cell there is only one
such piece. For increasing tables the two ends are included. -/
theorem C20_deriv (xs ys : List ℚ) (hl : xs.length = ys.length) (hn : 3 ≤ xs.length)
    (hm : xs.Pairwise (· < ·) ∨ xs.Pairwise (· > ·)) :
    ∃ sp P, newSpline xs ys = some sp ∧ NaturalSpline xs ys P ∧
      (∀ i x, InCell xs i x → sp.eval x = some ((P i).eval x)) ∧
      (∀ i x, InsideCell xs i x → ∀ k : Nat, sp.deriv x k = some ((derivative^[k] (P i)).eval x)) ∧
      (∀ x, (∃ a ∈ xs, a < x) → (∃ a ∈ xs, x < a) → ∃ i, InCell xs i x ∧
        ∀ k : Nat, sp.deriv x k = some ((derivative^[k] (P i)).eval x)) ∧
      (xs.Pairwise (· < ·) → ∀ x, x ∈ xs → ∃ i, InCell xs i x ∧
        ∀ k : Nat, sp.deriv x k = some ((derivative^[k] (P i)).eval x)) := by
  obtain ⟨s, d⟩ := monotone_dir hm
  obtain ⟨sp, e, f, ns⟩ := spline_facts hl hn d
  have ends : ∀ i, i < xs.length → s * xs.getD 0 0 ≤ s * xs.getD i 0 ∧
      s * xs.getD i 0 ≤ s * xs.getD (xs.length - 1) 0 := by
    intro i hi
    constructor
    · rcases Nat.eq_zero_or_pos i with h | h
      · rw [h]
      · exact (d.lt 0 i h hi).le
    · rcases Nat.lt_or_ge i (xs.length - 1) with h | h
      · exact (d.lt i _ h (by omega)).le
      · rw [show i = xs.length - 1 by omega]
  have mem : ∀ a ∈ xs, ∃ i, i < xs.length ∧ a = xs.getD i 0 := by
    intro a ha
    obtain ⟨i, hi⟩ := List.getElem?_of_mem ha
    have h := (List.getElem?_eq_some_iff.mp hi).1
    rw [rd_getD h] at hi
    exact ⟨i, h, (Option.some.inj hi).symm⟩
  refine ⟨sp, _, e, ns, ?_, ?_, ?_, ?_⟩
  · intro i x h
    obtain ⟨hi, b⟩ := (inCell_brk d).mp h
    rw [sP_eval]
    exact spline_eval f hi b
  · rintro i x ⟨u, v, hu, hv, h⟩ k
    have hc : InCell xs i x := ⟨u, v, hu, hv, by
      rcases h with h | h
      · left; exact ⟨h.1.le, h.2.le⟩
      · right; exact ⟨h.1.le, h.2.le⟩⟩
    obtain ⟨hi, b⟩ := (inCell_brk d).mp hc
    rw [rd_getD (show i < xs.length by omega)] at hu
    rw [rd_getD hi] at hv
    have hu := Option.some.inj hu
    have hv := Option.some.inj hv
    have sx : s * xs.getD i 0 < s * x ∧ s * x < s * xs.getD (i + 1) 0 := by
      have ne : u ≠ x ∧ x ≠ v := by
        rcases h with h | h
        · exact ⟨h.1.ne, h.2.ne⟩
        · exact ⟨h.2.ne', h.1.ne'⟩
      have b1 : s * xs.getD i 0 ≤ s * x := b.1
      have b2 : s * x ≤ s * xs.getD (i + 1) 0 := b.2
      rw [hu] at b1 ⊢
      rw [hv] at b2 ⊢
      exact ⟨lt_of_le_of_ne b1 (fun e => ne.1 (mul_left_inj_sgn d.sgn e)),
        lt_of_le_of_ne b2 (fun e => ne.2 (mul_left_inj_sgn d.sgn e))⟩
    have g := brk_range d hi b
    obtain ⟨j, hj, bj, hd⟩ := spline_deriv f g.1 g.2 (Or.inr
      ⟨lt_of_le_of_lt (ends i (by omega)).1 sx.1, lt_of_lt_of_le sx.2 (ends (i + 1) hi).2⟩)
    rcases brk_cases d hi hj b bj with c | ⟨c, hx⟩ | ⟨c, hx⟩
    · subst c; exact hd k
    · subst c; rw [hx] at sx; exact absurd sx.2 (lt_irrefl _)
    · subst c; rw [hx] at sx; exact absurd sx.1 (lt_irrefl _)
  · rintro x ⟨a, ha, hax⟩ ⟨b, hb, hbx⟩
    obtain ⟨i, hi, rfl⟩ := mem a ha
    obtain ⟨j, hj, rfl⟩ := mem b hb
    have g : s * xs.getD 0 0 < s * x ∧ s * x < s * xs.getD (xs.length - 1) 0 := by
      have e1 := ends i hi
      have e2 := ends j hj
      rcases d.sgn with h | h
      · rw [h] at e1 e2 ⊢; constructor <;> linarith [e1.1, e1.2, e2.1, e2.2]
      · rw [h] at e1 e2 ⊢; constructor <;> linarith [e1.1, e1.2, e2.1, e2.2]
    obtain ⟨k, hk, bk, hd⟩ := spline_deriv f g.1.le g.2.le (Or.inr g)
    exact ⟨k, (inCell_brk d).mpr ⟨hk, bk⟩, hd⟩
  · intro hinc x hx
    obtain ⟨i, hi, rfl⟩ := mem x hx
    have h1 : s = 1 := by
      rcases d.sgn with h | h
      · exact h
      · have a : s * xs.getD 0 0 < s * xs.getD 1 0 := d.lt 0 1 (by omega) (by omega)
        have b : 1 * xs.getD 0 0 < 1 * xs.getD 1 0 := (dir_incr hinc).lt 0 1 (by omega) (by omega)
        rw [h] at a; linarith
    have g := ends i hi
    obtain ⟨k, hk, bk, hd⟩ := spline_deriv f g.1 g.2 (Or.inl h1)
    exact ⟨k, (inCell_brk d).mpr ⟨hk, bk⟩, hd⟩

example : ∃ sp, newSpline [0, 1, 3, 4] [1, 0, 2, 5] = some sp ∧ sp.deriv (1/2) 0 = some (13/32) ∧
    sp.deriv (1/2) 1 = some (-17/16) ∧ sp.deriv 0 2 = some 0 ∧ sp.deriv 4 7 = some 0 := by
  have h : (newSpline [0, 1, 3, 4] [1, 0, 2, 5]).map (fun sp => (sp.deriv (1/2) 0, sp.deriv (1/2) 1, sp.deriv 0 2, sp.deriv 4 7)) =
      some (some (13/32), some (-17/16), some 0, some 0) := by
    decide +kernel
  obtain ⟨sp, e, h⟩ := Option.map_eq_some_iff.mp h
  simp only [Prod.mk.injEq] at h
  exact ⟨sp, e, h⟩

/-- C20 outside the stated range: on a decreasing table `Deriv` panics at both ends, where `Eval` does
not. -/
theorem C20_decreasing_ends_counterexample :
    ∃ sp, newSpline [4, 3, 1, 0] [5, 2, 0, 1] = some sp ∧ sp.eval 4 = some 5 ∧ sp.eval 0 = some 1 ∧
      sp.deriv 4 0 = none ∧ sp.deriv 0 0 = none := by
  have h : (newSpline [4, 3, 1, 0] [5, 2, 0, 1]).map (fun sp => (sp.eval 4, sp.eval 0, sp.deriv 4 0, sp.deriv 0 0)) =
      some (some 5, some 1, none, none) := by
    decide +kernel
  obtain ⟨sp, e, h⟩ := Option.map_eq_some_iff.mp h
  simp only [Prod.mk.injEq] at h
  exact ⟨sp, e, h⟩

/-! ### Integration -/

/-- Integral from the first knot to knot `i`. -/
def sCum (X Y S : Nat → ℚ) (i : Nat) : ℚ :=
  ∑ j ∈ Finset.range i, integTerm (sK X Y S j) (X j) (X (j + 1))

/-- Antiderivative on cell `i`. -/
noncomputable def sQ (X Y S : Nat → ℚ) (i : Nat) : ℚ[X] :=
  C ((sK X Y S i).a / 4) * (Polynomial.X - C (X i)) ^ 4 +
    C ((sK X Y S i).b / 3) * (Polynomial.X - C (X i)) ^ 3 +
    C ((sK X Y S i).c / 2) * (Polynomial.X - C (X i)) ^ 2 +
    C (sK X Y S i).d * (Polynomial.X - C (X i)) + C (sCum X Y S i)

theorem sQ_eval (X Y S : Nat → ℚ) (i : Nat) (x : ℚ) :
    (sQ X Y S i).eval x = sCum X Y S i + integTerm (sK X Y S i) (X i) x := by
  simp [sQ, integTerm]; ring

theorem sQ_deriv (X Y S : Nat → ℚ) (i : Nat) (x : ℚ) :
    (derivative (sQ X Y S i)).eval x = pc X Y S i x := by
  simp [sQ, derivative_pow, pc]; ring

theorem sQ_knot (X Y S : Nat → ℚ) (i : Nat) : (sQ X Y S i).eval (X i) = sCum X Y S i := by
  rw [sQ_eval]; simp [integTerm]

theorem sQ_next (X Y S : Nat → ℚ) (i : Nat) : (sQ X Y S i).eval (X (i + 1)) = sCum X Y S (i + 1) := by
  rw [sQ_eval, sCum, sCum, Finset.sum_range_succ]

theorem sQ_indep {s : ℚ} {X : Nat → ℚ} {n : Nat} (d : Dir s X n) (Y S : Nat → ℚ) {x : ℚ} {i j : Nat}
    (hi : i + 1 < n) (hj : j + 1 < n) (bi : Brk s X i x) (bj : Brk s X j x) :
    (sQ X Y S i).eval x = (sQ X Y S j).eval x := by
  rcases brk_cases d hi hj bi bj with h | ⟨h, hx⟩ | ⟨h, hx⟩
  · rw [h]
  · subst h; rw [hx, sQ_next, sQ_knot]
  · subst h; rw [hx, sQ_next, sQ_knot]

theorem integrate_knot {sp : Spline} {X Y : Nat → ℚ} {n : Nat} (f : sp.For 1 X Y n) {m i : Nat}
    (hm : m < n) {hi : ℚ} (hle : X m ≤ hi) (hic : i + 1 < n) (b : Brk 1 X i hi) :
    sp.integrate (X m) hi = some ((sQ X Y (sS X Y n) i).eval hi - sCum X Y (sS X Y n) m) := by
  have hn := f.three
  have r0 : rd sp.xs 0 = some (X 0) := rd_fn_nat f.hx 0 rfl (by omega)
  have rl : rd sp.xs ((sp.xs.length : Int) - 1) = some (X (n - 1)) :=
    rd_fn_nat f.hx (n - 1) (by rw [f.lx]; omega) (by omega)
  have inc : sp.incr = true := by rw [f.incr]; simp
  have mono : ∀ p q, p < q → q < n → X p < X q := fun p q h1 h2 => by simpa using f.dir.lt p q h1 h2
  have hm0 : X 0 ≤ X m := by
    rcases Nat.eq_zero_or_pos m with h | h
    · rw [h]
    · exact (mono 0 m h hm).le
  obtain ⟨g0, g1⟩ := brk_range f.dir hic b
  simp only [one_mul] at g0 g1
  have hm1 : X m ≤ X (n - 1) := hle.trans g1
  obtain ⟨p, ep, hp, bp⟩ := bsearch_spec f (x := X m) (by simpa using hm0) (by simpa using hm1)
  obtain ⟨q, eq, hq, bq⟩ := bsearch_spec f (x := hi) (by simpa using g0) (by simpa using g1)
  rw [sQ_indep f.dir Y _ hic hq b bq]
  have hpm : p = m ∨ p + 1 = m := by
    have b1 := bp.1
    have b2 := bp.2
    simp only [one_mul] at b1 b2
    rcases Nat.lt_trichotomy p m with h | h | h
    · right
      rcases Nat.lt_or_ge (p + 1) m with h' | h'
      · have := mono (p + 1) m h' hm; linarith
      · omega
    · left; exact h
    · have := mono m p h (by omega); linarith
  unfold Spline.integrate
  rw [if_neg (by simpa using hle)]
  unfold Spline.integrateOrdered
  simp only [r0, rl, bind, Option.bind_some, inc]
  have rkp : rd sp.coeffs (p : Int) = some (sK X Y (sS X Y n) p) := rd_fn_nat f.hk p rfl (by omega)
  have rkq : rd sp.coeffs (q : Int) = some (sK X Y (sS X Y n) q) := rd_fn_nat f.hk q rfl (by omega)
  have rxp : rd sp.xs ((p : Int) + 1) = some (X (p + 1)) :=
    rd_fn_nat f.hx (p + 1) (by push_cast; rfl) (by omega)
  have rxq : rd sp.xs (q : Int) = some (X q) := rd_fn_nat f.hx q rfl (by omega)
  rw [if_neg (by simp; exact ⟨hm0, hm1⟩), if_neg (by simp; exact ⟨g0, g1⟩)]
  simp only [ep, eq, Option.bind_some]
  by_cases c : (p : Int) = q
  · rw [if_pos c]
    have c : p = q := by omega
    subst c
    simp only [rkp, Option.bind_some]
    congr 1
    rcases hpm with h | h
    · subst h
      rw [sQ_eval]; ring
    · subst h
      have : hi = X (p + 1) := by
        have := bq.2; simp only [one_mul] at this; exact le_antisymm this hle
      rw [this, sQ_next]
      simp [integTerm]
  · rw [if_neg c]
    have hpq : p < q := by
      by_contra h
      have h : q + 1 ≤ p := by omega
      have h1 := bp.1
      have h2 := bq.2
      simp only [one_mul] at h1 h2
      have : X (q + 1) ≤ X p := by
        rcases Nat.lt_or_ge (q + 1) p with h' | h'
        · exact (mono _ _ h' (by omega)).le
        · rw [show p = q + 1 by omega]
      have e : X m = hi := by linarith
      rw [e, eq] at ep
      exact c (Option.some.inj ep).symm
    simp only [rkp, rkq, rxp, rxq, Option.bind_some]
    have loop := forRange_sum (fun j => integTerm (sK X Y (sS X Y n) j) (X j) (X (j + 1)))
      (lo := p + 1) (hi := q) (by omega)
      (integTerm (sK X Y (sS X Y n) p) (X m) (X (p + 1)) + integTerm (sK X Y (sS X Y n) q) (X q) hi)
      (fun i sum => do
        let k ← rd sp.coeffs i
        let u ← rd sp.xs i
        let v ← rd sp.xs (i + 1)
        some (sum + integTerm k u v)) (by
        intro k t h1 h2
        have a1 : rd sp.coeffs (k : Int) = some (sK X Y (sS X Y n) k) := rd_fn_nat f.hk k rfl (by omega)
        have a2 : rd sp.xs ((k : Int) + 1) = some (X (k + 1)) :=
          rd_fn_nat f.hx (k + 1) (by push_cast; rfl) (by omega)
        have a3 : rd sp.xs (k : Int) = some (X k) := rd_fn_nat f.hx k rfl (by omega)
        simp only [a1, a2, a3, bind, Option.bind_some])
    rw [show ((p + 1 : Nat) : Int) = (p : Int) + 1 by push_cast; rfl] at loop
    simp only [bind] at loop
    rw [loop]
    congr 1
    have hsum : ∑ j ∈ Finset.Ico (p + 1) q, integTerm (sK X Y (sS X Y n) j) (X j) (X (j + 1)) =
        sCum X Y (sS X Y n) q - sCum X Y (sS X Y n) (p + 1) := by
      rw [Finset.sum_Ico_eq_sub _ (by omega)]; rfl
    rw [hsum, sQ_eval]
    rcases hpm with h | h
    · subst h
      have : sCum X Y (sS X Y n) (p + 1) = sCum X Y (sS X Y n) p +
          integTerm (sK X Y (sS X Y n) p) (X p) (X (p + 1)) := by
        rw [sCum, sCum, Finset.sum_range_succ]
      rw [this]; ring
    · subst h
      have : integTerm (sK X Y (sS X Y n) p) (X (p + 1)) (X (p + 1)) = 0 := by simp [integTerm]
      rw [this]; ring

theorem integrate_comm (sp : Spline) {lo hi : ℚ} (h : lo < hi) :
    sp.integrate hi lo = (sp.integrate lo hi).map fun v => -v := by
  unfold Spline.integrate
  rw [if_pos h, if_neg (not_lt.mpr h.le)]

/-- C21 when `lo` is a knot: `Integrate(lo, hi)` is the increment of a continuous antiderivative of `Eval`
(the polynomials `Q i`, one per cell, agreeing where cells meet, with derivative `Eval`).
The bounds may come in either order: exchanging them changes the sign.
Missing: `lo` strictly inside a cell, for which the property is false
(`C21_integrate_counterexample`). -/
theorem C21_integrate_partial (xs ys : List ℚ) (hl : xs.length = ys.length) (hn : 3 ≤ xs.length)
    (hm : xs.Pairwise (· < ·)) :
    ∃ (sp : Spline) (Q : Nat → ℚ[X]), newSpline xs ys = some sp ∧
      (∀ i x, InCell xs i x → sp.eval x = some ((derivative (Q i)).eval x)) ∧
      (∀ i j x, InCell xs i x → InCell xs j x → (Q i).eval x = (Q j).eval x) ∧
      (∀ i j lo hi, lo ∈ xs → lo ≤ hi → InCell xs j lo → InCell xs i hi →
        sp.integrate lo hi = some ((Q i).eval hi - (Q j).eval lo) ∧
        sp.integrate hi lo = some ((Q j).eval lo - (Q i).eval hi)) := by
  have d := dir_incr hm
  obtain ⟨sp, e, f, ns⟩ := spline_facts hl hn d
  refine ⟨sp, sQ (fun i => xs.getD i 0) (fun i => ys.getD i 0)
        (sS (fun i => xs.getD i 0) (fun i => ys.getD i 0) xs.length), e, ?_, ?_, ?_⟩
  · intro i x h
    obtain ⟨hi, b⟩ := (inCell_brk d).mp h
    rw [sQ_deriv]
    exact spline_eval f hi b
  · intro i j x h1 h2
    obtain ⟨hi, bi⟩ := (inCell_brk d).mp h1
    obtain ⟨hj, bj⟩ := (inCell_brk d).mp h2
    exact sQ_indep d _ _ hi hj bi bj
  · intro i j lo hi hlo hle h1 h2
    obtain ⟨hi', bi⟩ := (inCell_brk d).mp h2
    obtain ⟨hj, bj⟩ := (inCell_brk d).mp h1
    refine (fun h => ⟨h, ?_⟩ : _ → _ ∧ _) ?_
    · rcases hle.lt_or_eq with hlt | rfl
      · rw [integrate_comm sp hlt, h, Option.map_some, neg_sub]
      · rw [h, sQ_indep d _ _ hi' hj bi bj]
    obtain ⟨m, hm⟩ := List.getElem?_of_mem hlo
    have hml := (List.getElem?_eq_some_iff.mp hm).1
    rw [rd_getD hml] at hm
    have hm := (Option.some.inj hm).symm
    subst hm
    rw [integrate_knot f hml hle hi' bi]
    congr 2
    by_cases c : m + 1 < xs.length
    · rw [sQ_indep d _ _ hj c bj ⟨le_rfl, (d.lt m (m + 1) (by omega) c).le⟩]
      exact (sQ_knot _ _ _ m).symm
    · obtain ⟨k, rfl⟩ : ∃ k, m = k + 1 := ⟨m - 1, by omega⟩
      rw [sQ_indep d _ _ hj hml bj ⟨(d.lt k (k + 1) (by omega) hml).le, le_rfl⟩]
      exact (sQ_next _ _ _ k).symm

example : ∃ sp, newSpline [0, 1, 3, 4] [1, 0, 2, 5] = some sp ∧ sp.integrate 0 4 = some (39/8) := by
  have h : (newSpline [0, 1, 3, 4] [1, 0, 2, 5]).map (fun sp => (sp.integrate 0 4)) =
      some (some (39/8)) := by
    decide +kernel
  obtain ⟨sp, e, h⟩ := Option.map_eq_some_iff.mp h
  exact ⟨sp, e, h⟩

/-- C21 fails when `lo` is not a knot: for the data `y = x` the integral from 1/2 to 1 is 3/8, and
`Integrate` returns 1/8. -/
theorem C21_integrate_counterexample :
    ∃ sp, newSpline [0, 1, 2] [0, 1, 2] = some sp ∧ sp.eval (3/4) = some (3/4) ∧
      sp.integrate (1/2) 1 = some (1/8) := by
  have h : (newSpline [0, 1, 2] [0, 1, 2]).map (fun sp => (sp.eval (3/4), sp.integrate (1/2) 1)) =
      some (some (3/4), some (1/8)) := by
    decide +kernel
  obtain ⟨sp, e, h⟩ := Option.map_eq_some_iff.mp h
  simp only [Prod.mk.injEq] at h
  exact ⟨sp, e, h⟩

end Verif.Interp
