import Verif.Calc.Model
import Verif.Go.Loops
import Mathlib.Tactic.FieldSimp
import Mathlib.Tactic.Ring
import Mathlib.Tactic.NormNum

/-!
# Property C13 of `/repo/math/calc`
-/

namespace Verif.Calc

open Verif.Go

/-- Closed form of `deriv2`. -/
theorem deriv2_spec (X Y : Nat → ℚ) (n : Nat) (hn : 3 ≤ n) (xs ys out : List ℚ) (hxl : xs.length = n)
    (hx : ∀ i < n, xs[i]? = some (X i)) (hy : ∀ i < n, ys[i]? = some (Y i)) (ho : out.length = n) :
    ∃ r, deriv2 xs ys out = some r ∧ r.length = n ∧
      r[0]? = some ((-3 * Y 0 + 4 * Y 1 - Y 2) / (X 2 - X 0)) ∧
      r[n - 1]? = some (-(-3 * Y (n - 1) + 4 * Y (n - 2) - Y (n - 3)) / (X (n - 1) - X (n - 3))) ∧
      ∀ i, 1 ≤ i → i < n - 1 → r[i]? = some ((Y (i + 1) - Y (i - 1)) / (X (i + 1) - X (i - 1))) := by
  obtain ⟨r, e, rl, hr⟩ := forRange_fill
    (fun i => (Y (i + 1) - Y (i - 1)) / (X (i + 1) - X (i - 1))) (lo := 1) (hi := n - 1) (n := n)
    (by omega) (by omega) out ho
    (fun i out => do
      let y1 ← rd ys (i + 1)
      let y0 ← rd ys (i - 1)
      let x1 ← rd xs (i + 1)
      let x0 ← rd xs (i - 1)
      wr out i ((y1 - y0) / (x1 - x0))) (by
    intro k st h1 h2 h3 _
    rw [rd_fn_nat hy (k + 1) (by omega) (by omega), rd_fn_nat hy (k - 1) (by omega) (by omega),
      rd_fn_nat hx (k + 1) (by omega) (by omega), rd_fn_nat hx (k - 1) (by omega) (by omega)]
    rfl)
  have en : ((xs.length : Int) - 1) = ((n - 1 : Nat) : Int) := by omega
  unfold deriv2
  rw [Nat.cast_one] at e
  simp only [en]
  rw [e]
  have f0 : rd ys 0 = some (Y 0) := rd_fn_nat hy 0 (by omega) (by omega)
  have f1 : rd ys 1 = some (Y 1) := rd_fn_nat hy 1 (by omega) (by omega)
  have f2 : rd ys 2 = some (Y 2) := rd_fn_nat hy 2 (by omega) (by omega)
  have g2 : rd xs 2 = some (X 2) := rd_fn_nat hx 2 (by omega) (by omega)
  have g0 : rd xs 0 = some (X 0) := rd_fn_nat hx 0 (by omega) (by omega)
  have k1 : rd ys ((n - 1 : Nat) : Int) = some (Y (n - 1)) := rd_fn_nat hy _ rfl (by omega)
  have k2 : rd ys ((xs.length : Int) - 2) = some (Y (n - 2)) :=
    rd_fn_nat hy (n - 2) (by omega) (by omega)
  have k3 : rd ys ((xs.length : Int) - 3) = some (Y (n - 3)) :=
    rd_fn_nat hy (n - 3) (by omega) (by omega)
  have l1 : rd xs ((n - 1 : Nat) : Int) = some (X (n - 1)) := rd_fn_nat hx _ rfl (by omega)
  have l3 : rd xs ((xs.length : Int) - 3) = some (X (n - 3)) :=
    rd_fn_nat hx (n - 3) (by omega) (by omega)
  have w0 : ∀ v, wr r 0 v = some (r.set 0 v) := fun v => wr_of_lt (by omega) (by omega)
  have w1 : ∀ v w, wr (r.set 0 v) ((n - 1 : Nat) : Int) w = some ((r.set 0 v).set (n - 1) w) :=
    fun v w => wr_natCast (by simp; omega)
  simp only [f0, f1, f2, g2, g0, k1, k2, k3, l1, l3, bind, Option.bind_some, w0, w1]
  refine ⟨_, rfl, by simpa using rl, ?_, ?_, ?_⟩
  · rw [List.getElem?_set_ne (by omega), List.getElem?_set_self (by omega)]
  · rw [List.getElem?_set_self (by simp; omega)]
  · intro i h1 h2
    rw [List.getElem?_set_ne (by omega), List.getElem?_set_ne (by omega), hr, if_pos ⟨h1, h2⟩]

/-- Closed form of `deriv4`. -/
theorem deriv4_spec (X Y : Nat → ℚ) (n : Nat) (hn : 5 ≤ n) (xs ys out : List ℚ) (hxl : xs.length = n)
    (hx : ∀ i < n, xs[i]? = some (X i)) (hy : ∀ i < n, ys[i]? = some (Y i)) (ho : out.length = n) :
    ∃ r, deriv4 xs ys out = some r ∧ r.length = n ∧
      r[0]? = some ((-3 * Y 4 + 16 * Y 3 - 36 * Y 2 + 48 * Y 1 - 25 * Y 0) / (3 * (X 4 - X 0))) ∧
      r[1]? = some ((-3 * Y 0 - 10 * Y 1 + 18 * Y 2 - 6 * Y 3 + Y 4) / (3 * (X 4 - X 0))) ∧
      r[n - 2]? = some ((-3 * Y (n - 1) - 10 * Y (n - 2) + 18 * Y (n - 3) - 6 * Y (n - 4) + Y (n - 5)) /
        (3 * (X (n - 5) - X (n - 1)))) ∧
      r[n - 1]? = some ((-3 * Y (n - 5) + 16 * Y (n - 4) - 36 * Y (n - 3) + 48 * Y (n - 2) -
        25 * Y (n - 1)) / (3 * (X (n - 5) - X (n - 1)))) ∧
      ∀ i, 2 ≤ i → i < n - 2 → r[i]? =
        some ((-Y (i + 2) + 8 * Y (i + 1) - 8 * Y (i - 1) + Y (i - 2)) /
          (3 * (X (i + 2) - X (i - 1)))) := by
  obtain ⟨r, e, rl, hr⟩ := forRange_fill
    (fun i => (-Y (i + 2) + 8 * Y (i + 1) - 8 * Y (i - 1) + Y (i - 2)) /
          (3 * (X (i + 2) - X (i - 1)))) (lo := 2) (hi := n - 2) (n := n)
    (by omega) (by omega) out ho
    (fun i out => do
      let a ← rd ys (i + 2)
      let b ← rd ys (i + 1)
      let c ← rd ys (i - 1)
      let d ← rd ys (i - 2)
      let x2 ← rd xs (i + 2)
      let x1 ← rd xs (i - 1)
      wr out i ((-a + 8 * b - 8 * c + d) / (3 * (x2 - x1)))) (by
    intro k st h1 h2 h3 _
    rw [rd_fn_nat hy (k + 2) (by omega) (by omega), rd_fn_nat hy (k + 1) (by omega) (by omega),
      rd_fn_nat hy (k - 1) (by omega) (by omega), rd_fn_nat hy (k - 2) (by omega) (by omega),
      rd_fn_nat hx (k + 2) (by omega) (by omega), rd_fn_nat hx (k - 1) (by omega) (by omega)]
    rfl)
  have en : ((xs.length : Int) - 2) = ((n - 2 : Nat) : Int) := by omega
  unfold deriv4
  rw [Nat.cast_ofNat] at e
  simp only [en]
  rw [e]
  have f0 : rd ys 0 = some (Y 0) := rd_fn_nat hy 0 (by omega) (by omega)
  have f1 : rd ys 1 = some (Y 1) := rd_fn_nat hy 1 (by omega) (by omega)
  have f2 : rd ys 2 = some (Y 2) := rd_fn_nat hy 2 (by omega) (by omega)
  have f3 : rd ys 3 = some (Y 3) := rd_fn_nat hy 3 (by omega) (by omega)
  have f4 : rd ys 4 = some (Y 4) := rd_fn_nat hy 4 (by omega) (by omega)
  have g4 : rd xs 4 = some (X 4) := rd_fn_nat hx 4 (by omega) (by omega)
  have g0 : rd xs 0 = some (X 0) := rd_fn_nat hx 0 (by omega) (by omega)
  have k1 : rd ys ((xs.length : Int) - 1) = some (Y (n - 1)) :=
    rd_fn_nat hy (n - 1) (by omega) (by omega)
  have k2 : rd ys ((n - 2 : Nat) : Int) = some (Y (n - 2)) := rd_fn_nat hy _ rfl (by omega)
  have k3 : rd ys ((xs.length : Int) - 3) = some (Y (n - 3)) :=
    rd_fn_nat hy (n - 3) (by omega) (by omega)
  have k4 : rd ys ((xs.length : Int) - 4) = some (Y (n - 4)) :=
    rd_fn_nat hy (n - 4) (by omega) (by omega)
  have k5 : rd ys ((xs.length : Int) - 5) = some (Y (n - 5)) :=
    rd_fn_nat hy (n - 5) (by omega) (by omega)
  have l1 : rd xs ((xs.length : Int) - 1) = some (X (n - 1)) :=
    rd_fn_nat hx (n - 1) (by omega) (by omega)
  have l5 : rd xs ((xs.length : Int) - 5) = some (X (n - 5)) :=
    rd_fn_nat hx (n - 5) (by omega) (by omega)
  have w0 : ∀ v, wr r 0 v = some (r.set 0 v) := fun v => wr_of_lt (by omega) (by omega)
  have w1 : ∀ v w, wr (r.set 0 v) ((n - 2 : Nat) : Int) w = some ((r.set 0 v).set (n - 2) w) :=
    fun v w => wr_natCast (by simp; omega)
  have w2 : ∀ v w u, wr ((r.set 0 v).set (n - 2) w) 1 u =
      some (((r.set 0 v).set (n - 2) w).set 1 u) :=
    fun v w u => wr_of_lt (by omega) (by simp; omega)
  have w3 : ∀ v w u t, wr (((r.set 0 v).set (n - 2) w).set 1 u) ((xs.length : Int) - 1) t =
      some ((((r.set 0 v).set (n - 2) w).set 1 u).set (n - 1) t) := by
    intro v w u t
    rw [show (xs.length : Int) - 1 = ((n - 1 : Nat) : Int) by omega]
    exact wr_natCast (by simp; omega)
  simp only [f0, f1, f2, f3, f4, g4, g0, k1, k2, k3, k4, k5, l1, l5, bind, Option.bind_some, w0, w1,
    w2, w3]
  refine ⟨_, rfl, by simpa using rl, ?_, ?_, ?_, ?_, ?_⟩
  · rw [List.getElem?_set_ne (by omega), List.getElem?_set_ne (by omega),
      List.getElem?_set_ne (by omega), List.getElem?_set_self (by omega)]
  · rw [List.getElem?_set_ne (by omega), List.getElem?_set_self (by simp; omega)]
  · rw [List.getElem?_set_ne (by omega), List.getElem?_set_ne (by omega),
      List.getElem?_set_self (by simp; omega)]
  · rw [List.getElem?_set_self (by simp; omega)]
  · intro i h1 h2
    rw [List.getElem?_set_ne (by omega), List.getElem?_set_ne (by omega),
      List.getElem?_set_ne (by omega), List.getElem?_set_ne (by omega), hr, if_pos ⟨h1, h2⟩]

/-- The buffers `Deriv` accepts: none, or one of the right length. -/
def OutOk (out : Option (List ℚ)) (n : Nat) : Prop := ∀ o, out = some o → o.length = n

theorem deriv_two (xs ys : List ℚ) (out : Option (List ℚ)) (hy : ys.length = xs.length)
    (ho : OutOk out xs.length) :
    ∃ o, o.length = xs.length ∧ deriv xs ys 2 out = deriv2 xs ys o := by
  unfold deriv
  cases out with
  | none => exact ⟨List.replicate xs.length 0, by simp, by simp [hy]⟩
  | some o => exact ⟨o, ho o rfl, by simp [hy, ho o rfl]⟩

theorem deriv_four (xs ys : List ℚ) (out : Option (List ℚ)) (hy : ys.length = xs.length)
    (ho : OutOk out xs.length) :
    ∃ o, o.length = xs.length ∧ deriv xs ys 4 out = deriv4 xs ys o := by
  unfold deriv
  cases out with
  | none => exact ⟨List.replicate xs.length 0, by simp, by simp [hy]⟩
  | some o => exact ⟨o, ho o rfl, by simp [hy, ho o rfl]⟩

/-- C13 (order 2): samples of any quadratic on any uniform grid of three or more points give the exact
derivative at every point, edges included. -/
theorem C13_order2_quadratic (a b c x0 h : ℚ) (hh : h ≠ 0) (n : Nat) (hn : 3 ≤ n) (xs ys : List ℚ)
    (hxl : xs.length = n) (hyl : ys.length = n)
    (hx : ∀ i < n, xs[i]? = some (x0 + i * h))
    (hy : ∀ i < n, ys[i]? = some (a * (x0 + i * h) ^ 2 + b * (x0 + i * h) + c))
    (out : Option (List ℚ)) (ho : OutOk out n) :
    ∃ r, deriv xs ys 2 out = some r ∧ r.length = n ∧
      ∀ i < n, r[i]? = some (2 * a * (x0 + i * h) + b) := by
  obtain ⟨o, ol, e⟩ := deriv_two xs ys out (by omega) (by rw [hxl]; exact ho)
  obtain ⟨r, e2, rl, r0, r1, r2⟩ := deriv2_spec (fun i => x0 + i * h)
    (fun i => a * (x0 + i * h) ^ 2 + b * (x0 + i * h) + c) n hn xs ys o hxl hx hy (by omega)
  refine ⟨r, by rw [e, e2], rl, ?_⟩
  intro i hi
  rcases Nat.eq_zero_or_pos i with h0 | h0
  · subst h0
    rw [r0]; congr 1
    push_cast
    field_simp
    ring
  rcases Nat.lt_or_ge i (n - 1) with h1 | h1
  · rw [r2 i h0 h1]; congr 1
    obtain ⟨k, rfl⟩ : ∃ k, i = k + 1 := ⟨i - 1, by omega⟩
    simp only [Nat.add_sub_cancel]
    push_cast
    have : x0 + ((k : ℚ) + 1 + 1) * h - (x0 + (k : ℚ) * h) = 2 * h := by ring
    rw [this]
    field_simp
    ring
  · have : i = n - 1 := by omega
    subst this
    rw [r1]; congr 1
    obtain ⟨k, rfl⟩ : ∃ k, n = k + 3 := ⟨n - 3, by omega⟩
    simp only [Nat.add_sub_cancel, show k + 3 - 1 = k + 2 from rfl, show k + 3 - 2 = k + 1 from rfl]
    push_cast
    have : x0 + ((k : ℚ) + 2) * h - (x0 + (k : ℚ) * h) = 2 * h := by ring
    rw [this]
    field_simp
    ring

/-- Hypotheses of `C13_order2_quadratic` on a concrete grid. -/
example : deriv [1, 3, 5, 7] [1, 9, 25, 49] 2 (some [0, 0, 0, 0]) = some [2, 6, 10, 14] := by
  decide +kernel

/-- C13 (order 2, interior of any grid): linear data give the slope at every interior point. -/
theorem C13_order2_linear_interior_partial (a b : ℚ) (X : Nat → ℚ) (n : Nat) (hn : 3 ≤ n)
    (hX : ∀ i, X i < X (i + 1)) (xs ys : List ℚ) (hxl : xs.length = n) (hyl : ys.length = n)
    (hx : ∀ i < n, xs[i]? = some (X i)) (hy : ∀ i < n, ys[i]? = some (a * X i + b))
    (out : Option (List ℚ)) (ho : OutOk out n) :
    ∃ r, deriv xs ys 2 out = some r ∧ r.length = n ∧ ∀ i, 1 ≤ i → i < n - 1 → r[i]? = some a := by
  obtain ⟨o, ol, e⟩ := deriv_two xs ys out (by omega) (by rw [hxl]; exact ho)
  obtain ⟨r, e2, rl, _, _, r2⟩ := deriv2_spec X (fun i => a * X i + b) n hn xs ys o hxl hx hy (by omega)
  refine ⟨r, by rw [e, e2], rl, ?_⟩
  intro i h1 h2
  rw [r2 i h1 h2]; congr 1
  have l1 := hX i
  have l2 := hX (i - 1)
  rw [Nat.sub_add_cancel h1] at l2
  have l3 : X (i - 1) < X (i + 1) := l2.trans l1
  have : X (i + 1) - X (i - 1) ≠ 0 := (sub_pos.mpr l3).ne'
  field_simp
  ring

/-- C13 fails for linear data at the edges of a non-uniform grid (`y = x` on `0, 1, 3`). -/
theorem C13_linear_edge_counterexample :
    deriv [0, 1, 3] [0, 1, 3] 2 none = some [1 / 3, 1, 5 / 3] := by decide +kernel

/-- C13 (order 4, edges): samples of any quartic on a uniform grid of five or more points give the exact
derivative at the two first and the two last points.  At the other points the result is 4/3 of it, because
the interior stencil divides by `3 (x[i+2] - x[i-1])`; so the full property is false. -/
theorem C13_order4_quartic_partial (p4 p3 p2 p1 p0 x0 h : ℚ) (hh : h ≠ 0) (n : Nat) (hn : 5 ≤ n)
    (xs ys : List ℚ) (hxl : xs.length = n) (hyl : ys.length = n)
    (hx : ∀ i < n, xs[i]? = some (x0 + i * h))
    (hy : ∀ i < n, ys[i]? = some (p4 * (x0 + i * h) ^ 4 + p3 * (x0 + i * h) ^ 3 +
      p2 * (x0 + i * h) ^ 2 + p1 * (x0 + i * h) + p0))
    (out : Option (List ℚ)) (ho : OutOk out n) :
    ∃ r, deriv xs ys 4 out = some r ∧ r.length = n ∧
      ∀ i < n, r[i]? = some ((if i < 2 ∨ n - 2 ≤ i then 1 else 4 / 3) *
        (4 * p4 * (x0 + i * h) ^ 3 + 3 * p3 * (x0 + i * h) ^ 2 + 2 * p2 * (x0 + i * h) + p1)) := by
  obtain ⟨o, ol, e⟩ := deriv_four xs ys out (by omega) (by rw [hxl]; exact ho)
  obtain ⟨r, e2, rl, r0, r1, q2, q1, r2⟩ := deriv4_spec (fun i => x0 + i * h)
    (fun i => p4 * (x0 + i * h) ^ 4 + p3 * (x0 + i * h) ^ 3 +
      p2 * (x0 + i * h) ^ 2 + p1 * (x0 + i * h) + p0) n hn xs ys o hxl hx hy (by omega)
  refine ⟨r, by rw [e, e2], rl, ?_⟩
  intro i hi
  have cases5 : i = 0 ∨ i = 1 ∨ (2 ≤ i ∧ i < n - 2) ∨ i = n - 2 ∨ i = n - 1 := by omega
  obtain ⟨m, hm⟩ : ∃ m, n = m + 5 := ⟨n - 5, by omega⟩
  have x40 : x0 + ((m : ℚ)) * h - (x0 + ((m : ℚ) + 4) * h) = -(4 * h) := by ring
  have h12 : (3 * (4 * h) : ℚ) ≠ 0 := by simpa using hh
  rcases cases5 with c | c | c | c | c
  · subst c
    rw [if_pos (by omega), r0]; congr 1
    push_cast
    have : x0 + 4 * h - (x0 + 0 * h) = 4 * h := by ring
    rw [this, div_eq_iff h12]
    ring
  · subst c
    rw [if_pos (by omega), r1]; congr 1
    push_cast
    have : x0 + 4 * h - (x0 + 0 * h) = 4 * h := by ring
    rw [this, div_eq_iff h12]
    ring
  · rw [if_neg (by omega), r2 i c.1 c.2]; congr 1
    obtain ⟨k, rfl⟩ : ∃ k, i = k + 2 := ⟨i - 2, by omega⟩
    simp only [Nat.add_sub_cancel, show k + 2 - 1 = k + 1 from rfl]
    push_cast
    have : x0 + ((k : ℚ) + 2 + 2) * h - (x0 + ((k : ℚ) + 1) * h) = 3 * h := by ring
    have h9 : (3 * (3 * h) : ℚ) ≠ 0 := by simpa using hh
    rw [this, div_eq_iff h9]
    ring
  · rw [c, if_pos (by omega), q2]; congr 1
    subst hm
    simp only [Nat.add_sub_cancel, show m + 5 - 1 = m + 4 from rfl, show m + 5 - 2 = m + 3 from rfl,
      show m + 5 - 3 = m + 2 from rfl, show m + 5 - 4 = m + 1 from rfl]
    push_cast
    rw [x40, div_eq_iff (by simpa using hh)]
    ring
  · rw [c, if_pos (by omega), q1]; congr 1
    subst hm
    simp only [Nat.add_sub_cancel, show m + 5 - 1 = m + 4 from rfl, show m + 5 - 2 = m + 3 from rfl,
      show m + 5 - 3 = m + 2 from rfl, show m + 5 - 4 = m + 1 from rfl]
    push_cast
    rw [x40, div_eq_iff (by simpa using hh)]
    ring

/-- C13 fails for order 4: `y = x` on `0..4` has slope 4/3 in the middle. -/
theorem C13_order4_counterexample :
    deriv [0, 1, 2, 3, 4] [0, 1, 2, 3, 4] 4 none = some [1, 1, 4 / 3, 1, 1] := by decide +kernel

/-- C13 fails for order 0: the abscissae are returned instead of the data. -/
theorem C13_order0_returns_xs (xs ys : List ℚ) (h : ys.length = xs.length) (out : Option (List ℚ))
    (ho : OutOk out xs.length) : deriv xs ys 0 out = some xs := by
  have key : ∀ o : List ℚ, o.length = xs.length →
      forRange 0 xs.length (fun i out => do
        let x ← rd xs i
        wr out i x) o = some xs := by
    intro o hl
    have hx : ∀ i < xs.length, xs[i]? = some (xs.getD i 0) := by
      intro i hi; rw [List.getD_eq_getElem?_getD, List.getElem?_eq_getElem hi]; rfl
    obtain ⟨r, e, rl, hr⟩ := forRange_fill (fun i => xs.getD i 0) (lo := 0) (hi := xs.length)
      (n := xs.length) (by omega) (le_refl _) o hl (fun i out => do
        let x ← rd xs i
        wr out i x) (by
        intro k st _ h2 _ _
        rw [rd_fn_nat hx k rfl h2]; rfl)
    rw [show (0 : Int) = ((0 : Nat) : Int) from rfl, e]
    congr 1
    apply List.ext_getElem?
    intro i
    rw [hr]
    by_cases c : i < xs.length
    · rw [if_pos ⟨by omega, c⟩, hx i c]
    · rw [if_neg (by omega), List.getElem?_eq_none (by omega), List.getElem?_eq_none (by omega)]
  unfold deriv
  cases out with
  | none => simp only [h]; simpa using key _ (by simp)
  | some o => simp only [h, ho o rfl]; simpa using key o (ho o rfl)

theorem C13_order0_counterexample : deriv [0, 1, 2] [5, 6, 8] 0 none = some [0, 1, 2] := by
  decide +kernel

/-- C13: wrong lengths and unsupported orders are rejected. -/
theorem C13_rejects (xs ys : List ℚ) (order : Int) (out : Option (List ℚ))
    (h : ys.length ≠ xs.length ∨ (∃ o, out = some o ∧ o.length ≠ xs.length) ∨
      (order ≠ 0 ∧ order ≠ 2 ∧ order ≠ 4)) : deriv xs ys order out = none := by
  unfold deriv
  rcases h with h | ⟨o, rfl, h⟩ | ⟨h1, h2, h3⟩
  · simp [h]
  · simp [h]
  · simp [h1, h2, h3]

example : deriv [0, 1, 2] [5, 6] 2 none = none := C13_rejects _ _ _ _ (Or.inl (by decide))

end Verif.Calc
