import Verif.Py.VecDerivModel
import Verif.Py.Rsp
import Mathlib.Data.List.GetD
import Mathlib.Tactic.FieldSimp
import Mathlib.Tactic.Ring
import Mathlib.Tactic.Linarith

/-!
# C161: numerical derivatives in the plotting scripts

Specification: the derivative of a polynomial.
-/

set_option autoImplicit false

namespace Verif.Py

open Verif.Go

/-- A polynomial of degree at most 4. -/
def quartic (a b c d e x : ℚ) : ℚ := a + b * x + c * x ^ 2 + d * x ^ 3 + e * x ^ 4

/-- Its derivative. -/
def quartic' (b c d e x : ℚ) : ℚ := b + 2 * c * x + 3 * d * x ^ 2 + 4 * e * x ^ 3

theorem pyRd_tab {n : Nat} (f : Nat → ℚ) (i : Nat) (h : i < n) : pyRd (tab n f) i = some (f i) := by
  unfold pyRd
  rw [if_neg (by omega), rd_of_lt (by rw [tab_length]; exact h)]
  simp [tab]

theorem pyRd_tab_neg {n : Nat} (f : Nat → ℚ) (i : Nat) (h0 : 0 < i) (h : i ≤ n) :
    pyRd (tab n f) (-(i : Int)) = some (f (n - i)) := by
  unfold pyRd
  rw [if_pos (by omega), tab_length, show -(i : Int) + n = ((n - i : Nat) : Int) by omega,
    rd_of_lt (by rw [tab_length]; omega)]
  simp [tab]

theorem roll_tab {n : Nat} (f : Nat → ℚ) (k : Int) :
    roll (tab n f) k = tab n fun i => (tab n f).getD (((i : Int) - k) % n).toNat 0 := by
  unfold roll
  rw [tab_length]
  rfl

theorem zipWith_tab (g : ℚ → ℚ → ℚ) (n : Nat) (f f' : Nat → ℚ) :
    List.zipWith g (tab n f) (tab n f') = tab n fun i => g (f i) (f' i) := by
  unfold tab
  rw [List.zipWith_map, List.zipWith_self]

theorem map_tab (g : ℚ → ℚ) (n : Nat) (f : Nat → ℚ) : (tab n f).map g = tab n fun i => g (f i) := by
  unfold tab
  rw [List.map_map]; rfl

theorem tab_congr {n : Nat} {f g : Nat → ℚ} (h : ∀ i, i < n → f i = g i) : tab n f = tab n g :=
  List.map_congr_left (fun i hi => h i (List.mem_range.mp hi))

theorem set_tab {n : Nat} (f : Nat → ℚ) (k : Nat) (v : ℚ) :
    (tab n f).set k v = tab n fun i => if i = k then v else f i := by
  apply List.ext_getElem?
  intro i
  rw [List.getElem?_set]
  unfold tab
  by_cases h : k = i
  · subst h
    by_cases h2 : k < n
    · simp [h2]
    · simp [h2]
  · rw [if_neg h]
    by_cases h2 : i < n
    · simp [h2, Ne.symm h]
    · simp [h2]

theorem pyWr_tab {n : Nat} (f : Nat → ℚ) (i : Nat) (h : i < n) (v : ℚ) :
    pyWr (tab n f) i v = some (tab n fun j => if j = i then v else f j) := by
  unfold pyWr
  rw [if_neg (by omega), wr_of_lt (by omega) (by rw [tab_length]; omega), set_tab, Int.toNat_natCast]

theorem pyWr_tab_neg {n : Nat} (f : Nat → ℚ) (i : Nat) (h0 : 0 < i) (h : i ≤ n) (v : ℚ) :
    pyWr (tab n f) (-(i : Int)) v = some (tab n fun j => if j = n - i then v else f j) := by
  unfold pyWr
  rw [if_pos (by omega), tab_length, show -(i : Int) + n = ((n - i : Nat) : Int) by omega,
    wr_of_lt (by omega) (by rw [tab_length]; omega), set_tab, Int.toNat_natCast]

theorem rolled {n i : Nat} (f : Nat → ℚ) {k : Int} {j : Nat} (h : (i : Int) - k = j) (hj : j < n) :
    (tab n f).getD (((i : Int) - k) % n).toNat 0 = f j := by
  rw [h, Int.emod_eq_of_lt (by omega) (by omega), Int.toNat_natCast, tab_getD f hj]

/-- C161, order 4: at least five evenly spaced points and the values of a polynomial of degree at most 4 give the
derivative of that polynomial at every point. -/
theorem C161_order4 (n : Nat) (hn : 5 ≤ n) (x0 h : ℚ) (hh : h ≠ 0) (a b c d e : ℚ) :
    vectorDeriv (tab n fun i => x0 + i * h) (tab n fun i => quartic a b c d e (x0 + i * h)) 4 =
      some (tab n fun i => quartic' b c d e (x0 + i * h)) := by
  obtain ⟨m, rfl⟩ : ∃ m, n = m + 5 := ⟨n - 5, by omega⟩
  unfold vectorDeriv
  rw [if_neg (by simp [tab_length]), if_neg (by norm_num), if_pos rfl]
  unfold vecDeriv4 num4
  have q : ∀ (f : Nat → ℚ), pyRd (tab (m + 5) f) 0 = some (f 0) ∧ pyRd (tab (m + 5) f) 1 = some (f 1) ∧
      pyRd (tab (m + 5) f) 2 = some (f 2) ∧ pyRd (tab (m + 5) f) 3 = some (f 3) ∧ pyRd (tab (m + 5) f) 4 = some (f 4) ∧
      pyRd (tab (m + 5) f) (-1) = some (f (m + 4)) ∧ pyRd (tab (m + 5) f) (-2) = some (f (m + 3)) ∧
      pyRd (tab (m + 5) f) (-3) = some (f (m + 2)) ∧ pyRd (tab (m + 5) f) (-4) = some (f (m + 1)) ∧
      pyRd (tab (m + 5) f) (-5) = some (f m) := by
    intro f
    refine ⟨pyRd_tab f 0 (by omega), pyRd_tab f 1 (by omega), pyRd_tab f 2 (by omega), pyRd_tab f 3 (by omega),
      pyRd_tab f 4 (by omega), ?_, ?_, ?_, ?_, ?_⟩
    · exact pyRd_tab_neg f 1 (by omega) (by omega)
    · exact pyRd_tab_neg f 2 (by omega) (by omega)
    · exact pyRd_tab_neg f 3 (by omega) (by omega)
    · exact pyRd_tab_neg f 4 (by omega) (by omega)
    · exact pyRd_tab_neg f 5 (by omega) (by omega)
  obtain ⟨x1, x2, x3, x4, x5, x6, x7, x8, x9, x10⟩ := q fun i => x0 + i * h
  obtain ⟨y1, y2, y3, y4, y5, y6, y7, y8, y9, y10⟩ := q fun i => quartic a b c d e (x0 + i * h)
  simp only [x1, x5, x6, x10, y1, y2, y3, y4, y5, y6, y7, y8, y9, y10, Option.bind_eq_bind, Option.bind_some, roll_tab,
    zipWith_tab, map_tab]
  have w0 : ∀ (f : Nat → ℚ) v, pyWr (tab (m + 5) f) 0 v = some (tab (m + 5) fun j => if j = 0 then v else f j) :=
    fun f v => pyWr_tab f 0 (by omega) v
  have w1 : ∀ (f : Nat → ℚ) v, pyWr (tab (m + 5) f) 1 v = some (tab (m + 5) fun j => if j = 1 then v else f j) :=
    fun f v => pyWr_tab f 1 (by omega) v
  have w2 : ∀ (f : Nat → ℚ) v, pyWr (tab (m + 5) f) (-2) v = some (tab (m + 5) fun j => if j = m + 3 then v else f j) :=
    fun f v => pyWr_tab_neg f 2 (by omega) (by omega) v
  have w3 : ∀ (f : Nat → ℚ) v, pyWr (tab (m + 5) f) (-1) v = some (tab (m + 5) fun j => if j = m + 4 then v else f j) :=
    fun f v => pyWr_tab_neg f 1 (by omega) (by omega) v
  simp only [w0, w1, w2, w3, Option.bind_some]
  congr 1
  apply tab_congr
  intro i hi
  have hh3 : (3 : ℚ) * (4 * h) ≠ 0 := by positivity
  split_ifs with c1 c2 c3 c4
  · subst c1
    push_cast
    rw [div_eq_iff (by
      rw [show x0 + (m : ℚ) * h - (x0 + (m + 4) * h) = -(4 * h) by ring]
      intro hc; apply hh3; linarith)]
    unfold quartic quartic'
    ring
  · subst c2
    push_cast
    rw [div_eq_iff (by intro hc; apply hh3; linarith)]
    unfold quartic quartic'
    ring
  · subst c3
    push_cast
    rw [div_eq_iff (by
      rw [show x0 + (m : ℚ) * h - (x0 + (m + 4) * h) = -(4 * h) by ring]
      intro hc; apply hh3; linarith)]
    unfold quartic quartic'
    ring
  · subst c4
    push_cast
    rw [div_eq_iff (by intro hc; apply hh3; linarith)]
    unfold quartic quartic'
    ring
  · obtain ⟨j, rfl⟩ : ∃ j, i = j + 2 := ⟨i - 2, by omega⟩
    have hj : j + 4 < m + 5 := by omega
    rw [rolled _ (show ((j + 2 : Nat) : Int) - 2 = (j : Nat) by push_cast; ring) (by omega),
      rolled _ (show ((j + 2 : Nat) : Int) - 1 = (j + 1 : Nat) by push_cast; ring) (by omega),
      rolled _ (show ((j + 2 : Nat) : Int) - (-1) = (j + 3 : Nat) by push_cast; ring) (by omega),
      rolled _ (show ((j + 2 : Nat) : Int) - (-2) = (j + 4 : Nat) by push_cast; ring) (by omega),
      rolled _ (show ((j + 2 : Nat) : Int) - 2 = (j : Nat) by push_cast; ring) (by omega),
      rolled _ (show ((j + 2 : Nat) : Int) - (-2) = (j + 4 : Nat) by push_cast; ring) (by omega)]
    push_cast
    rw [div_eq_iff (by
      rw [show x0 + (j : ℚ) * h - (x0 + (j + 4) * h) = -(4 * h) by ring]
      intro hc; apply hh3; linarith)]
    unfold quartic quartic'
    ring

example : vectorDeriv (tab 6 fun i => 1 + i * 2) (tab 6 fun i => quartic 0 0 1 0 1 (1 + i * 2)) 4 =
    some [6, 114, 510, 1386, 2934, 5346] := by decide +kernel

/-- C161, order 2: at least three evenly spaced points and a polynomial of degree at most 2. -/
theorem C161_order2 (n : Nat) (hn : 3 ≤ n) (x0 h : ℚ) (hh : h ≠ 0) (a b c : ℚ) :
    vectorDeriv (tab n fun i => x0 + i * h) (tab n fun i => quartic a b c 0 0 (x0 + i * h)) 2 =
      some (tab n fun i => quartic' b c 0 0 (x0 + i * h)) := by
  obtain ⟨m, rfl⟩ : ∃ m, n = m + 3 := ⟨n - 3, by omega⟩
  unfold vectorDeriv
  rw [if_neg (by simp [tab_length]), if_pos rfl]
  unfold vecDeriv2
  have q : ∀ (f : Nat → ℚ), pyRd (tab (m + 3) f) 0 = some (f 0) ∧ pyRd (tab (m + 3) f) 1 = some (f 1) ∧
      pyRd (tab (m + 3) f) 2 = some (f 2) ∧ pyRd (tab (m + 3) f) (-1) = some (f (m + 2)) ∧
      pyRd (tab (m + 3) f) (-2) = some (f (m + 1)) ∧ pyRd (tab (m + 3) f) (-3) = some (f m) := by
    intro f
    refine ⟨pyRd_tab f 0 (by omega), pyRd_tab f 1 (by omega), pyRd_tab f 2 (by omega), ?_, ?_, ?_⟩
    · exact pyRd_tab_neg f 1 (by omega) (by omega)
    · exact pyRd_tab_neg f 2 (by omega) (by omega)
    · exact pyRd_tab_neg f 3 (by omega) (by omega)
  obtain ⟨x1, x2, x3, x4, x5, x6⟩ := q fun i => x0 + i * h
  obtain ⟨y1, y2, y3, y4, y5, y6⟩ := q fun i => quartic a b c 0 0 (x0 + i * h)
  simp only [x1, x3, x4, x6, y1, y2, y3, y4, y5, y6, Option.bind_eq_bind, Option.bind_some, roll_tab, zipWith_tab]
  have w0 : ∀ (f : Nat → ℚ) v, pyWr (tab (m + 3) f) 0 v = some (tab (m + 3) fun j => if j = 0 then v else f j) :=
    fun f v => pyWr_tab f 0 (by omega) v
  have w3 : ∀ (f : Nat → ℚ) v, pyWr (tab (m + 3) f) (-1) v = some (tab (m + 3) fun j => if j = m + 2 then v else f j) :=
    fun f v => pyWr_tab_neg f 1 (by omega) (by omega) v
  simp only [w0, w3, Option.bind_some]
  congr 1
  apply tab_congr
  intro i hi
  split_ifs with c1 c2
  · subst c1
    push_cast
    rw [div_eq_iff (by intro hc; apply hh; linarith)]
    unfold quartic quartic'
    ring
  · subst c2
    push_cast
    rw [div_eq_iff (by intro hc; apply hh; linarith)]
    unfold quartic quartic'
    ring
  · obtain ⟨j, rfl⟩ : ∃ j, i = j + 1 := ⟨i - 1, by omega⟩
    rw [rolled _ (show ((j + 1 : Nat) : Int) - 1 = (j : Nat) by push_cast; ring) (by omega),
      rolled _ (show ((j + 1 : Nat) : Int) - (-1) = (j + 2 : Nat) by push_cast; ring) (by omega),
      rolled _ (show ((j + 1 : Nat) : Int) - 1 = (j : Nat) by push_cast; ring) (by omega),
      rolled _ (show ((j + 1 : Nat) : Int) - (-1) = (j + 2 : Nat) by push_cast; ring) (by omega)]
    push_cast
    rw [div_eq_iff (by intro hc; apply hh; linarith)]
    unfold quartic quartic'
    ring

example : vectorDeriv [1, 3, 5, 7] [1, 9, 25, 49] 2 = some [2, 6, 10, 14] := by decide +kernel

theorem pyRd_none {xs : List ℚ} {i : Nat} (h : xs.length ≤ i) : pyRd xs i = none := by
  unfold pyRd
  rw [if_neg (by omega)]
  unfold rd
  simp [h]

/-- C161: arrays of different lengths, too few points and other orders are errors. -/
theorem C161_errors (xs ys : List ℚ) (order : Int) (h : xs.length ≠ ys.length ∨ (order ≠ 2 ∧ order ≠ 4) ∨
    (order = 2 ∧ ys.length < 3) ∨ (order = 4 ∧ ys.length < 5)) : vectorDeriv xs ys order = none := by
  unfold vectorDeriv
  split
  · rfl
  rename_i hl
  push Not at hl
  have two : ∀ (a : Option ℚ) (f : ℚ → Option (List ℚ)), a = none → (a.bind f) = none := by
    rintro a f rfl; rfl
  rcases h with h | ⟨h1, h2⟩ | ⟨rfl, h⟩ | ⟨rfl, h⟩
  · exact absurd hl h
  · rw [if_neg h1, if_neg h2]
  · rw [if_pos rfl]
    unfold vecDeriv2
    have e : pyRd ys 2 = none := pyRd_none (i := 2) (by omega)
    rw [e]
    cases pyRd ys 0 <;> cases pyRd ys 1 <;> rfl
  · rw [if_neg (by norm_num), if_pos rfl]
    unfold vecDeriv4
    have e : pyRd ys 4 = none := pyRd_none (i := 4) (by omega)
    rw [e]
    rfl

example : vectorDeriv [1, 2, 3, 4] [1, 2, 3, 4] 4 = none := by decide +kernel

/-- C161 fails for points that are not evenly spaced: a straight line does not have its slope at the ends (order 2), nor
anywhere (order 4). -/
theorem C161_uneven_counterexample :
    vectorDeriv [0, 1, 3, 4] [0, 1, 3, 4] 2 = some [1/3, 1, 1, 1/3] ∧
    vectorDeriv [0, 1, 3, 7, 15] [0, 1, 3, 7, 15] 4 ≠ some [1, 1, 1, 1, 1] := by decide +kernel

end Verif.Py
