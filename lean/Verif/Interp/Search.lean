import Verif.Interp.Model

/-! Table search and linear interpolation: properties C14–C17 (linear part). -/

namespace Verif.Interp

open Verif.Go

theorem rd_getD {xs : List ℚ} {i : Nat} (h : i < xs.length) : xs[i]? = some (xs.getD i 0) := by
  rw [List.getD_eq_getElem?_getD, List.getElem?_eq_getElem h]; rfl

/-- The result of the binary search loop, for any table. -/
theorem bisect_spec (X : Nat → ℚ) (n : Nat) (xs : List ℚ) (hx : ∀ i < n, xs[i]? = some (X i))
    (incr : Bool) (x : ℚ) : ∀ (lo hi : Nat), lo < hi → hi < n →
    ∃ i, bisect xs incr x lo hi = some i ∧ lo ≤ i ∧ i + 1 ≤ hi ∧
      (i = lo ∨ incr = decide (x ≥ X i)) ∧ (i + 1 = hi ∨ ¬ incr = decide (x ≥ X (i + 1))) := by
  intro lo hi
  induction h : hi - lo using Nat.strong_induction_on generalizing lo hi with
  | _ d ih =>
    intro h1 h2
    rw [bisect]
    by_cases c : hi - lo > 1
    · rw [dif_pos c]
      have hm : rd xs (((lo + hi) / 2 : Nat) : Int) = some (X ((lo + hi) / 2)) :=
        rd_fn_nat hx _ rfl (by omega)
      simp only [hm, bind, Option.bind_some]
      by_cases e : incr = decide (x ≥ X ((lo + hi) / 2))
      · rw [if_pos e]
        obtain ⟨i, e1, a, b, c', d'⟩ := ih (hi - (lo + hi) / 2) (by omega) ((lo + hi) / 2) hi rfl
          (by omega) h2
        refine ⟨i, e1, by omega, b, ?_, d'⟩
        rcases c' with c' | c'
        · right; rw [c']; exact e
        · right; exact c'
      · rw [if_neg e]
        obtain ⟨i, e1, a, b, c', d'⟩ := ih ((lo + hi) / 2 - lo) (by omega) lo ((lo + hi) / 2) rfl
          (by omega) (by omega)
        refine ⟨i, e1, a, by omega, c', ?_⟩
        rcases d' with d' | d'
        · right; rw [d']; exact e
        · right; exact d'
    · rw [dif_neg c]
      exact ⟨lo, rfl, le_refl _, by omega, Or.inl rfl, Or.inl (by omega)⟩

/-- The result of the guess test. -/
theorem guessOk_spec (X : Nat → ℚ) (n : Nat) (xs : List ℚ) (hl : xs.length = n)
    (hx : ∀ i < n, xs[i]? = some (X i)) (incr : Bool) (x : ℚ) (g : Int) :
    ∃ ok, guessOk xs incr x g = some ok ∧ (ok = true → ∃ i : Nat, g = i ∧ i + 1 < n ∧
      decide (X i ≤ x) = incr ∧ decide (X (i + 1) ≥ x) = incr) := by
  unfold guessOk
  by_cases c : g ≥ 0 ∧ g < (xs.length : Int) - 1
  · rw [if_pos c]
    obtain ⟨i, rfl⟩ := Int.eq_ofNat_of_zero_le c.1
    have h1 : rd xs (i : Int) = some (X i) := rd_fn_nat hx _ rfl (by omega)
    have h2 : rd xs ((i : Int) + 1) = some (X (i + 1)) := rd_fn_nat hx (i + 1) (by omega) (by omega)
    simp only [h1, h2, bind, Option.bind_some]
    split
    · rename_i e
      refine ⟨_, rfl, ?_⟩
      intro h
      exact ⟨i, rfl, by omega, e, by simpa using h⟩
    · exact ⟨false, rfl, by simp⟩
  · rw [if_neg c]
    exact ⟨false, rfl, by simp⟩

/-- Table search in an increasing table brackets the argument, whatever the guess. -/
theorem tableSearch_bracket (X : Nat → ℚ) (n : Nat) (hn : 2 ≤ n) (xs : List ℚ) (hl : xs.length = n)
    (hx : ∀ i < n, xs[i]? = some (X i)) (x : ℚ) (h0 : X 0 ≤ x) (h1 : x ≤ X (n - 1)) (g : Int) :
    ∃ i : Nat, tableSearch xs n true x g = some (i : Int) ∧ i + 1 < n ∧ X i ≤ x ∧ x ≤ X (i + 1) := by
  obtain ⟨ok, e, h⟩ := guessOk_spec X n xs hl hx true x g
  unfold tableSearch
  simp only [e, bind, Option.bind_some]
  cases ok with
  | true =>
    obtain ⟨i, rfl, a, b, c⟩ := h rfl
    exact ⟨i, rfl, a, by simpa using b, by simpa using c⟩
  | false =>
    obtain ⟨i, e1, a, b, c, d⟩ := bisect_spec X n xs hx true x 0 (n - 1) (by omega) (by omega)
    have : ((n : Int) - 1).toNat = n - 1 := by omega
    refine ⟨i, ?_, by omega, ?_, ?_⟩
    · simp only [Bool.false_eq_true, if_false, this, e1, Option.bind_some]
    · rcases c with c | c
      · rw [c]; exact h0
      · simpa using c.symm
    · rcases d with d | d
      · rw [d]; exact h1
      · have : ¬ (x ≥ X (i + 1)) := fun h => d (by simp [h])
        linarith

/-- What the interpolators need to know of a search structure: it describes the grid lines
`X 0 < X 1 < ... < X (n-1)`, finds bracketing grid lines for every argument in range, and rejects the
others. -/
structure Searcher.Grid (s : Searcher) (X : Nat → ℚ) (n : Nat) : Prop where
  two : 2 ≤ n
  num : s.n = n
  mono : ∀ i j, i < j → j < n → X i < X j
  val : ∀ i < n, s.val (i : Int) = some (X i)
  inside : ∀ x, X 0 ≤ x → x ≤ X (n - 1) →
    ∃ i : Nat, s.search x = some (i : Int) ∧ i + 1 < n ∧ X i ≤ x ∧ x ≤ X (i + 1)
  outside : ∀ x, (x < X 0 ∨ X (n - 1) < x) → s.search x = none

/-- Strictly increasing slices, in the form used below. -/
theorem mono_of_pairwise {xs : List ℚ} (h : xs.Pairwise (· < ·)) :
    ∀ i j, i < j → j < xs.length → xs.getD i 0 < xs.getD j 0 := by
  intro i j hij hj
  have := List.pairwise_iff_getElem.mp h i j (by omega) hj hij
  have e1 := rd_getD (show i < xs.length by omega)
  have e2 := rd_getD hj
  rw [List.getElem?_eq_getElem (by omega)] at e1
  rw [List.getElem?_eq_getElem hj] at e2
  rw [← Option.some.inj e1, ← Option.some.inj e2]
  exact this

theorem init_grid (xs : List ℚ) (hn : 2 ≤ xs.length) (hm : xs.Pairwise (· < ·)) :
    ∃ s, Searcher.init xs = some s ∧ s.xs = xs ∧ s.Grid (fun i => xs.getD i 0) xs.length := by
  have hx : ∀ i < xs.length, xs[i]? = some (xs.getD i 0) := fun i hi => rd_getD hi
  have hmono := mono_of_pairwise hm
  have h0 : rd xs 0 = some (xs.getD 0 0) := rd_fn_nat hx 0 rfl (by omega)
  have h1 : rd xs ((xs.length : Int) - 1) = some (xs.getD (xs.length - 1) 0) :=
    rd_fn_nat hx (xs.length - 1) (by omega) (by omega)
  have hlt := hmono 0 (xs.length - 1) (by omega) (by omega)
  have hpos : (0 : ℚ) < (((xs.length : Int) - 1 : Int) : ℚ) :=
    Int.cast_pos.mpr (by omega)
  have hdx : (xs.getD (xs.length - 1) 0 - xs.getD 0 0) / (((xs.length : Int) - 1 : Int) : ℚ) > 0 :=
    div_pos (by linarith) hpos
  unfold Searcher.init
  simp only [h0, h1, bind, Option.bind_some]
  refine ⟨_, rfl, rfl, hn, rfl, hmono, ?_, ?_, ?_⟩
  · intro i hi
    simp only [Searcher.val]
    simpa using rd_fn_nat hx i rfl hi
  · intro x hx0 hx1
    unfold Searcher.search
    rw [if_neg (by simp only [not_or, not_lt]; exact ⟨hx1, hx0⟩)]
    simp only [Bool.false_eq_true, if_false, h0, bind, Option.bind_some, hdx, decide_true]
    exact tableSearch_bracket _ _ hn xs rfl hx x hx0 hx1 _
  · intro x hx
    unfold Searcher.search
    rw [if_pos]
    rcases hx with h | h
    · exact Or.inr h
    · exact Or.inl h

theorem unif_grid (x0 dx : ℚ) (hdx : 0 < dx) (n : Nat) (hn : 2 ≤ n) :
    (Searcher.unifInit x0 dx n).Grid (fun i => x0 + i * dx) n := by
  refine ⟨hn, rfl, ?_, ?_, ?_, ?_⟩
  · intro i j hij _
    have : (i : ℚ) < j := by exact_mod_cast hij
    nlinarith
  · intro i _
    unfold Searcher.val Searcher.unifInit
    rw [if_pos rfl]; congr 1; push_cast; ring
  · intro x h0 h1
    push_cast [Nat.cast_sub (show 1 ≤ n by omega)] at h0 h1
    unfold Searcher.search Searcher.unifInit
    simp only
    rw [if_neg (by push_cast; simp only [not_or, not_lt]; constructor <;> linarith)]
    simp only [if_true]
    have hq0 : 0 ≤ (x - x0) / dx := div_nonneg (by linarith) hdx.le
    rw [trunc_of_nonneg hq0]
    have hq1 : (x - x0) / dx ≤ (n : ℚ) - 1 := by rw [div_le_iff₀ hdx]; linarith
    obtain ⟨k, hk⟩ := Int.eq_ofNat_of_zero_le (Int.floor_nonneg.mpr hq0)
    rw [hk]
    have f1 : (k : ℚ) ≤ (x - x0) / dx := by
      have := Int.floor_le ((x - x0) / dx); rw [hk] at this; exact_mod_cast this
    have f2 : (x - x0) / dx < (k : ℚ) + 1 := by
      have := Int.lt_floor_add_one ((x - x0) / dx); rw [hk] at this; exact_mod_cast this
    have g1 : (k : ℚ) * dx ≤ x - x0 := by rwa [le_div_iff₀ hdx] at f1
    have g2 : x - x0 < ((k : ℚ) + 1) * dx := by rwa [div_lt_iff₀ hdx] at f2
    have hkn : k ≤ n - 1 := by
      have : (k : ℚ) ≤ (n : ℚ) - 1 := f1.trans hq1
      have : (k : ℚ) + 1 ≤ n := by linarith
      have : k + 1 ≤ n := by exact_mod_cast this
      omega
    by_cases c : (k : Int) = (n : Int) - 1
    · rw [if_pos c]
      refine ⟨k - 1, by congr 1; omega, by omega, ?_, ?_⟩
      · push_cast [Nat.cast_sub (show 1 ≤ k by omega)]; nlinarith
      · have : k - 1 + 1 = n - 1 := by omega
        rw [this]; push_cast [Nat.cast_sub (show 1 ≤ n by omega)]; linarith
    · rw [if_neg c]
      refine ⟨k, rfl, by omega, by linarith, ?_⟩
      push_cast; linarith
  · intro x hx
    unfold Searcher.search Searcher.unifInit
    simp only
    rw [if_pos]
    push_cast [Nat.cast_sub (show 1 ≤ n by omega)] at hx ⊢
    rcases hx with h | h
    · right; linarith
    · left; linarith

/-! ### C14 -/

/-- C14: search in a strictly increasing table. -/
theorem C14_table_search (xs : List ℚ) (hn : 2 ≤ xs.length) (hm : xs.Pairwise (· < ·)) :
    ∃ s, Searcher.init xs = some s ∧ ∀ x,
      ((∀ a ∈ xs, x < a) ∨ (∀ a ∈ xs, a < x) → s.search x = none) ∧
      ((∃ a ∈ xs, a ≤ x) → (∃ a ∈ xs, x ≤ a) →
        ∃ (i : Nat) (a b : ℚ), s.search x = some (i : Int) ∧ xs[i]? = some a ∧ xs[i + 1]? = some b ∧
          a ≤ x ∧ x ≤ b) := by
  obtain ⟨s, e, _, g⟩ := init_grid xs hn hm
  refine ⟨s, e, fun x => ⟨?_, ?_⟩⟩
  · intro h
    apply g.outside
    rcases h with h | h
    · left; exact h _ (List.mem_of_getElem? (rd_getD (by omega)))
    · right; exact h _ (List.mem_of_getElem? (rd_getD (by omega)))
  · rintro ⟨a, ha, hax⟩ ⟨b, hb, hbx⟩
    have key : ∀ c ∈ xs, xs.getD 0 0 ≤ c ∧ c ≤ xs.getD (xs.length - 1) 0 := by
      intro c hc
      obtain ⟨k, hk⟩ := List.getElem?_of_mem hc
      have hkl : k < xs.length := (List.getElem?_eq_some_iff.mp hk).1
      rw [rd_getD hkl] at hk
      cases hk
      constructor
      · rcases Nat.eq_zero_or_pos k with h | h
        · rw [h]
        · exact (g.mono 0 k h hkl).le
      · rcases Nat.lt_or_ge k (xs.length - 1) with h | h
        · exact (g.mono k _ h (by omega)).le
        · have : k = xs.length - 1 := by omega
          rw [this]
    obtain ⟨i, e1, h1, h2, h3⟩ := g.inside x ((key a ha).1.trans hax) (hbx.trans (key b hb).2)
    exact ⟨i, _, _, e1, rd_getD (by omega), rd_getD h1, h2, h3⟩

example : ∃ s, Searcher.init [1, 2, 10, 11] = some s ∧ s.search 3 = some 1 ∧ s.search 11 = some 2 ∧
    s.search 12 = none := by
  refine ⟨_, rfl, ?_⟩
  decide +kernel

/-- C14: the bracketing does not depend on the floating-point guess: any guess gives neighbouring
entries around `x`. -/
theorem C14_any_guess (xs : List ℚ) (hn : 2 ≤ xs.length) (x a b : ℚ) (ha : xs.head? = some a)
    (hb : xs.getLast? = some b) (hax : a ≤ x) (hbx : x ≤ b) (guess : Int) :
    ∃ (i : Nat) (u v : ℚ), tableSearch xs xs.length true x guess = some (i : Int) ∧
      xs[i]? = some u ∧ xs[i + 1]? = some v ∧ u ≤ x ∧ x ≤ v := by
  have h0 : xs.getD 0 0 = a := by
    have := rd_getD (show 0 < xs.length by omega)
    rw [← List.head?_eq_getElem?, ha] at this
    exact (Option.some.inj this).symm
  have h1 : xs.getD (xs.length - 1) 0 = b := by
    have := rd_getD (show xs.length - 1 < xs.length by omega)
    rw [← List.getLast?_eq_getElem?, hb] at this
    exact (Option.some.inj this).symm
  obtain ⟨i, e, h2, h3, h4⟩ := tableSearch_bracket (fun i => xs.getD i 0) xs.length hn xs rfl
    (fun i hi => rd_getD hi) x (by rw [h0]; exact hax) (by rw [h1]; exact hbx) guess
  exact ⟨i, _, _, e, rd_getD (by omega), rd_getD h2, h3, h4⟩

example : tableSearch [1, 2, 10, 11] 4 true 3 (-7) = some 1 ∧
    tableSearch [1, 2, 10, 11] 4 true 3 2 = some 1 := by decide +kernel

/-- C14: search in a uniform grid. -/
theorem C14_uniform_search (x0 dx : ℚ) (hdx : 0 < dx) (n : Nat) (hn : 2 ≤ n) (x : ℚ) :
    ((x < x0 ∨ x0 + ((n : ℚ) - 1) * dx < x) → (Searcher.unifInit x0 dx n).search x = none) ∧
    (x0 ≤ x → x ≤ x0 + ((n : ℚ) - 1) * dx →
      ∃ i : Nat, (Searcher.unifInit x0 dx n).search x = some (i : Int) ∧ i + 1 < n ∧
        x0 + i * dx ≤ x ∧ x ≤ x0 + (i + 1) * dx) := by
  have g := unif_grid x0 dx hdx n hn
  have e : (((n - 1 : Nat) : ℚ)) = (n : ℚ) - 1 := by push_cast [Nat.cast_sub (show 1 ≤ n by omega)]; rfl
  constructor
  · intro h
    apply g.outside
    simp only [e, Nat.cast_zero, zero_mul, add_zero]
    exact h
  · intro h0 h1
    obtain ⟨i, a, b, c, d⟩ := g.inside x (by simpa using h0) (by simpa [e] using h1)
    exact ⟨i, a, b, c, by push_cast at d; exact d⟩

example : (Searcher.unifInit 1 (1/2) 4).search (9/4) = some 2 ∧
    (Searcher.unifInit 1 (1/2) 4).search (5/2) = some 2 := by decide +kernel

/-! ### C15 -/

/-- The straight line through two points. -/
def lineThrough (x1 v1 x2 v2 x : ℚ) : ℚ := v1 + (v2 - v1) * ((x - x1) / (x2 - x1))

/-- If two cells of a grid contain `x`, they are the same or meet at the grid line `x`. -/
theorem bracket_cases {s : Searcher} {X : Nat → ℚ} {n : Nat} (g : s.Grid X n) {x : ℚ} {i j : Nat}
    (hi : i + 1 < n) (hj : j + 1 < n) (hi1 : X i ≤ x) (hi2 : x ≤ X (i + 1)) (hj1 : X j ≤ x)
    (hj2 : x ≤ X (j + 1)) : i = j ∨ (j + 1 = i ∧ x = X i) ∨ (i + 1 = j ∧ x = X j) := by
  rcases Nat.lt_trichotomy i j with h | h | h
  · right; right
    rcases Nat.lt_or_ge (i + 1) j with h' | h'
    · have := g.mono (i + 1) j h' (by omega)
      linarith
    · have e : i + 1 = j := by omega
      subst e
      exact ⟨rfl, le_antisymm hi2 hj1⟩
  · left; exact h
  · right; left
    rcases Nat.lt_or_ge (j + 1) i with h' | h'
    · have := g.mono (j + 1) i h' (by omega)
      linarith
    · have e : j + 1 = i := by omega
      subst e
      exact ⟨rfl, le_antisymm hj2 hi1⟩

theorem linear_eval {s : Searcher} {X : Nat → ℚ} {n : Nat} (g : s.Grid X n) (vals : List ℚ)
    (V : Nat → ℚ) (hv : ∀ i < n, vals[i]? = some (V i)) (x : ℚ) (i : Nat) (hi : i + 1 < n)
    (h1 : X i ≤ x) (h2 : x ≤ X (i + 1)) :
    (Linear.mk s vals).eval x = some (lineThrough (X i) (V i) (X (i + 1)) (V (i + 1)) x) := by
  have hx0 : X 0 ≤ x := by
    rcases Nat.eq_zero_or_pos i with h | h
    · rw [h] at h1; exact h1
    · exact (g.mono 0 i h (by omega)).le.trans h1
  have hx1 : x ≤ X (n - 1) := by
    rcases Nat.lt_or_ge (i + 1) (n - 1) with h | h
    · exact h2.trans (g.mono _ _ h (by omega)).le
    · have : i + 1 = n - 1 := by omega
      rw [← this]; exact h2
  obtain ⟨j, e, hj, k1, k2⟩ := g.inside x hx0 hx1
  have v1 : s.val (j : Int) = some (X j) := g.val j (by omega)
  have v2 : s.val ((j : Int) + 1) = some (X (j + 1)) := by
    have := g.val (j + 1) hj
    push_cast at this
    exact this
  have w1 : rd vals (j : Int) = some (V j) := rd_fn_nat hv _ rfl (by omega)
  have w2 : rd vals ((j : Int) + 1) = some (V (j + 1)) := rd_fn_nat hv (j + 1) (by omega) hj
  unfold Linear.eval
  simp only [e, v1, v2, w1, w2, bind, Option.bind_some]
  congr 1
  unfold lineThrough
  have dj := g.mono j (j + 1) (by omega) hj
  have di := g.mono i (i + 1) (by omega) hi
  have dj' : X (j + 1) - X j ≠ 0 := (sub_pos.mpr dj).ne'
  have di' : X (i + 1) - X i ≠ 0 := (sub_pos.mpr di).ne'
  rcases bracket_cases g hi hj h1 h2 k1 k2 with c | ⟨c, hx⟩ | ⟨c, hx⟩
  · subst c; field_simp; ring
  · subst c; rw [hx, div_mul_cancel₀ _ dj', sub_self, zero_div, mul_zero, add_zero]; ring
  · subst c; rw [hx, div_self di', sub_self, mul_zero, mul_one]; ring

theorem line_between {x1 v1 x2 v2 x : ℚ} (h : x1 < x2) (h1 : x1 ≤ x) (h2 : x ≤ x2) :
    min v1 v2 ≤ lineThrough x1 v1 x2 v2 x ∧ lineThrough x1 v1 x2 v2 x ≤ max v1 v2 := by
  unfold lineThrough
  have t0 : 0 ≤ (x - x1) / (x2 - x1) := div_nonneg (by linarith) (by linarith)
  have t1 : (x - x1) / (x2 - x1) ≤ 1 := by rw [div_le_one (by linarith)]; linarith
  generalize (x - x1) / (x2 - x1) = t at *
  rcases le_total v1 v2 with hv | hv
  · rw [min_eq_left hv, max_eq_right hv]
    constructor <;> nlinarith
  · rw [min_eq_right hv, max_eq_left hv]
    constructor <;> nlinarith

/-- C15: `NewLinear` on a strictly increasing table: in every cell `[xs[i], xs[i+1]]` the value is the
straight line through the two knots (so the knots are reproduced), and lies between their values; outside
the table `Eval` panics. -/
theorem C15_linear (xs vals : List ℚ) (hn : 2 ≤ xs.length) (hm : xs.Pairwise (· < ·))
    (hv : vals.length = xs.length) :
    ∃ lin, newLinear xs vals = some lin ∧
      (∀ (i : Nat) (x1 x2 v1 v2 : ℚ), xs[i]? = some x1 → xs[i + 1]? = some x2 → vals[i]? = some v1 →
        vals[i + 1]? = some v2 →
        lin.eval x1 = some v1 ∧ lin.eval x2 = some v2 ∧
        ∀ x, x1 ≤ x → x ≤ x2 → ∃ r, lin.eval x = some r ∧ r = lineThrough x1 v1 x2 v2 x ∧
          min v1 v2 ≤ r ∧ r ≤ max v1 v2) ∧
      ∀ x, (∀ a ∈ xs, x < a) ∨ (∀ a ∈ xs, a < x) → lin.eval x = none := by
  obtain ⟨s, e, _, g⟩ := init_grid xs hn hm
  have hvv : ∀ i < xs.length, vals[i]? = some (vals.getD i 0) := fun i hi => rd_getD (by omega)
  refine ⟨⟨s, vals⟩, ?_, ?_, ?_⟩
  · unfold newLinear; rw [if_neg (by omega), e]; rfl
  · intro i x1 x2 v1 v2 hx1 hx2 hv1 hv2
    have hi : i + 1 < xs.length := (List.getElem?_eq_some_iff.mp hx2).1
    rw [rd_getD (by omega)] at hx1 hv1
    rw [rd_getD hi] at hx2
    rw [rd_getD (by omega)] at hv2
    cases hx1; cases hx2; cases hv1; cases hv2
    have hlt := g.mono i (i + 1) (by omega) hi
    have key := linear_eval g vals _ hvv
    refine ⟨?_, ?_, ?_⟩
    · rw [key _ i hi (le_refl _) hlt.le]
      simp [lineThrough]
    · rw [key _ i hi hlt.le (le_refl _)]
      unfold lineThrough
      rw [div_self (sub_pos.mpr hlt).ne']; congr 1; ring
    · intro x h1 h2
      exact ⟨_, key x i hi h1 h2, rfl, line_between hlt h1 h2⟩
  · intro x hx
    have : s.search x = none := by
      apply g.outside
      rcases hx with h | h
      · left; exact h _ (List.mem_of_getElem? (rd_getD (by omega)))
      · right; exact h _ (List.mem_of_getElem? (rd_getD (by omega)))
    simp [Linear.eval, this]

example : ∃ lin, newLinear [1, 2, 10, 11] [5, 7, 3, 0] = some lin ∧ lin.eval 4 = some 6 ∧
    lin.eval 11 = some 0 := by
  refine ⟨_, rfl, ?_⟩
  decide +kernel

/-- C15 for uniform tables. -/
theorem C15_linear_uniform (x0 dx : ℚ) (hdx : 0 < dx) (vals : List ℚ) (hn : 2 ≤ vals.length)
    (i : Nat) (v1 v2 x : ℚ) (hv1 : vals[i]? = some v1) (hv2 : vals[i + 1]? = some v2)
    (h1 : x0 + i * dx ≤ x) (h2 : x ≤ x0 + (i + 1) * dx) :
    ∃ r, (newUniformLinear x0 dx vals).eval x = some r ∧
      r = lineThrough (x0 + i * dx) v1 (x0 + (i + 1) * dx) v2 x ∧ min v1 v2 ≤ r ∧ r ≤ max v1 v2 ∧
      (x = x0 + i * dx → r = v1) ∧ (x = x0 + (i + 1) * dx → r = v2) := by
  have g := unif_grid x0 dx hdx vals.length hn
  have hi : i + 1 < vals.length := (List.getElem?_eq_some_iff.mp hv2).1
  have hvv : ∀ i < vals.length, vals[i]? = some (vals.getD i 0) := fun i hi => rd_getD hi
  have key := linear_eval g vals _ hvv x i hi h1 (by push_cast; exact h2)
  rw [rd_getD (by omega)] at hv1 hv2
  cases hv1; cases hv2
  have hlt : x0 + (i : ℚ) * dx < x0 + ((i : ℚ) + 1) * dx := by linarith
  push_cast at key
  refine ⟨_, key, rfl, (line_between hlt h1 h2).1, (line_between hlt h1 h2).2, ?_, ?_⟩
  · intro h; rw [h]; simp [lineThrough]
  · intro h; rw [h]; unfold lineThrough
    rw [div_self (sub_pos.mpr hlt).ne']; ring

example : (newUniformLinear 1 (1/2) [0, 4, 2]).eval (7/4) = some 3 := by decide +kernel

/-- C15: `EvalAll` is `Eval` element by element: it succeeds exactly when every element does, and the
elements of a longer output slice beyond the input are left alone. -/
theorem C15_evalAll (eval : ℚ → Option ℚ) (xs : List ℚ) (out : List ℚ) (hl : xs.length ≤ out.length)
    (vs : List ℚ) (hv : vs.length = xs.length)
    (he : ∀ (i : Nat) (x v : ℚ), xs[i]? = some x → vs[i]? = some v → eval x = some v) :
    evalAll eval xs (some out) = some (vs ++ out.drop xs.length) ∧
    evalAll eval xs none = some vs := by
  have key : ∀ o : List ℚ, xs.length ≤ o.length →
      forRange 0 xs.length (fun i out => do
        let x ← rd xs i
        let v ← eval x
        wr out i v) o = some (vs ++ o.drop xs.length) := by
    intro o ho
    obtain ⟨r, e, rl, hr⟩ := forRange_fill (fun i => vs.getD i 0) (lo := 0) (hi := xs.length)
      (n := o.length) (by omega) ho o rfl (fun i out => do
        let x ← rd xs i
        let v ← eval x
        wr out i v) (by
        intro k st _ h2 _ _
        have e1 : rd xs (k : Int) = some (xs.getD k 0) := by rw [rd_natCast, rd_getD h2]
        have e2 := he k _ _ (rd_getD h2) (rd_getD (show k < vs.length by omega))
        simp only [e1, e2, bind, Option.bind_some])
    rw [Nat.cast_zero] at e
    rw [e]
    congr 1
    apply List.ext_getElem?
    intro i
    rw [hr]
    by_cases c : i < xs.length
    · rw [if_pos ⟨by omega, c⟩, List.getElem?_append_left (by omega), rd_getD (by omega)]
    · rw [if_neg (by omega), List.getElem?_append_right (by omega), List.getElem?_drop]
      congr 1; omega
  constructor
  · exact key out hl
  · have := key (List.replicate xs.length 0) (by simp)
    rw [List.drop_of_length_le (by simp), List.append_nil] at this
    exact this

/-- C15: if some element is out of range, so is the whole call. -/
theorem C15_evalAll_panics (eval : ℚ → Option ℚ) (xs : List ℚ) (out : Option (List ℚ)) (x : ℚ)
    (hx : x ∈ xs) (he : eval x = none) : evalAll eval xs out = none := by
  obtain ⟨k, hk⟩ := List.getElem?_of_mem hx
  have hkl := (List.getElem?_eq_some_iff.mp hk).1
  have key : ∀ o : List ℚ, forRange 0 xs.length (fun i out => do
      let x ← rd xs i
      let v ← eval x
      wr out i v) o = none := by
    intro o
    rw [forRange_split (lo := 0) (mid := k) (hi := xs.length) (by omega) (by omega)]
    rcases Option.eq_none_or_eq_some (forRange 0 (k : Int) (fun i out => do
        let x ← rd xs i
        let v ← eval x
        wr out i v) o) with h | ⟨t, h⟩
    · rw [h]; rfl
    · rw [h]
      simp only [Option.bind_some]
      rw [forRange_step (by omega), rd_natCast, hk]
      simp only [bind, Option.bind_some, he, Option.bind_none]
  exact key _

example : evalAll (newUniformLinear 0 1 [0, 4, 2]).eval [1/2, 2] (some [9, 9, 9]) = some [2, 2, 9] := by
  decide +kernel

/-! ### C17, linear part -/

/-- C17 fails for linear interpolators: with a strictly decreasing table `Eval` panics for every
argument. -/
theorem C17_linear_decreasing_counterexample (xs vals : List ℚ) (hn : 2 ≤ xs.length)
    (hm : xs.Pairwise (· > ·)) (hv : vals.length = xs.length) :
    ∃ lin, newLinear xs vals = some lin ∧ ∀ x, lin.eval x = none := by
  have hx : ∀ i < xs.length, xs[i]? = some (xs.getD i 0) := fun i hi => rd_getD hi
  have h0 : rd xs 0 = some (xs.getD 0 0) := rd_fn_nat hx 0 rfl (by omega)
  have h1 : rd xs ((xs.length : Int) - 1) = some (xs.getD (xs.length - 1) 0) :=
    rd_fn_nat hx (xs.length - 1) (by omega) (by omega)
  have hlt : xs.getD (xs.length - 1) 0 < xs.getD 0 0 := by
    have := List.pairwise_iff_getElem.mp hm 0 (xs.length - 1) (by omega) (by omega) (by omega)
    have e1 := rd_getD (show 0 < xs.length by omega)
    have e2 := rd_getD (show xs.length - 1 < xs.length by omega)
    rw [List.getElem?_eq_getElem (by omega)] at e1 e2
    rw [← Option.some.inj e1, ← Option.some.inj e2]
    exact this
  unfold newLinear Searcher.init
  rw [if_neg (by omega)]
  simp only [h0, h1, bind, Option.bind_some]
  refine ⟨_, rfl, ?_⟩
  intro x
  unfold Linear.eval Searcher.search
  simp only
  rw [if_pos]
  · rfl
  · by_contra hc
    simp only [not_or, not_lt] at hc
    linarith [hc.1, hc.2]

example : ([5, 3, 1] : List ℚ).Pairwise (· > ·) := by decide +kernel

end Verif.Interp
