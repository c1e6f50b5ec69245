import Verif.Py.RspModel
import Mathlib.Data.List.Basic
import Mathlib.Data.List.Range
import Mathlib.Tactic.Linarith
import Mathlib.Tactic.IntervalCases

/-!
# C159: the splashback radius of a profile

Specification: `Caustic` on functions of the index.
-/

set_option autoImplicit false

namespace Verif.Py

/-- Entry `i` of a profile of `n` points with density `ρ` and slope `s` can be the splashback radius: an inner point where
the slope is a strict local minimum below `lim` and no point further in is less dense. -/
structure Caustic (lim : ℚ) (n : Nat) (ρ s : Nat → ℚ) (i : Nat) : Prop where
  inner : 0 < i ∧ i + 1 < n
  left : s i < s (i - 1)
  right : s i < s (i + 1)
  lowest : ∀ j, j < i → ρ i ≤ ρ j
  steep : s i < lim

/-- The values of a function at the first `n` indices. -/
def tab (n : Nat) (f : Nat → ℚ) : List ℚ := (List.range n).map f

theorem tab_length (n : Nat) (f : Nat → ℚ) : (tab n f).length = n := by simp [tab]

theorem tab_getD {n i : Nat} (f : Nat → ℚ) (h : i < n) : (tab n f).getD i 0 = f i := by
  simp [tab, List.getD_eq_getElem?_getD, h]

theorem minAccum_length (rs : List ℚ) : (minAccum rs).length = rs.length := by
  induction rs with
  | nil => rfl
  | cons r rs ih => simp [minAccum, ih]

theorem le_minAccum (rs : List ℚ) : ∀ (i : Nat) (h : i < rs.length) (a : ℚ),
    a ≤ (minAccum rs)[i]'(by rw [minAccum_length]; exact h) ↔ ∀ j, j ≤ i → a ≤ rs.getD j 0 := by
  induction rs with
  | nil => intro i h; simp at h
  | cons r rs ih =>
    intro i h a
    cases i with
    | zero => simp [minAccum]
    | succ i =>
      simp only [minAccum, List.getElem_cons_succ, List.getElem_map, le_min_iff]
      rw [ih i (by simpa using h) a]
      constructor
      · rintro ⟨h1, h2⟩ j hj
        cases j with
        | zero => simpa using h1
        | succ j => simpa using h2 j (by omega)
      · intro h1
        exact ⟨by simpa using h1 0 (by omega), fun j hj => by simpa using h1 (j + 1) (by omega)⟩

theorem currMin_tab {n i : Nat} (ρ : Nat → ℚ) (h : i < n) :
    (currMin (tab n ρ)).getD i false = true ↔ ∀ j, j < i → ρ i ≤ ρ j := by
  have h1 : i < (tab n ρ).length := by rw [tab_length]; exact h
  have h2 : i < (minAccum (tab n ρ)).length := by rw [minAccum_length]; exact h1
  unfold currMin
  rw [List.getD_eq_getElem?_getD, List.getElem?_zipWith, List.getElem?_eq_getElem h1, List.getElem?_eq_getElem h2]
  simp only [Option.getD_some, decide_eq_true_eq]
  rw [le_minAccum _ i h1]
  have e : (tab n ρ)[i] = ρ i := by simp [tab]
  rw [e]
  constructor
  · intro hj j hji
    have := hj j hji.le
    rwa [tab_getD ρ (by omega)] at this
  · intro hj j hji
    rw [tab_getD ρ (by omega)]
    rcases Nat.lt_or_eq_of_le hji with h | rfl
    · exact hj j h
    · exact le_rfl

theorem mem_argrelmin {n i : Nat} (s : Nat → ℚ) :
    i ∈ argrelmin (tab n s) ↔ 0 < i ∧ i + 1 < n ∧ s i < s (i - 1) ∧ s i < s (i + 1) := by
  unfold argrelmin
  simp only [List.mem_filter, List.mem_range, tab_length, Bool.and_eq_true, decide_eq_true_eq]
  constructor
  · rintro ⟨h, h1, h2⟩
    rw [tab_getD s h, tab_getD s (by omega)] at h1
    rw [tab_getD s h, tab_getD s (by omega)] at h2
    have h0 : i ≠ 0 := by rintro rfl; simp at h1
    have h3 : i + 1 < n := by
      by_contra hc
      rw [min_eq_right (by omega), show n - 1 = i by omega] at h2
      exact lt_irrefl _ h2
    rw [min_eq_left (by omega)] at h2
    exact ⟨by omega, h3, h1, h2⟩
  · rintro ⟨h0, h1, h2, h3⟩
    rw [min_eq_left (by omega), tab_getD s (by omega), tab_getD s (by omega), tab_getD s (by omega)]
    exact ⟨by omega, h2, h3⟩

theorem foldl_argmin (f : Nat → ℚ) (l : List Nat) : ∀ a : Nat, (a :: l).Pairwise (· < ·) →
    let m := l.foldl (fun b c => if f c < f b then c else b) a
    m ∈ a :: l ∧ (∀ j ∈ a :: l, f m ≤ f j) ∧ ∀ j ∈ a :: l, j < m → f m < f j := by
  induction l with
  | nil =>
    intro a _
    simp
  | cons c l ih =>
    intro a hp
    simp only [List.foldl_cons]
    have hac : a < c := by
      have := (List.pairwise_cons.mp hp).1 c (by simp)
      exact this
    have hal : ∀ j ∈ l, a < j := fun j hj => (List.pairwise_cons.mp hp).1 j (by simp [hj])
    have hcl := (List.pairwise_cons.mp hp).2
    by_cases hc : f c < f a
    · rw [if_pos hc]
      obtain ⟨h1, h2, h3⟩ := ih c hcl
      refine ⟨by simp only [List.mem_cons] at h1 ⊢; tauto, ?_, ?_⟩
      · intro j hj
        rcases List.mem_cons.mp hj with rfl | hj
        · exact (h2 c (by simp)).trans hc.le
        · exact h2 j hj
      · intro j hj hjm
        rcases List.mem_cons.mp hj with rfl | hj
        · exact lt_of_le_of_lt (h2 c (by simp)) hc
        · exact h3 j hj hjm
    · rw [if_neg hc]
      have hpal : (a :: l).Pairwise (· < ·) := List.pairwise_cons.mpr ⟨hal, (List.pairwise_cons.mp hcl).2⟩
      obtain ⟨h1, h2, h3⟩ := ih a hpal
      push Not at hc
      refine ⟨by simp only [List.mem_cons] at h1 ⊢; tauto, ?_, ?_⟩
      · intro j hj
        rcases List.mem_cons.mp hj with rfl | hj
        · exact h2 j (by simp)
        · rcases List.mem_cons.mp hj with rfl | hj
          · exact (h2 a (by simp)).trans hc
          · exact h2 j (by simp [hj])
      · intro j hj hjm
        rcases List.mem_cons.mp hj with rfl | hj
        · exact h3 j (by simp) hjm
        · rcases List.mem_cons.mp hj with rfl | hj
          · rcases List.mem_cons.mp h1 with e | hm
            · rw [e] at hjm; omega
            · have := h3 a (by simp) (hal _ hm)
              linarith
          · exact h3 j (by simp [hj]) hjm

/-- C159: `r_sp_idx` returns -1 if no point qualifies, otherwise the qualifying point where the profile is steepest, the
innermost one if several are equally steep. -/
theorem C159_index (lim : ℚ) (n : Nat) (ρ s : Nat → ℚ) :
    ∃ k, rSpIdx lim n (tab n ρ) (tab n s) = some k ∧
      ((k = -1 ∧ ∀ i, ¬ Caustic lim n ρ s i) ∨
        ∃ i : Nat, k = i ∧ Caustic lim n ρ s i ∧ (∀ j, Caustic lim n ρ s j → s i ≤ s j) ∧
          ∀ j, Caustic lim n ρ s j → j < i → s i < s j) := by
  have m1 : ∀ i, i ∈ (argrelmin (tab n s)).filter (fun i : Nat => decide (i ≠ 0 ∧ (i : Int) ≠ (n : Int) - 1)) ↔
      0 < i ∧ i + 1 < n ∧ s i < s (i - 1) ∧ s i < s (i + 1) := by
    intro i
    rw [List.mem_filter, mem_argrelmin]
    simp only [decide_eq_true_eq]
    constructor
    · exact fun h => h.1
    · intro h
      exact ⟨h, by omega, by omega⟩
  have m2 : ∀ i, i ∈ ((argrelmin (tab n s)).filter (fun i : Nat => decide (i ≠ 0 ∧ (i : Int) ≠ (n : Int) - 1))).filter
      (fun i => (currMin (tab n ρ)).getD i false) ↔
      (0 < i ∧ i + 1 < n ∧ s i < s (i - 1) ∧ s i < s (i + 1)) ∧ ∀ j, j < i → ρ i ≤ ρ j := by
    intro i
    rw [List.mem_filter, m1]
    constructor
    · rintro ⟨h1, h2⟩
      exact ⟨h1, (currMin_tab ρ (by omega)).mp h2⟩
    · rintro ⟨h1, h2⟩
      exact ⟨h1, (currMin_tab ρ (by omega)).mpr h2⟩
  have m3 : ∀ i, i ∈ (((argrelmin (tab n s)).filter (fun i : Nat => decide (i ≠ 0 ∧ (i : Int) ≠ (n : Int) - 1))).filter
      (fun i => (currMin (tab n ρ)).getD i false)).filter (fun i => decide ((tab n s).getD i 0 < lim)) ↔
      Caustic lim n ρ s i := by
    intro i
    rw [List.mem_filter, m2]
    constructor
    · rintro ⟨⟨⟨h1, h2, h3, h4⟩, h5⟩, h6⟩
      rw [tab_getD s (by omega)] at h6
      exact ⟨⟨h1, h2⟩, h3, h4, h5, by simpa using h6⟩
    · rintro ⟨⟨h1, h2⟩, h3, h4, h5, h6⟩
      rw [tab_getD s (by omega)]
      exact ⟨⟨⟨h1, h2, h3, h4⟩, h5⟩, by simpa using h6⟩
  unfold rSpIdx
  simp only
  split
  · rename_i he
    refine ⟨-1, rfl, Or.inl ⟨rfl, fun i hc => ?_⟩⟩
    have := (m1 i).mpr ⟨hc.inner.1, hc.inner.2, hc.left, hc.right⟩
    rw [he] at this
    simp at this
  rw [if_neg (by
    simp only [List.any_eq_true, not_exists, not_and, decide_eq_true_eq, tab_length]
    intro i hi
    have := (m1 i).mp hi
    omega)]
  split
  · rename_i he
    refine ⟨-1, rfl, Or.inl ⟨rfl, fun i hc => ?_⟩⟩
    have := (m2 i).mpr ⟨⟨hc.inner.1, hc.inner.2, hc.left, hc.right⟩, hc.lowest⟩
    rw [he] at this
    simp at this
  split
  · rename_i he
    refine ⟨-1, rfl, Or.inl ⟨rfl, fun i hc => ?_⟩⟩
    have := (m3 i).mpr hc
    rw [he] at this
    simp at this
  rename_i hne
  have hpw : ((((argrelmin (tab n s)).filter (fun i : Nat => decide (i ≠ 0 ∧ (i : Int) ≠ (n : Int) - 1))).filter
      (fun i => (currMin (tab n ρ)).getD i false)).filter (fun i => decide ((tab n s).getD i 0 < lim))).Pairwise
      (· < ·) := by
    unfold argrelmin
    exact (((List.pairwise_lt_range.filter _).filter _).filter _).filter _
  revert hne hpw m3
  generalize (((argrelmin (tab n s)).filter (fun i : Nat => decide (i ≠ 0 ∧ (i : Int) ≠ (n : Int) - 1))).filter
      (fun i => (currMin (tab n ρ)).getD i false)).filter (fun i => decide ((tab n s).getD i 0 < lim)) = l
  intro m3 hne hpw
  cases l with
  | nil => exact absurd rfl hne
  | cons a l =>
    obtain ⟨h1, h2, h3⟩ := foldl_argmin (fun i => (tab n s).getD i 0) l a hpw
    refine ⟨_, rfl, Or.inr ⟨_, rfl, (m3 _).mp h1, ?_, ?_⟩⟩
    · intro j hj
      have hi := (m3 _).mp h1
      have := h2 j ((m3 j).mpr hj)
      rwa [tab_getD s (by have := hi.inner; omega), tab_getD s (by have := hj.inner; omega)] at this
    · intro j hj hlt
      have hi := (m3 _).mp h1
      have := h3 j ((m3 j).mpr hj) hlt
      rwa [tab_getD s (by have := hi.inner; omega), tab_getD s (by have := hj.inner; omega)] at this

example : rSpIdx (-5) 7 [90, 80, 30, 20, 25, 4, 3] [-1, -6, -2, -7, -3, -8, -1] = some 5 := by decide +kernel
example : rSpIdx (-5) 7 [90, 80, 30, 20, 25, 21, 3] [-1, -6, -2, -7, -3, -8, -1] = some 3 := by decide +kernel

/-- C159: `r_sp` returns the radius at that point, `None` if there is none, and the same again on every later call. -/
theorem C159_radius (lim : ℚ) (n : Nat) (r ρ s : Nat → ℚ) :
    ∃ v k, rSp lim (tab n r) (tab n ρ) (tab n s) none = some (v, some k) ∧
      rSp lim (tab n r) (tab n ρ) (tab n s) (some k) = some (v, some k) ∧
      (v = none ↔ ∀ i, ¬ Caustic lim n ρ s i) ∧
      ∀ x, v = some x → ∃ i, x = r i ∧ Caustic lim n ρ s i ∧ ∀ j, Caustic lim n ρ s j → s i ≤ s j := by
  obtain ⟨k, e, h⟩ := C159_index lim n ρ s
  unfold rSp
  rw [tab_length, e]
  rcases h with ⟨rfl, h⟩ | ⟨i, rfl, hc, hm, _⟩
  · exact ⟨none, -1, by simp, by simp, by simpa using h, by simp⟩
  · have hi : i < n := by have := hc.inner; omega
    have e1 : (tab n r)[i]? = some (r i) := by simp [tab, hi]
    refine ⟨some (r i), i, ?_, ?_, ?_, ?_⟩
    · simp only [Int.toNat_natCast, e1, Option.map_some]
      rw [if_neg (by omega)]
    · simp only [Int.toNat_natCast, e1, Option.map_some]
      rw [if_neg (by omega)]
    · constructor
      · intro h; simp at h
      · intro h; exact absurd hc (h i)
    · intro x hx
      simp at hx
      exact ⟨i, hx.symm, hc, hm⟩

example : rSp (-5) [1, 2, 3, 4, 5, 6, 7] [90, 80, 30, 20, 25, 4, 3] [-1, -6, -2, -7, -3, -8, -1] none =
    some (some 6, some 5) := by decide +kernel

end Verif.Py
