import Verif.Py.RangeModel
import Verif.Py.Smooth

/-!
# C188: the splashback radii found with several windows
-/

set_option autoImplicit false

namespace Verif.Py

open Verif.Go

/-- `v` is the radius of the innermost of the steepest caustics of a profile of `n` points, `none` if it has none. -/
def IsSplashback (lim : ℚ) (n : Nat) (r ρ s : Nat → ℚ) (v : Option ℚ) : Prop :=
  (v = none ∧ ∀ i, ¬ Caustic lim n ρ s i) ∨
    ∃ i, v = some (r i) ∧ Caustic lim n ρ s i ∧ (∀ j, Caustic lim n ρ s j → s i ≤ s j) ∧
      ∀ j, Caustic lim n ρ s j → j < i → s i < s j

/-- Property C188: the radius found with one window is that of the density and the slopes given by the filter for the true
spacing of the radii. -/
theorem C188_find (sg : Savgol) (lim : ℚ) (n : Nat) (hn : 1 < n) (x0 h : ℚ) (rhos : List ℚ) (window : Nat) (ρ s : Nat → ℚ)
    (h1 : sg.smooth rhos window = some (tab n ρ)) (h2 : sg.deriv rhos window h = some (tab n s)) :
    ∃ v, findSplashback sg lim (tab n fun i => x0 + i * h) rhos window = some v ∧
      IsSplashback lim n (fun i => x0 + i * h) ρ s v := by
  have e0 : pyRd (tab n fun i => x0 + (i : ℚ) * h) 0 = some x0 := by
    have := pyRd_tab (n := n) (fun i => x0 + i * h) 0 (by omega)
    simpa using this
  have e1 : pyRd (tab n fun i => x0 + (i : ℚ) * h) (-1) = some (x0 + ((n - 1 : Nat) : ℚ) * h) := by
    have := pyRd_tab_neg (n := n) (fun i => x0 + i * h) 1 (by omega) (by omega)
    simpa using this
  have hn1 : ((n - 1 : Nat) : ℚ) = (n : ℚ) - 1 := by rw [Nat.cast_sub (by omega)]; norm_num
  have hnq : (n : ℚ) - 1 ≠ 0 := by
    have : (1 : ℚ) < n := by exact_mod_cast hn
    linarith
  have e2 : (x0 + ((n - 1 : Nat) : ℚ) * h - x0) / (((tab n fun i => x0 + (i : ℚ) * h).length : ℚ) - 1) = h := by
    rw [tab_length, hn1, add_sub_cancel_left, mul_comm, mul_div_assoc, div_self hnq, mul_one]
  rw [tab_length] at e2
  obtain ⟨k, e, hk⟩ := C159_index lim n ρ s
  have e3 : findSplashback sg lim (tab n fun i => x0 + i * h) rhos window =
      if k = -1 then some none else ((tab n fun i => x0 + (i : ℚ) * h)[k.toNat]?).map some := by
    unfold findSplashback
    simp only [h1, e0, e1, e2, h2, Option.bind_eq_bind, Option.bind_some, tab_length, e]
  rw [e3]
  rcases hk with ⟨rfl, hk⟩ | ⟨i, rfl, hc, hm, hf⟩
  · exact ⟨none, by simp, Or.inl ⟨rfl, hk⟩⟩
  · have hi : i < n := by have := hc.inner; omega
    refine ⟨some (x0 + i * h), ?_, Or.inr ⟨i, rfl, hc, hm, hf⟩⟩
    rw [if_neg (by omega)]
    simp [tab, hi]

/-- Property C188: for a density that is a polynomial of degree 4 or less of the evenly spaced radii, every window finds the
caustic of the true slopes. -/
theorem C188_polynomial {sg : Savgol} (hs : sg.Exact) (lim : ℚ) (p : PolySeg) (hh : p.h ≠ 0) {window : Nat} (hw : 5 ≤ window)
    (ho : window % 2 = 1) (hn : window < p.n) :
    ∃ v, findSplashback sg lim p.lrs p.lrhos window = some v ∧ IsSplashback lim p.n (fun i => p.x0 + i * p.h)
      (fun i => quartic p.a p.b p.c p.d p.e (p.x0 + i * p.h)) p.slope v := by
  have er : p.lrhos = tab p.n fun i => quartic (quartic p.a p.b p.c p.d p.e p.x0) (p.h * quartic' p.b p.c p.d p.e p.x0)
      (p.h ^ 2 * (p.c + 3 * p.d * p.x0 + 6 * p.e * p.x0 ^ 2)) (p.h ^ 3 * (p.d + 4 * p.e * p.x0)) (p.h ^ 4 * p.e) i := by
    unfold PolySeg.lrhos
    exact tab_congr fun i _ => quartic_shift ..
  refine C188_find sg lim p.n (by omega) p.x0 p.h p.lrhos window _ _ ?_ ?_
  · have := hs.smooth p.n window (quartic p.a p.b p.c p.d p.e p.x0) (p.h * quartic' p.b p.c p.d p.e p.x0)
      (p.h ^ 2 * (p.c + 3 * p.d * p.x0 + 6 * p.e * p.x0 ^ 2)) (p.h ^ 3 * (p.d + 4 * p.e * p.x0)) (p.h ^ 4 * p.e) hw ho hn
    rw [← er] at this
    exact this
  · have := hs.deriv p.n window (quartic p.a p.b p.c p.d p.e p.x0) (p.h * quartic' p.b p.c p.d p.e p.x0)
      (p.h ^ 2 * (p.c + 3 * p.d * p.x0 + 6 * p.e * p.x0 ^ 2)) (p.h ^ 3 * (p.d + 4 * p.e * p.x0)) (p.h ^ 4 * p.e) p.h hw ho hn hh
    rw [← er] at this
    rw [this]
    refine congrArg some (tab_congr fun i _ => ?_)
    rw [← quartic'_shift, mul_div_assoc, mul_comm, div_mul_cancel₀ _ hh]
    rfl

/-- Seven points of the density `x³ - 6x² - 20x`, steepest at 2. -/
example : (findSplashback savgol5 (-5) (tab 7 fun i => 0 + (i : ℚ) * 1) (tab 7 fun i => quartic 0 (-20) (-6) 1 0 (i : ℚ)) 5) =
    some (some 2) := by decide +kernel

example : savgol5.Exact ∧ (⟨7, 0, 1, 0, -20, -6, 1, 0⟩ : PolySeg).h ≠ 0 ∧ 5 < (⟨7, 0, 1, 0, -20, -6, 1, 0⟩ : PolySeg).n :=
  ⟨savgol5_exact, by norm_num, by norm_num⟩

/-- The radii belong to the windows 5, 7, 9, ... in order; the list ends before the first window that reaches `range_max` or the
number of points, or with which nothing is found. -/
structure IsRange (find : Nat → Option (Option ℚ)) (n rangeMax : Nat) (out : List ℚ) : Prop where
  found : ∀ i v, out[i]? = some v → find (5 + 2 * i) = some (some v) ∧ 5 + 2 * i < n ∧ 5 + 2 * i < rangeMax
  ends : rangeMax ≤ 5 + 2 * out.length ∨ n ≤ 5 + 2 * out.length ∨ find (5 + 2 * out.length) = some none

theorem IsRange.unique {find : Nat → Option (Option ℚ)} {n rangeMax : Nat} {a b : List ℚ} (ha : IsRange find n rangeMax a)
    (hb : IsRange find n rangeMax b) : a = b := by
  have key : ∀ {a b : List ℚ}, IsRange find n rangeMax a → IsRange find n rangeMax b → ¬ a.length < b.length := by
    intro a b ha hb hlt
    obtain ⟨h1, h2, h3⟩ := hb.found a.length b[a.length] (List.getElem?_eq_getElem hlt)
    rcases ha.ends with h | h | h
    · omega
    · omega
    · rw [h] at h1; simp at h1
  have hl : a.length = b.length := by
    have := key ha hb
    have := key hb ha
    omega
  refine List.ext_getElem hl fun i h1 h2 => ?_
  have x := (ha.found i a[i] (List.getElem?_eq_getElem h1)).1
  have y := (hb.found i b[i] (List.getElem?_eq_getElem h2)).1
  rw [x] at y
  simpa using y

theorem rangeLoop_spec (find : Nat → Option (Option ℚ)) (n rangeMax : Nat) : ∀ (m : Nat) (out : List ℚ),
    out.length + m = rangeMax / 2 - 2 →
    (∀ i v, out[i]? = some v → find (5 + 2 * i) = some (some v) ∧ 5 + 2 * i < n ∧ 5 + 2 * i < rangeMax) →
    match rangeLoop find n (List.range' (out.length + 2) m) out with
    | some res => IsRange find n rangeMax res
    | none => ∃ k, 5 + 2 * k < n ∧ 5 + 2 * k < rangeMax ∧ find (5 + 2 * k) = none ∧
        ∀ i, i < k → ∃ v, find (5 + 2 * i) = some (some v) := by
  intro m
  induction m with
  | zero =>
    intro out hm h
    exact ⟨h, Or.inl (by omega)⟩
  | succ m ih =>
    intro out hm h
    rw [List.range'_succ]
    unfold rangeLoop
    have ew : (out.length + 2) * 2 + 1 = 5 + 2 * out.length := by ring
    rw [ew]
    have hlt : 5 + 2 * out.length < rangeMax := by omega
    by_cases hn : 5 + 2 * out.length ≥ n
    · rw [if_pos hn]
      exact ⟨h, Or.inr (Or.inl hn)⟩
    · rw [if_neg hn]
      cases hf : find (5 + 2 * out.length) with
      | none =>
        refine ⟨out.length, by omega, hlt, hf, fun i hi => ⟨out[i], (h i _ (List.getElem?_eq_getElem hi)).1⟩⟩
      | some v =>
        cases v with
        | none => exact ⟨h, Or.inr (Or.inr hf)⟩
        | some r =>
          have := ih (out ++ [r]) (by simp; omega) (by
            intro i v hv
            rcases Nat.lt_trichotomy i out.length with hi | rfl | hi
            · rw [List.getElem?_append_left hi] at hv
              exact h i v hv
            · simp at hv
              subst hv
              exact ⟨hf, by omega, hlt⟩
            · rw [List.getElem?_eq_none (by simp; omega)] at hv
              simp at hv)
          simp only [List.length_append, List.length_singleton] at this
          rw [show out.length + 2 + 1 = out.length + 1 + 2 by ring]
          exact this

/-- Property C188: `splashback_range` of plot_savgol_profile.py returns exactly the radii found with the windows 5, 7, ... up to the
first window that does not fit or finds nothing, as powers of ten; a first radius that has no logarithm is left out. -/
theorem C188_range_partial (lg pw : ℚ → ℚ) (sg : Savgol) (r0 : ℚ) (rs rhos out : List ℚ) (rangeMax : Nat) :
    savgolRange lg pw sg (r0 :: rs) rhos rangeMax = some out ↔
      ∃ (xs ys lout : List ℚ), (r0 ≤ 0 → xs = rs ∧ ys = rhos.tail) ∧ (0 < r0 → xs = r0 :: rs ∧ ys = rhos) ∧
        IsRange (findSplashback sg (-5) (xs.map lg) (ys.map lg)) xs.length rangeMax lout ∧ out = lout.map pw := by
  have key : ∀ xs ys : List ℚ, ((rangeLoop (findSplashback sg (-5) (xs.map lg) (ys.map lg)) (xs.map lg).length (rangeKs rangeMax)
      []).bind fun o => some (o.map pw)) = some out ↔
        ∃ lout, IsRange (findSplashback sg (-5) (xs.map lg) (ys.map lg)) xs.length rangeMax lout ∧ out = lout.map pw := by
    intro xs ys
    have h := rangeLoop_spec (findSplashback sg (-5) (xs.map lg) (ys.map lg)) (xs.map lg).length rangeMax (rangeMax / 2 - 2) []
      (by simp) (by simp)
    simp only [List.length_nil, Nat.zero_add, List.length_map] at h
    simp only [List.length_map]
    unfold rangeKs
    cases hr : rangeLoop (findSplashback sg (-5) (xs.map lg) (ys.map lg)) xs.length (List.range' 2 (rangeMax / 2 - 2)) [] with
    | none =>
      rw [hr] at h
      obtain ⟨k, h1, h2, h3, h4⟩ := h
      simp only [Option.bind_none]
      constructor
      · intro h; simp at h
      · rintro ⟨lout, hl, _⟩
        exfalso
        rcases Nat.lt_or_ge k lout.length with hk | hk
        · have := (hl.found k _ (List.getElem?_eq_getElem hk)).1
          rw [h3] at this; simp at this
        · rcases hl.ends with h | h | h
          · omega
          · omega
          · rcases Nat.lt_or_ge lout.length k with h' | h'
            · obtain ⟨v, hv⟩ := h4 _ h'
              rw [hv] at h; simp at h
            · obtain rfl : k = lout.length := by omega
              rw [h3] at h; simp at h
    | some o =>
      rw [hr] at h
      simp only [Option.bind_some, Option.some.injEq]
      constructor
      · rintro rfl
        exact ⟨o, h, rfl⟩
      · rintro ⟨lout, hl, rfl⟩
        rw [h.unique hl]
  have e0 : pyRd (r0 :: rs) 0 = some r0 := by simp [pyRd, rd]
  unfold savgolRange
  rw [e0]
  simp only [Option.bind_eq_bind, Option.bind_some]
  rcases le_or_gt r0 0 with hr | hr
  · rw [if_pos hr, if_pos hr, key]
    constructor
    · rintro ⟨lout, h1, h2⟩
      exact ⟨_, _, lout, fun _ => ⟨by simp, by simp⟩, fun h => absurd h (not_lt.mpr hr), h1, h2⟩
    · rintro ⟨xs, ys, lout, h1, _, h2, h3⟩
      obtain ⟨rfl, rfl⟩ := h1 hr
      exact ⟨lout, by simpa using h2, h3⟩
  · rw [if_neg (not_le.mpr hr), if_neg (not_le.mpr hr), key]
    constructor
    · rintro ⟨lout, h1, h2⟩
      exact ⟨_, _, lout, fun h => absurd hr (not_lt.mpr h), fun _ => ⟨rfl, rfl⟩, h1, h2⟩
    · rintro ⟨xs, ys, lout, _, h1, h2, h3⟩
      obtain ⟨rfl, rfl⟩ := h1 hr
      exact ⟨lout, h2, h3⟩

example : savgolRange (fun x => x) (fun x => x) savgol5 (0 :: tab 8 fun i => 1 + (i : ℚ) * 1)
    (7 :: tab 8 fun i => quartic 0 (-20) (-6) 1 0 (i : ℚ)) 100 = some [3, 3] := by decide +kernel

/-- Property C188 does not hold of plot_profile.py: with more than five points and a limit above five its `splashback_range`
raises an exception whatever the profile, and otherwise there is no window. -/
theorem C188_counterexample (sg : Savgol) (rs rhos : List ℚ) (rangeMax : Nat) :
    profileRange sg rs rhos rangeMax = if 5 < rs.length ∧ 5 < rangeMax then none else some [] := by
  unfold profileRange rangeKs
  by_cases hr : 5 < rangeMax
  · obtain ⟨m, hm⟩ : ∃ m, rangeMax / 2 - 2 = m + 1 := ⟨rangeMax / 2 - 3, by omega⟩
    rw [hm, List.range'_succ]
    unfold rangeLoop
    by_cases hl : 5 < rs.length
    · rw [if_neg (by omega), if_pos ⟨hl, hr⟩]
      cases findSplashback sg 0 rs rhos (2 * 2 + 1) <;> rfl
    · rw [if_pos (by omega), if_neg (by tauto)]
  · rw [show rangeMax / 2 - 2 = 0 by omega, if_neg (by tauto)]
    rfl

/-- Property C188: the statement of plot_profile.py that asks for the range raises an exception for every profile. -/
theorem C188_counterexample_plot (sg : Savgol) (mids vals : List ℚ) : plotRange sg mids vals = none := by
  unfold plotRange
  rw [C188_counterexample]
  split_ifs <;> rfl

example : (findSplashback savgol5 0 (tab 7 fun i => 0 + (i : ℚ) * 1) (tab 7 fun i => quartic 0 (-20) (-6) 1 0 (i : ℚ)) 5) =
    some (some 2) ∧ profileRange savgol5 (tab 7 fun i => 0 + (i : ℚ) * 1) (tab 7 fun i => quartic 0 (-20) (-6) 1 0 (i : ℚ)) 101 =
      none := by decide +kernel

/-! ### The other choices of a caustic -/

theorem causticAt_tab {n i : Nat} (r ρ s : Nat → ℚ) (h : i < n) :
    causticAt (tab n r) (tab n ρ) (tab n s) i = some [(r i, s i, ρ i)] := by
  simp [causticAt, tab, h]

/-- Property C188: the naive choice is the innermost point of least slope, unless that is one of the ends. -/
theorem C188_naive (n : Nat) (hn : 0 < n) (r ρ s : Nat → ℚ) : ∃ i, i < n ∧ (∀ j, j < n → s i ≤ s j) ∧ (∀ j, j < i → s i < s j) ∧
    naiveCausticMin (tab n r) (tab n ρ) (tab n s) = some (if i = 0 ∨ i = n - 1 then [] else [(r i, s i, ρ i)]) := by
  obtain ⟨m, rfl⟩ : ∃ m, n = m + 1 := ⟨n - 1, by omega⟩
  unfold naiveCausticMin
  rw [tab_length, List.range_succ_eq_map]
  have hp : (0 :: (List.range m).map Nat.succ).Pairwise (· < ·) := by
    rw [← List.range_succ_eq_map]; exact List.pairwise_lt_range
  obtain ⟨h1, h2, h3⟩ := foldl_argmin (fun i => (tab (m + 1) s).getD i 0) ((List.range m).map Nat.succ) 0 hp
  simp only [argmin]
  revert h1 h2 h3
  generalize List.foldl _ 0 _ = i
  rw [← List.range_succ_eq_map]
  intro h1 h2 h3
  have hi : i < m + 1 := List.mem_range.mp h1
  refine ⟨i, hi, ?_, ?_, ?_⟩
  · intro j hj
    have := h2 j (List.mem_range.mpr hj)
    rwa [tab_getD s hi, tab_getD s hj] at this
  · intro j hj
    have := h3 j (List.mem_range.mpr (by omega)) hj
    rwa [tab_getD s hi, tab_getD s (by omega)] at this
  · rw [tab_length, causticAt_tab r ρ s hi]
    by_cases hc : i = 0 ∨ i = m + 1 - 1
    · rw [if_pos hc, if_pos (by omega)]
    · rw [if_neg hc, if_neg (by omega)]

example : naiveCausticMin [1, 2, 3, 4] [9, 8, 7, 6] [0, -3, -3, -1] = some [(2, -3, 8)] ∧
    naiveCausticMin [1, 2, 3, 4] [9, 8, 7, 6] [0, -3, -2, -4] = some [] := by decide +kernel

/-- An inner point where the slope is a strict local minimum. -/
structure Dip (n : Nat) (s : Nat → ℚ) (i : Nat) : Prop where
  inner : 0 < i ∧ i + 1 < n
  left : s i < s (i - 1)
  right : s i < s (i + 1)

/-- Property C188: the local choice is the deepest strict local minimum of the slope, the innermost one on ties, and there is no
choice exactly if there is no such point. -/
theorem C188_local (n : Nat) (r ρ s : Nat → ℚ) :
    (localCausticMin (tab n r) (tab n ρ) (tab n s) = some [] ∧ ∀ i, ¬ Dip n s i) ∨
      ∃ i, localCausticMin (tab n r) (tab n ρ) (tab n s) = some [(r i, s i, ρ i)] ∧ Dip n s i ∧ (∀ j, Dip n s j → s i ≤ s j) ∧
        ∀ j, Dip n s j → j < i → s i < s j := by
  have m1 : ∀ i, i ∈ (argrelmin (tab n s)).filter (fun i : Nat => decide (i ≠ 0 ∧ (i : Int) ≠ (n : Int) - 1)) ↔ Dip n s i := by
    intro i
    rw [List.mem_filter, mem_argrelmin]
    simp only [decide_eq_true_eq]
    constructor
    · rintro ⟨⟨h1, h2, h3, h4⟩, _⟩
      exact ⟨⟨h1, h2⟩, h3, h4⟩
    · rintro ⟨⟨h1, h2⟩, h3, h4⟩
      exact ⟨⟨h1, h2, h3, h4⟩, by omega, by omega⟩
  have hpw : ((argrelmin (tab n s)).filter (fun i : Nat => decide (i ≠ 0 ∧ (i : Int) ≠ (n : Int) - 1))).Pairwise (· < ·) := by
    unfold argrelmin
    exact (List.pairwise_lt_range.filter _).filter _
  unfold localCausticMin
  rw [tab_length]
  revert m1 hpw
  generalize (argrelmin (tab n s)).filter (fun i : Nat => decide (i ≠ 0 ∧ (i : Int) ≠ (n : Int) - 1)) = l
  intro m1 hpw
  cases l with
  | nil => exact Or.inl ⟨rfl, fun i hi => by simpa using (m1 i).mpr hi⟩
  | cons a l =>
    obtain ⟨h1, h2, h3⟩ := foldl_argmin (fun i => (tab n s).getD i 0) l a hpw
    have hi := (m1 _).mp h1
    refine Or.inr ⟨_, ?_, hi, ?_, ?_⟩
    · exact causticAt_tab r ρ s (Nat.lt_of_succ_lt hi.inner.2)
    · intro j hj
      have := h2 j ((m1 j).mpr hj)
      rwa [tab_getD s (by have := hi.inner; omega), tab_getD s (by have := hj.inner; omega)] at this
    · intro j hj hlt
      have := h3 j ((m1 j).mpr hj) hlt
      rwa [tab_getD s (by have := hi.inner; omega), tab_getD s (by have := hj.inner; omega)] at this

example : localCausticMin [1, 2, 3, 4, 5] [9, 8, 7, 6, 5] [0, -3, -2, -3, -4] = some [(2, -3, 8)] ∧
    localCausticMin [1, 2, 3, 4, 5] [9, 8, 7, 6, 5] [0, -3, -3, -1, -4] = some [] := by decide +kernel

/-- Property C188 does not hold of the choice plot_profile.py makes: it raises an exception for every segment. -/
theorem C188_counterexample_choice (prev : List (ℚ × ℚ × ℚ)) (rs rhos ds : List ℚ) :
    chooseCaustic "low_local" prev rs rhos ds = none := by
  unfold chooseCaustic
  rw [if_neg (by decide), if_neg (by decide), if_pos rfl]

example : chooseCaustic "local" [] [1, 2, 3, 4, 5] [9, 8, 7, 6, 5] [0, -3, -2, -3, -4] = some [(2, -3, 8)] ∧
    chooseCaustic "naive" [] [1, 2, 3, 4, 5] [9, 8, 7, 6, 5] [0, -3, -2, -3, -1] = some [(2, -3, 8)] := by decide +kernel

end Verif.Py
