import Verif.Py.SmoothModel
import Verif.Py.VecDeriv
import Verif.Py.Rsp
import Mathlib.Tactic.Linarith
import Mathlib.Tactic.Ring
import Mathlib.Tactic.FieldSimp
import Mathlib.Tactic.NormNum

/-!
# C170, C171: smoothed profiles
-/

set_option autoImplicit false

namespace Verif.Py

open Verif.Go

/-- What is known of a Savitzky-Golay filter of order 4: with an odd window of 5 or more and more points than that, a
polynomial of degree 4 or less of the position comes back unchanged, and its derivative over the spacing given. -/
structure Savgol.Exact (sg : Savgol) : Prop where
  smooth : ∀ (n window : Nat) (a b c d e : ℚ), 5 ≤ window → window % 2 = 1 → window < n →
    sg.smooth (tab n fun i => quartic a b c d e i) window = some (tab n fun i => quartic a b c d e i)
  deriv : ∀ (n window : Nat) (a b c d e δ : ℚ), 5 ≤ window → window % 2 = 1 → window < n → δ ≠ 0 →
    sg.deriv (tab n fun i => quartic a b c d e i) window δ = some (tab n fun i => quartic' b c d e i / δ)

/-- A segment with `n` evenly spaced points whose density is, in logarithms, a polynomial of degree 4 or less. -/
structure PolySeg where
  n : Nat
  x0 : ℚ
  h : ℚ
  a : ℚ
  b : ℚ
  c : ℚ
  d : ℚ
  e : ℚ

/-- The radii (in logarithms). -/
def PolySeg.lrs (p : PolySeg) : List ℚ := tab p.n fun i => p.x0 + i * p.h
/-- The densities (in logarithms). -/
def PolySeg.lrhos (p : PolySeg) : List ℚ := tab p.n fun i => quartic p.a p.b p.c p.d p.e (p.x0 + i * p.h)
/-- The slope of the density at point `i`. -/
def PolySeg.slope (p : PolySeg) (i : Nat) : ℚ := quartic' p.b p.c p.d p.e (p.x0 + i * p.h)

theorem quartic_shift (a b c d e x0 h : ℚ) (x : ℚ) : quartic a b c d e (x0 + x * h) =
    quartic (quartic a b c d e x0) (h * quartic' b c d e x0) (h ^ 2 * (c + 3 * d * x0 + 6 * e * x0 ^ 2))
      (h ^ 3 * (d + 4 * e * x0)) (h ^ 4 * e) x := by
  unfold quartic quartic'; ring

theorem quartic'_shift (b c d e x0 h : ℚ) (x : ℚ) : h * quartic' b c d e (x0 + x * h) =
    quartic' (h * quartic' b c d e x0) (h ^ 2 * (c + 3 * d * x0 + 6 * e * x0 ^ 2)) (h ^ 3 * (d + 4 * e * x0)) (h ^ 4 * e) x := by
  unfold quartic'; ring

theorem smoothTurn_poly {sg : Savgol} (hs : sg.Exact) {window : Nat} (hw : 5 ≤ window) (ho : window % 2 = 1) (segs : List SmSeg)
    (p : PolySeg) (hh : p.h ≠ 0) : smoothTurn sg window segs (p.lrs, p.lrhos) =
      some (segs ++ if window < p.n then [⟨p.lrs, p.lrhos, tab p.n fun i => p.slope i * (p.n / (p.n - 1))⟩] else []) := by
  unfold smoothTurn
  by_cases hn : window < p.n
  · have hl : p.lrs.length = p.n := by simp [PolySeg.lrs, tab_length]
    rw [if_neg (by rw [hl]; omega), if_pos hn]
    have e0 : pyRd p.lrs 0 = some p.x0 := by
      have := pyRd_tab (n := p.n) (fun i => p.x0 + i * p.h) 0 (by omega)
      simpa [PolySeg.lrs] using this
    have e1 : pyRd p.lrs (-1) = some (p.x0 + ((p.n - 1 : Nat) : ℚ) * p.h) := by
      have := pyRd_tab_neg (n := p.n) (fun i => p.x0 + i * p.h) 1 (by omega) (by omega)
      simpa [PolySeg.lrs] using this
    have er : p.lrhos = tab p.n fun i => quartic (quartic p.a p.b p.c p.d p.e p.x0) (p.h * quartic' p.b p.c p.d p.e p.x0)
        (p.h ^ 2 * (p.c + 3 * p.d * p.x0 + 6 * p.e * p.x0 ^ 2)) (p.h ^ 3 * (p.d + 4 * p.e * p.x0)) (p.h ^ 4 * p.e) i := by
      unfold PolySeg.lrhos
      exact tab_congr fun i _ => quartic_shift ..
    have hn1 : ((p.n - 1 : Nat) : ℚ) = (p.n : ℚ) - 1 := by rw [Nat.cast_sub (by omega)]; norm_num
    have hnq : (1 : ℚ) < p.n := by exact_mod_cast (by omega : 1 < p.n)
    have hδ : (p.x0 + ((p.n - 1 : Nat) : ℚ) * p.h - p.x0) / (p.lrs.length : ℚ) ≠ 0 := by
      rw [hl, hn1]
      have : ((p.n : ℚ) - 1) * p.h ≠ 0 := mul_ne_zero (by linarith) hh
      have h2 : (p.n : ℚ) ≠ 0 := by linarith
      rw [add_sub_cancel_left]
      exact div_ne_zero this h2
    simp only [e0, e1, Option.bind_eq_bind, Option.bind_some]
    have s1 := hs.smooth p.n window (quartic p.a p.b p.c p.d p.e p.x0) (p.h * quartic' p.b p.c p.d p.e p.x0)
        (p.h ^ 2 * (p.c + 3 * p.d * p.x0 + 6 * p.e * p.x0 ^ 2)) (p.h ^ 3 * (p.d + 4 * p.e * p.x0)) (p.h ^ 4 * p.e) hw ho hn
    have s2 := hs.deriv p.n window (quartic p.a p.b p.c p.d p.e p.x0) (p.h * quartic' p.b p.c p.d p.e p.x0)
        (p.h ^ 2 * (p.c + 3 * p.d * p.x0 + 6 * p.e * p.x0 ^ 2)) (p.h ^ 3 * (p.d + 4 * p.e * p.x0)) (p.h ^ 4 * p.e) _ hw ho hn hδ
    rw [← er] at s1 s2
    rw [s1]; simp only [Option.bind_some]
    rw [s2]; simp only [Option.bind_some]
    congr 4
    refine tab_congr fun i _ => ?_
    rw [← quartic'_shift, hl, hn1, add_sub_cancel_left]
    unfold PolySeg.slope
    have h1 : (p.n : ℚ) - 1 ≠ 0 := by linarith
    have h2 : (p.n : ℚ) ≠ 0 := by linarith
    field_simp
  · have hl : p.lrs.length = p.n := by simp [PolySeg.lrs, tab_length]
    rw [if_pos (by rw [hl]; omega), if_neg hn, List.append_nil]

/-- Property C170, as far as it holds: smoothing leaves a density alone that is a polynomial of degree 4 or less in
logarithms, segments not longer than the window are left out, and the slopes are the true slopes times `n / (n - 1)`, where
`n` is the number of points of the segment: the spacing is taken as the length of the segment over the number of points
instead of the number of gaps. -/
theorem C170_slope_partial {sg : Savgol} (hs : sg.Exact) {window : Nat} (hw : 5 ≤ window) (ho : window % 2 = 1)
    (ps : List PolySeg) (hh : ∀ p ∈ ps, p.h ≠ 0) :
    smoothedProfile sg window (ps.map fun p => (p.lrs, p.lrhos)) = some ((ps.filter fun p => window < p.n).map fun p =>
      ⟨p.lrs, p.lrhos, tab p.n fun i => p.slope i * (p.n / (p.n - 1))⟩) := by
  unfold smoothedProfile
  induction ps using List.reverseRecOn with
  | nil => rfl
  | append_singleton ps p ih =>
    have ih := ih fun q hq => hh q (by simp [hq])
    rw [List.map_append, List.foldlM_append, ih]
    simp only [Option.bind_eq_bind, Option.bind_some, List.map_cons, List.map_nil, List.foldlM_cons, List.foldlM_nil]
    rw [smoothTurn_poly hs hw ho _ p (hh p (by simp))]
    simp only [Option.bind_some, List.filter_append, List.map_append]
    change some _ = some _
    congr 2
    by_cases hn : window < p.n <;> simp [hn]

/-- Property C170 for every filter and all profiles: the segments are, in order, those of the profile with more points than the
window; radii are kept, densities are the filtered ones and slopes those of the filter for the unfiltered densities. -/
theorem C170_filter (sg : Savgol) (window : Nat) (groups : List (List ℚ × List ℚ)) (segs : List SmSeg)
    (h : smoothedProfile sg window groups = some segs) :
    List.Forall₂ (fun (g : List ℚ × List ℚ) (s : SmSeg) => s.lrs = g.1 ∧ sg.smooth g.2 window = some s.lrhos ∧
      ∃ δ a b, g.1.head? = some a ∧ g.1.getLast? = some b ∧ δ = (b - a) / g.1.length ∧
        sg.deriv g.2 window δ = some s.lderivs)
      (groups.filter fun g => window < g.1.length) segs := by
  unfold smoothedProfile at h
  induction groups using List.reverseRecOn generalizing segs with
  | nil => simp only [List.foldlM_nil] at h; rw [← Option.some.inj h]; exact List.Forall₂.nil
  | append_singleton gs g ih =>
    rw [List.foldlM_append] at h
    simp only [Option.bind_eq_bind, Option.bind_eq_some_iff, List.foldlM_cons, List.foldlM_nil] at h
    obtain ⟨s0, h0, s1, h1, h2⟩ := h
    obtain rfl : s1 = segs := Option.some.inj h2
    have ih := ih s0 h0
    unfold smoothTurn at h1
    rw [List.filter_append]
    split at h1
    · next hn =>
      rw [← Option.some.inj h1, List.filter_cons_of_neg (by simpa using hn), List.filter_nil, List.append_nil]
      exact ih
    · next hn =>
      simp only [Option.bind_eq_bind, Option.bind_eq_some_iff] at h1
      obtain ⟨ρ, hρ, b, hb, a, ha, ld, hld, e⟩ := h1
      rw [← Option.some.inj e, List.filter_cons_of_pos (by simpa using hn), List.filter_nil]
      refine List.rel_append ih (List.Forall₂.cons ⟨rfl, hρ, _, a, b, ?_, ?_, rfl, hld⟩ List.Forall₂.nil)
      · rcases hg : g.1 with _ | ⟨x, l⟩
        · simp [hg] at hn
        · rw [hg] at ha
          have h3 : rd (x :: l) ((0 : Nat) : Int) = some a := by simpa [pyRd] using ha
          rw [rd_natCast] at h3
          simpa using h3
      · rw [List.getLast?_eq_getElem?]
        have hl : 0 < g.1.length := by omega
        have h3 : rd g.1 ((g.1.length - 1 : Nat) : Int) = some b := by
          have e1 : ((g.1.length - 1 : Nat) : Int) = -1 + g.1.length := by omega
          rw [e1]
          simpa [pyRd] using hb
        rw [rd_natCast] at h3
        exact h3

/-- The derivative and the filter with a window of 5 points: the polynomial through the five points. -/
def savgol5 : Savgol where
  smooth := fun ys _ => some ys
  deriv := fun ys _ δ => (vectorDeriv (tab ys.length fun i => 0 + i * 1) ys 4).map fun d => d.map (· / δ)

theorem savgol5_exact : savgol5.Exact := by
  refine ⟨fun _ _ _ _ _ _ _ _ _ _ => rfl, ?_⟩
  intro n window a b c d e δ hw _ hn _
  have := C161_order4 n (by omega) 0 1 one_ne_zero a b c d e
  simp only [zero_add, mul_one] at this
  simp only [savgol5, tab_length, zero_add, mul_one, this, Option.map_some, map_tab]

/-- Property C170 is false: the slope of a profile that falls like `r⁻³`, sampled at 6 points, comes out as -18/5. -/
theorem C170_counterexample :
    (smoothedProfile savgol5 5 [(tab 6 fun i => i / 100, tab 6 fun i => -3 * (i / 100))]).map (fun s => s.map SmSeg.lderivs) =
      some [[-18 / 5, -18 / 5, -18 / 5, -18 / 5, -18 / 5, -18 / 5]] := by decide +kernel

example : ∃ p : PolySeg, p.h ≠ 0 ∧ 5 < p.n ∧ p.lrs = (tab 6 fun i => i / 100) ∧ p.lrhos = (tab 6 fun i => -3 * (i / 100)) :=
  ⟨⟨6, 0, 1 / 100, 0, -3, 0, 0, 0⟩, by norm_num, by norm_num, by decide +kernel, by decide +kernel⟩

/-- Property C170: the factor does not move the splashback radius, it only moves the limit a slope has to be below: the index
found with the slopes times `c` and limit `lim` is the one found with the slopes and limit `lim / c`. -/
theorem C170_index (lim c : ℚ) (hc : 0 < c) (n : Nat) (ρ s : Nat → ℚ) :
    rSpIdx lim n (tab n ρ) (tab n fun i => s i * c) = rSpIdx (lim / c) n (tab n ρ) (tab n s) := by
  have hiff : ∀ i, Caustic lim n ρ (fun i => s i * c) i ↔ Caustic (lim / c) n ρ s i := by
    intro i
    constructor
    · rintro ⟨h1, h2, h3, h4, h5⟩
      exact ⟨h1, (mul_lt_mul_iff_left₀ hc).mp h2, (mul_lt_mul_iff_left₀ hc).mp h3, h4, (lt_div_iff₀ hc).mpr h5⟩
    · rintro ⟨h1, h2, h3, h4, h5⟩
      exact ⟨h1, (mul_lt_mul_iff_left₀ hc).mpr h2, (mul_lt_mul_iff_left₀ hc).mpr h3, h4, (lt_div_iff₀ hc).mp h5⟩
  obtain ⟨k, e, hk⟩ := C159_index lim n ρ fun i => s i * c
  obtain ⟨k', e', hk'⟩ := C159_index (lim / c) n ρ s
  rw [e, e']
  simp only [hiff, mul_le_mul_iff_left₀ hc, mul_lt_mul_iff_left₀ hc] at hk
  congr 1
  rcases hk with ⟨h1, h2⟩ | ⟨i, h1, h2, h3, h4⟩ <;> rcases hk' with ⟨h1', h2'⟩ | ⟨i', h1', h2', h3', h4'⟩
  · rw [h1, h1']
  · exact absurd h2' (h2 i')
  · exact absurd h2 (h2' i)
  · rw [h1, h1']
    rcases lt_trichotomy i i' with hlt | heq | hgt
    · have := h4' i h2 hlt; have := h3 i' h2'; linarith
    · rw [heq]
    · have := h4 i' h2' hgt; have := h3' i h2; linarith

example : rSpIdx (-5) 5 (tab 5 fun i => 10 - i) (tab 5 fun i => if i = 2 then -9 / 2 * (5 / 4) else -1) = some 2 ∧
    rSpIdx (-5) 5 (tab 5 fun i => 10 - i) (tab 5 fun i => if i = 2 then -9 / 2 else -1) = some (-1) := by decide +kernel

/-! ### Several windows -/

/-- The radii `r 0, …, r (k - 1)` belong to the windows `5, 7, …`, no two neighbours differ by more than a tenth of the second,
and there is no next one. -/
structure Stable (rsp : Nat → Option ℚ) (maxWindow k : Nat) (r : Nat → ℚ) : Prop where
  has : ∀ i, i < k → rsp (5 + 2 * i) = some (r i)
  inside : ∀ i, i < k → 5 + 2 * i < maxWindow
  steady : ∀ i, i + 1 < k → |r (i + 1) - r i| / r (i + 1) ≤ 1 / 10
  stops : maxWindow ≤ 5 + 2 * k ∨ rsp (5 + 2 * k) = none

theorem multiLoop_spec (rsp : Nat → Option ℚ) (r : Nat → ℚ) (hr : ∀ i v, rsp (5 + 2 * i) = some v → r i = v) (total : Nat) :
    ∀ (m k : Nat), k + m = total → (∀ i, i < k → rsp (5 + 2 * i) = some (r i)) →
      (∀ i, i + 1 < k → |r (i + 1) - r i| / r (i + 1) ≤ 1 / 10) →
      ∃ k', k ≤ k' ∧ k' ≤ total ∧ (∀ i, i < k' → rsp (5 + 2 * i) = some (r i)) ∧
        (∀ i, i + 1 < k' → |r (i + 1) - r i| / r (i + 1) ≤ 1 / 10) ∧
        (multiLoop rsp ((List.range' k m).map fun i => 5 + 2 * i) (if k = 0 then none else some (r (k - 1)))
            ((List.range k).map fun i => (5 + 2 * i, r i))).1 = (List.range k').map (fun i => (5 + 2 * i, r i)) ∧
        ((multiLoop rsp ((List.range' k m).map fun i => 5 + 2 * i) (if k = 0 then none else some (r (k - 1)))
            ((List.range k).map fun i => (5 + 2 * i, r i))).2 = false → k' = total ∨ rsp (5 + 2 * k') = none) ∧
        ((multiLoop rsp ((List.range' k m).map fun i => 5 + 2 * i) (if k = 0 then none else some (r (k - 1)))
            ((List.range k).map fun i => (5 + 2 * i, r i))).2 = true → 0 < k' ∧ k' < total ∧ rsp (5 + 2 * k') = some (r k') ∧
              1 / 10 < |r k' - r (k' - 1)| / r k') := by
  intro m
  induction m with
  | zero =>
    intro k hk h1 h2
    exact ⟨k, le_rfl, by omega, h1, h2, rfl, fun _ => Or.inl (by omega), by simp [multiLoop]⟩
  | succ m ih =>
    intro k hk h1 h2
    simp only [List.range'_succ, List.map_cons]
    cases hv : rsp (5 + 2 * k) with
    | none =>
      refine ⟨k, le_rfl, by omega, h1, h2, ?_, fun _ => Or.inr hv, ?_⟩ <;> simp [multiLoop, hv]
    | some v =>
      have hrv : r k = v := hr k v hv
      have hnext : ((List.range k).map fun i => (5 + 2 * i, r i)) ++ [(5 + 2 * k, v)] =
          (List.range (k + 1)).map fun i => (5 + 2 * i, r i) := by
        rw [List.range_succ, List.map_append]; simp [hrv]
      have h1' : ∀ i, i < k + 1 → rsp (5 + 2 * i) = some (r i) := by
        intro i hi
        rcases Nat.lt_or_ge i k with hlt | hge
        · exact h1 i hlt
        · obtain rfl : i = k := by omega
          rw [hv, hrv]
      by_cases hk0 : k = 0
      · subst hk0
        obtain ⟨k', a1, a2, a3, a4, a5, a6, a7⟩ := ih 1 (by omega) h1' (by omega)
        simp only [multiLoop, hv, if_true]
        rw [hnext]
        simp only [Nat.zero_add, if_neg (by omega : ¬ 1 = 0), Nat.sub_self, hrv] at a5 a6 a7 ⊢
        exact ⟨k', by omega, a2, a3, a4, a5, a6, a7⟩
      · simp only [multiLoop, hv, if_neg hk0]
        by_cases hbig : |v - r (k - 1)| / v > 1 / 10
        · simp only [if_pos hbig]
          refine ⟨k, le_rfl, by omega, h1, h2, rfl, by simp, fun _ => ⟨by omega, by omega, by rw [hrv, hv], by rw [hrv]; exact hbig⟩⟩
        · simp only [if_neg hbig]
          obtain ⟨k', a1, a2, a3, a4, a5, a6, a7⟩ := ih (k + 1) (by omega) h1' (by
            intro i hi
            rcases Nat.lt_or_ge (i + 1) k with hlt | hge
            · exact h2 i hlt
            · have : i = k - 1 := by omega
              subst this
              rw [show k - 1 + 1 = k by omega, hrv]; exact not_lt.mp hbig)
          rw [hnext]
          simp only [if_neg (by omega : ¬ k + 1 = 0), Nat.add_sub_cancel, hrv] at a5 a6 a7
          exact ⟨k', by omega, a2, a3, a4, a5, a6, a7⟩

theorem multi_cases (rsp : Nat → Option ℚ) (maxWindow : Nat) : ∃ (r : Nat → ℚ) (k : Nat),
    (multiLoop rsp (windows maxWindow) none []).1 = (List.range k).map (fun i => (5 + 2 * i, r i)) ∧
    ((multiLoop rsp (windows maxWindow) none []).2 = false → Stable rsp maxWindow k r) ∧
    ((multiLoop rsp (windows maxWindow) none []).2 = true → (∀ i, i ≤ k → rsp (5 + 2 * i) = some (r i)) ∧ 0 < k ∧
      5 + 2 * k < maxWindow ∧ 1 / 10 < |r k - r (k - 1)| / r k) := by
  let r : Nat → ℚ := fun i => (rsp (5 + 2 * i)).getD 0
  obtain ⟨k', a1, a2, a3, a4, a5, a6, a7⟩ := multiLoop_spec rsp r (fun i v h => by simp [r, h]) ((maxWindow - 5 + 1) / 2)
    ((maxWindow - 5 + 1) / 2) 0 (by omega) (by omega) (by omega)
  have ew : windows maxWindow = (List.range' 0 ((maxWindow - 5 + 1) / 2)).map fun i => 5 + 2 * i := by
    unfold windows; rw [List.range_eq_range']
  simp only [if_true, List.range_zero, List.map_nil, ← ew] at a5 a6 a7
  refine ⟨r, k', a5, fun hf => ⟨a3, fun i hi => by omega, a4, ?_⟩, fun ht => ?_⟩
  · rcases a6 hf with h | h
    · exact Or.inl (by omega)
    · exact Or.inr h
  · obtain ⟨b1, b2, b3, b4⟩ := a7 ht
    refine ⟨fun i hi => ?_, b1, by omega, b4⟩
    rcases Nat.lt_or_ge i k' with hlt | hge
    · exact a3 i hlt
    · obtain rfl : i = k' := by omega
      exact b3

theorem stable_unique {rsp : Nat → Option ℚ} {maxWindow k k' : Nat} {r r' : Nat → ℚ} (h : Stable rsp maxWindow k r)
    (h' : Stable rsp maxWindow k' r') : k = k' := by
  rcases lt_trichotomy k k' with hlt | heq | hgt
  · rcases h.stops with hs | hs
    · have := h'.inside k hlt; omega
    · rw [h'.has k hlt] at hs; simp at hs
  · exact heq
  · rcases h'.stops with hs | hs
    · have := h.inside k' hgt; omega
    · rw [h.has k' hgt] at hs; simp at hs

/-- Property C171: a segment counts as valid for the window `5 + 2 * j` exactly if the radii found with windows 5, 7, … never
jump by more than a tenth until they end, there are at least two of them and that window is among them. The radius reported
is then the one found with that window. -/
theorem C171_valid (rsp : Nat → Option ℚ) (maxWindow j : Nat) (profs : List (Nat × ℚ)) :
    multiSmooth rsp (5 + 2 * j) maxWindow = some (profs, true) ↔
      ∃ (k : Nat) (r : Nat → ℚ), Stable rsp maxWindow k r ∧ 2 ≤ k ∧ j < k ∧
        profs = (List.range k).map (fun i => (5 + 2 * i, r i)) ∧ multiRsp profs (5 + 2 * j) = rsp (5 + 2 * j) := by
  obtain ⟨r, k, e1, e2, e3⟩ := multi_cases rsp maxWindow
  have ej : (((5 + 2 * j : Nat) : Int) - 5) / 2 = j := by omega
  unfold multiSmooth
  simp only [e1, ej, List.length_map, List.length_range]
  constructor
  · intro hm
    split_ifs at hm with c1 c2 c3
    · simp at hm
    · simp at hm
    · have hst := e2 (by simpa using c1)
      have hprofs : profs = (List.range k).map (fun i => (5 + 2 * i, r i)) := by simpa using hm.symm
      have hjk : j < k := by omega
      refine ⟨k, r, hst, by omega, hjk, hprofs, ?_⟩
      unfold multiRsp pyRd
      rw [ej, if_neg (by omega), hprofs, rd_natCast, hst.has j hjk]
      simp [hjk]
  · rintro ⟨k', r', hst, h2, hjk, hprofs, -⟩
    have hstop : (multiLoop rsp (windows maxWindow) none []).2 = false := by
      by_contra hne
      obtain ⟨b1, b2, b3, b4⟩ := e3 (by simpa using hne)
      have hkk : k < k' := by
        by_contra hlt
        rcases hst.stops with hs | hs
        · omega
        · rw [b1 k' (by omega)] at hs; simp at hs
      have hst1 := hst.steady (k - 1) (by omega)
      have r1 : r' k = r k := by have := hst.has k hkk; rw [b1 k le_rfl] at this; exact (Option.some.inj this).symm
      have r2 : r' (k - 1) = r (k - 1) := by
        have := hst.has (k - 1) (by omega); rw [b1 (k - 1) (by omega)] at this; exact (Option.some.inj this).symm
      rw [show k - 1 + 1 = k by omega, r1, r2] at hst1
      linarith
    have hst0 := e2 hstop
    obtain rfl := stable_unique hst hst0
    rw [if_neg (by simp [hstop]), if_neg (by omega), if_neg (by omega), hprofs]
    congr 2
    refine List.map_congr_left fun i hi => ?_
    have hi := List.mem_range.mp hi
    have := hst.has i hi
    rw [hst0.has i hi] at this
    rw [Option.some.inj this]

/-- Property C171 is false for the smallest window: if only window 5 gives a radius, taking the largest of no differences
raises instead of reporting the radius. -/
theorem C171_counterexample (maxWindow : Nat) (hm : 5 < maxWindow) (rsp : Nat → Option ℚ) (r5 : ℚ) (h5 : rsp 5 = some r5)
    (h7 : rsp 7 = none) : multiSmooth rsp 5 maxWindow = none := by
  obtain ⟨r, k, e1, e2, e3⟩ := multi_cases rsp maxWindow
  have hstop : (multiLoop rsp (windows maxWindow) none []).2 = false := by
    by_contra hne
    obtain ⟨b1, b2, b3, b4⟩ := e3 (by simpa using hne)
    have := b1 1 (by omega)
    rw [h7] at this; simp at this
  have hst := e2 hstop
  have hk : k = 1 := by
    have h1 : ¬ 2 ≤ k := fun h => by have := hst.has 1 (by omega); rw [h7] at this; simp at this
    have h0 : k ≠ 0 := by
      rintro rfl
      rcases hst.stops with hs | hs
      · omega
      · rw [h5] at hs; simp at hs
    omega
  subst hk
  unfold multiSmooth
  simp [e1, hstop]

example : multiSmooth (fun w => if w < 12 then some (100 - w) else none) 7 81 =
    some ([(5, 95), (7, 93), (9, 91), (11, 89)], true) ∧ multiRsp [(5, 95), (7, 93), (9, 91), (11, 89)] 7 = some 93 := by
  decide +kernel
example : multiSmooth (fun w => if w < 12 then some (if w = 9 then 50 else 90) else none) 5 81 = some ([(5, 90), (7, 90)], false) := by
  decide +kernel

end Verif.Py
