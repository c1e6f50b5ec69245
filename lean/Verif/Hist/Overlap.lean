import Verif.Hist.Model
import Mathlib.Tactic.Linarith
import Mathlib.Tactic.Ring
import Mathlib.Tactic.Positivity
import Mathlib.Tactic.FieldSimp
import Mathlib.Tactic.NormNum
import Mathlib.Tactic.FinCases

/-!
# C57, C58, C60, C95: cubes of the histogram workers, overlap tests, density lookup
-/

set_option autoImplicit false

namespace Verif.Hist

open Verif.Go Verif.Geom Verif.Render

/-! ## C58: overlap on the periodic axis -/

/-- Position `x` lies strictly inside the interval of length `span` starting at `a`, on a circle of length `L`. -/
def Inside (L a span x : ℚ) : Prop := ∃ n : ℤ, a < x + n * L ∧ x + n * L < a + span

/-- Two intervals share a position in the interior of both. -/
def Overlap (L a aSpan b bSpan : ℚ) : Prop := ∃ x, Inside L a aSpan x ∧ Inside L b bSpan x

theorem inside_shift {L a span x : ℚ} (k : ℤ) : Inside L a span (x + k * L) ↔ Inside L a span x := by
  constructor
  · rintro ⟨n, h1, h2⟩
    refine ⟨n + k, ?_, ?_⟩ <;> push_cast <;> linarith
  · rintro ⟨n, h1, h2⟩
    refine ⟨n - k, ?_, ?_⟩ <;> push_cast <;> linarith

/-- `contains1D` decides whether a position is strictly inside a periodic interval. -/
theorem C58_contains {L a span b : ℚ} (hL : 0 < L) (ha : 0 ≤ a ∧ a < L) (hb : 0 ≤ b ∧ b < 2 * L) (hs : span ≤ L) :
    contains1D a span b L = true ↔ Inside L a span b := by
  have key : ∀ b : ℚ, 0 ≤ b → b < L →
      (((b > a && a + span > b) || (b < a && a + span - L > b)) = true ↔ Inside L a span b) := by
    intro b h0 h1
    simp only [Bool.or_eq_true, Bool.and_eq_true, decide_eq_true_eq]
    constructor
    · rintro (⟨h, h'⟩ | ⟨h, h'⟩)
      · exact ⟨0, by simpa using h, by simpa using h'⟩
      · exact ⟨1, by push_cast; linarith, by push_cast; linarith⟩
    · rintro ⟨n, h, h'⟩
      have n0 : 0 ≤ n := by
        by_contra hn
        have : (n : ℚ) ≤ -1 := by exact_mod_cast (by omega : n ≤ -1)
        nlinarith [ha.1]
      have n1 : n ≤ 1 := by
        by_contra hn
        have : (2 : ℚ) ≤ n := by exact_mod_cast (by omega : 2 ≤ n)
        nlinarith [ha.2]
      obtain rfl | rfl : n = 0 ∨ n = 1 := by omega
      · left; simp at h h'; exact ⟨h, h'⟩
      · right; push_cast at h h'; exact ⟨by linarith, by linarith⟩
  unfold contains1D
  by_cases h : b ≥ L
  · rw [if_pos h]
    rw [key (b - L) (by linarith) (by linarith [hb.2]), show b - L = b + ((-1 : ℤ) : ℚ) * L by push_cast; ring,
      inside_shift]
  · rw [if_neg h]
    exact key b hb.1 (lt_of_not_ge h)

example : contains1D 8 4 1 10 = true ∧ Inside 10 8 4 1 :=
  have h : contains1D 8 4 1 10 = true := by decide +kernel
  ⟨h, (C58_contains (by norm_num) ⟨by norm_num, by norm_num⟩ ⟨by norm_num, by norm_num⟩ (by norm_num)).mp h⟩

/-- What `intersect1D` decides: whether the two intervals overlap, except that it answers no for two equal
intervals. The wanted statement is without the last condition. -/
theorem C58_intersect_partial {L a aSpan b bSpan : ℚ} (hL : 0 < L) (ha : 0 ≤ a ∧ a < L) (hb : 0 ≤ b ∧ b < L)
    (hsa : 0 < aSpan ∧ aSpan ≤ L) (hsb : 0 < bSpan ∧ bSpan ≤ L) :
    intersect1D a aSpan b bSpan L = true ↔ Overlap L a aSpan b bSpan ∧ ¬(a = b ∧ aSpan = bSpan) := by
  unfold intersect1D
  simp only [Bool.or_eq_true]
  rw [C58_contains hL ha ⟨hb.1, by linarith [hb.2]⟩ hsa.2,
    C58_contains hL ha ⟨by linarith [hb.1, hsb.1], by linarith [hb.2, hsb.2]⟩ hsa.2,
    C58_contains hL hb ⟨ha.1, by linarith [ha.2]⟩ hsb.2,
    C58_contains hL hb ⟨by linarith [ha.1, hsa.1], by linarith [ha.2, hsa.2]⟩ hsb.2]
  have start : ∀ {a aSpan b bSpan : ℚ}, 0 < bSpan → Inside L a aSpan b → Overlap L a aSpan b bSpan := by
    rintro a aSpan b bSpan hs ⟨n, h1, h2⟩
    obtain ⟨e, he0, he1, he2⟩ : ∃ e : ℚ, 0 < e ∧ e < bSpan ∧ e < a + aSpan - (b + n * L) := by
      refine ⟨min bSpan (a + aSpan - (b + n * L)) / 2, ?_, ?_, ?_⟩
      · have := lt_min hs (sub_pos.mpr h2); linarith
      · have := lt_min hs (sub_pos.mpr h2)
        have := min_le_left bSpan (a + aSpan - (b + n * L)); linarith
      · have := lt_min hs (sub_pos.mpr h2)
        have := min_le_right bSpan (a + aSpan - (b + n * L)); linarith
    exact ⟨b + e, ⟨n, by linarith, by linarith⟩, ⟨0, by push_cast; linarith, by push_cast; linarith⟩⟩
  have stop : ∀ {a aSpan b bSpan : ℚ}, 0 < bSpan → Inside L a aSpan (b + bSpan) → Overlap L a aSpan b bSpan := by
    rintro a aSpan b bSpan hs ⟨n, h1, h2⟩
    obtain ⟨e, he0, he1, he2⟩ : ∃ e : ℚ, 0 < e ∧ e < bSpan ∧ e < b + bSpan + n * L - a := by
      refine ⟨min bSpan (b + bSpan + n * L - a) / 2, ?_, ?_, ?_⟩
      · have := lt_min hs (sub_pos.mpr h1); linarith
      · have := lt_min hs (sub_pos.mpr h1)
        have := min_le_left bSpan (b + bSpan + n * L - a); linarith
      · have := lt_min hs (sub_pos.mpr h1)
        have := min_le_right bSpan (b + bSpan + n * L - a); linarith
    exact ⟨b + bSpan - e, ⟨n, by linarith, by linarith⟩, ⟨0, by push_cast; linarith, by push_cast; linarith⟩⟩
  have comm : ∀ {a aSpan b bSpan : ℚ}, Overlap L a aSpan b bSpan → Overlap L b bSpan a aSpan :=
    fun ⟨x, h1, h2⟩ => ⟨x, h2, h1⟩
  have small : ∀ {n : ℤ}, 0 < (n : ℚ) * L → (n : ℚ) * L < L → False := by
    intro n h1 h2
    have a1 : (0 : ℚ) < n := by by_contra h; nlinarith
    have a2 : (n : ℚ) < 1 := by by_contra h; nlinarith
    have : 0 < n := by exact_mod_cast a1
    have : n < 1 := by exact_mod_cast a2
    omega
  constructor
  · intro h
    refine ⟨?_, ?_⟩
    · rcases h with ((h | h) | h) | h
      · exact start hsb.1 h
      · exact stop hsb.1 h
      · exact comm (start hsa.1 h)
      · exact comm (stop hsa.1 h)
    · rintro ⟨rfl, rfl⟩
      have h' : Inside L a aSpan a ∨ Inside L a aSpan (a + aSpan) := by tauto
      rcases h' with ⟨n, h1, h2⟩ | ⟨n, h1, h2⟩
      · exact small (n := n) (by linarith) (by linarith [hsa.2])
      · refine small (n := -n) ?_ ?_ <;> push_cast
        · linarith
        · linarith [hsa.2]
  · rintro ⟨⟨x, ⟨m, m1, m2⟩, ⟨n, n1, n2⟩⟩, hne⟩
    have e : x + m * L = x + n * L + ((m - n : ℤ) : ℚ) * L := by push_cast; ring
    rw [e] at m1 m2
    generalize hy : x + n * L = y at *
    generalize hk : m - n = k at *
    rcases lt_trichotomy a (b + k * L) with h | h | h
    · exact Or.inl (Or.inl (Or.inl ⟨k, h, by linarith⟩))
    · have k0 : k = 0 := by
        by_contra hk0
        rcases lt_or_gt_of_ne hk0 with h' | h'
        · have : (k : ℚ) ≤ -1 := by exact_mod_cast (by omega : k ≤ -1)
          nlinarith [ha.1, hb.2]
        · have : (1 : ℚ) ≤ k := by exact_mod_cast (by omega : 1 ≤ k)
          nlinarith [ha.2, hb.1]
      subst k0
      have hab : a = b := by simpa using h
      rcases lt_trichotomy aSpan bSpan with h' | h' | h'
      · exact Or.inr ⟨0, by push_cast; linarith [hsa.1], by push_cast; linarith⟩
      · exact absurd ⟨hab, h'⟩ hne
      · exact Or.inl (Or.inl (Or.inr ⟨0, by push_cast; linarith [hsb.1], by push_cast; linarith⟩))
    · exact Or.inl (Or.inr ⟨-k, by push_cast; linarith, by push_cast; linarith⟩)

example : intersect1D 8 4 1 3 10 = true ∧ intersect1D 8 2 1 3 10 = false := by
  constructor <;> decide +kernel

/-- Two equal intervals overlap, but `intersect1D` denies it. -/
theorem C58_intersect_counterexample {L a span : ℚ} (hL : 0 < L) (ha : 0 ≤ a ∧ a < L) (hs : 0 < span ∧ span ≤ L) :
    Overlap L a span a span ∧ intersect1D a span a span L = false := by
  constructor
  · exact ⟨a + span / 2, ⟨0, by push_cast; linarith [hs.1], by push_cast; linarith [hs.1]⟩,
      ⟨0, by push_cast; linarith [hs.1], by push_cast; linarith [hs.1]⟩⟩
  · rw [← Bool.not_eq_true, C58_intersect_partial hL ha ha hs hs]
    tauto

example : intersect1D 2 3 2 3 10 = false := (C58_intersect_counterexample (by norm_num) ⟨by norm_num, by norm_num⟩
  ⟨by norm_num, by norm_num⟩).2

/-- A sheet is selected for a box iff they overlap on every axis and agree on none: a box that has the sheet's extent
on one axis is skipped, whatever the other axes. -/
theorem C58_sheets {L : ℚ} {aO aW bO bS : Vec} (hL : 0 < L) (ha : ∀ k, 0 ≤ aO k ∧ aO k < L)
    (hb : ∀ k, 0 ≤ bO k ∧ bO k < L) (hsa : ∀ k, 0 < aW k ∧ aW k ≤ L) (hsb : ∀ k, 0 < bS k ∧ bS k ≤ L) :
    histIntersect aO aW bO bS L = true ↔
      ∀ k, Overlap L (aO k) (aW k) (bO k) (bS k) ∧ ¬(aO k = bO k ∧ aW k = bS k) := by
  unfold histIntersect
  simp only [Bool.and_eq_true]
  rw [C58_intersect_partial hL (ha 0) (hb 0) (hsa 0) (hsb 0), C58_intersect_partial hL (ha 1) (hb 1) (hsa 1) (hsb 1),
    C58_intersect_partial hL (ha 2) (hb 2) (hsa 2) (hsb 2)]
  constructor
  · rintro ⟨h0, h1, h2⟩ k
    fin_cases k
    exacts [h0, h1, h2]
  · intro h
    exact ⟨h 0, h 1, h 2⟩

example : histIntersect ![1, 1, 1] ![3, 3, 3] ![2, 2, 2] ![3, 3, 3] 10 = true ∧
    histIntersect ![1, 1, 1] ![3, 3, 3] ![1, 2, 2] ![3, 3, 3] 10 = false := by
  constructor <;> decide +kernel

/-! ## C57: cubes and workers -/

/-- A cube of the subsampled sheet: lowest corner `(x, y, z)`. -/
def IsHistCube (segWidth skip x y z : ℤ) : Prop :=
  ((0 ≤ x ∧ x < segWidth) ∧ (0 ≤ y ∧ y < segWidth) ∧ (0 ≤ z ∧ z < segWidth)) ∧ skip ∣ x ∧ skip ∣ y ∧ skip ∣ z

theorem mem_steps {segWidth skip x : ℤ} (hs : 0 < skip) :
    x ∈ steps segWidth skip ↔ (0 ≤ x ∧ x < segWidth) ∧ skip ∣ x := by
  unfold steps
  rw [List.mem_map]
  have hlt : ∀ k : ℕ, k < ((segWidth + skip - 1) / skip).toNat ↔ (k : ℤ) * skip < segWidth := by
    intro k
    rw [Int.lt_toNat, ← Int.add_one_le_iff, Int.le_ediv_iff_mul_le hs]
    constructor <;> intro h <;> nlinarith
  constructor
  · rintro ⟨k, hk, rfl⟩
    rw [List.mem_range, hlt] at hk
    exact ⟨⟨by positivity, hk⟩, Dvd.intro_left _ rfl⟩
  · rintro ⟨⟨h0, h1⟩, d, rfl⟩
    have hd : 0 ≤ d := by by_contra h; nlinarith
    refine ⟨d.toNat, ?_, ?_⟩
    · rw [List.mem_range, hlt, Int.toNat_of_nonneg hd]
      linarith
    · rw [Int.toNat_of_nonneg hd]; ring

theorem steps_nodup {segWidth skip : ℤ} (hs : 0 < skip) : (steps segWidth skip).Nodup := by
  unfold steps
  refine (List.nodup_range).map ?_
  intro a b e
  have := mul_right_cancel₀ hs.ne' e
  exact_mod_cast this

theorem split_idx {g x x' q q' : ℤ} (h : 0 ≤ x ∧ x < g) (h' : 0 ≤ x' ∧ x' < g) (e : x + q * g = x' + q' * g) :
    x = x' ∧ q = q' := by
  have hg : g ≠ 0 := by omega
  have e1 : x = x' := by
    have := congrArg (· % g) e
    simpa [Int.add_mul_emod_self_right, Int.emod_eq_of_lt h.1 h.2, Int.emod_eq_of_lt h'.1 h'.2] using this
  subst e1
  exact ⟨rfl, mul_right_cancel₀ hg (by linarith)⟩

theorem cube_inj {g x y z x' y' z' : ℤ} (hx : 0 ≤ x ∧ x < g) (hy : 0 ≤ y ∧ y < g) (hx' : 0 ≤ x' ∧ x' < g)
    (hy' : 0 ≤ y' ∧ y' < g) (e : x + y * g + z * g * g = x' + y' * g + z' * g * g) : x = x' ∧ y = y' ∧ z = z' := by
  obtain ⟨e1, e2⟩ := split_idx hx hx' (q := y + z * g) (q' := y' + z' * g) (by linarith)
  obtain ⟨e3, e4⟩ := split_idx hy hy' e2
  exact ⟨e1, e3, e4⟩

/-- What a worker visits: the cubes whose index leaves its number as remainder. -/
theorem mem_histVisits {segWidth skip workers worker idx : ℤ} (hs : 0 < skip) (hw : 0 < workers)
    (hseg : 0 ≤ segWidth) :
    idx ∈ histVisits segWidth (segWidth + 1) skip workers worker ↔
      (∃ x y z, IsHistCube segWidth skip x y z ∧
        idx = x + y * (segWidth + 1) + z * (segWidth + 1) * (segWidth + 1)) ∧
      idx % (skip * skip * skip * workers) = worker := by
  have nn : ∀ {x y z : ℤ}, 0 ≤ x → 0 ≤ y → 0 ≤ z →
      0 ≤ x + y * (segWidth + 1) + z * (segWidth + 1) * (segWidth + 1) := by
    intro x y z h1 h2 h3
    positivity
  have _ := hw
  unfold histVisits
  simp only [List.mem_flatMap, List.mem_filter, List.mem_map, decide_eq_true_eq]
  constructor
  · rintro ⟨z, hz, y, hy, ⟨x, hx, rfl⟩, e⟩
    rw [mem_steps hs] at hx hy hz
    rw [Int.tmod_eq_emod_of_nonneg (nn hx.1.1 hy.1.1 hz.1.1)] at e
    exact ⟨⟨x, y, z, ⟨⟨hx.1, hy.1, hz.1⟩, hx.2, hy.2, hz.2⟩, rfl⟩, e⟩
  · rintro ⟨⟨x, y, z, ⟨⟨hx, hy, hz⟩, dx, dy, dz⟩, rfl⟩, e⟩
    refine ⟨z, (mem_steps hs).mpr ⟨hz, dz⟩, y, (mem_steps hs).mpr ⟨hy, dy⟩, ⟨x, (mem_steps hs).mpr ⟨hx, dx⟩, rfl⟩, ?_⟩
    rw [Int.tmod_eq_emod_of_nonneg (nn hx.1 hy.1 hz.1)]
    exact e

theorem histVisits_nodup {segWidth skip workers worker : ℤ} (hs : 0 < skip) :
    (histVisits segWidth (segWidth + 1) skip workers worker).Nodup := by
  unfold histVisits
  rw [List.nodup_flatMap]
  refine ⟨fun z _ => ?_, ?_⟩
  · rw [List.nodup_flatMap]
    refine ⟨fun y _ => ?_, ?_⟩
    · refine List.Nodup.filter _ ((steps_nodup hs).map ?_)
      intro a b e
      dsimp only at e
      linarith
    · refine List.Pairwise.imp_of_mem ?_ (steps_nodup hs)
      intro y y' hy hy' hne
      simp only [Function.onFun]
      intro v hv hv'
      simp only [List.mem_filter, List.mem_map] at hv hv'
      obtain ⟨⟨x, hx, rfl⟩, _⟩ := hv
      obtain ⟨⟨x', hx', e⟩, _⟩ := hv'
      rw [mem_steps hs] at hx hx' hy hy'
      exact hne (cube_inj ⟨hx'.1.1, by omega⟩ ⟨hy'.1.1, by omega⟩ ⟨hx.1.1, by omega⟩ ⟨hy.1.1, by omega⟩ e).2.1.symm
  · refine List.Pairwise.imp_of_mem ?_ (steps_nodup hs)
    intro z z' hz hz' hne
    simp only [Function.onFun]
    intro v hv hv'
    simp only [List.mem_flatMap, List.mem_filter, List.mem_map] at hv hv'
    obtain ⟨y, hy, ⟨x, hx, rfl⟩, _⟩ := hv
    obtain ⟨y', hy', ⟨x', hx', e⟩, _⟩ := hv'
    rw [mem_steps hs] at hx hx' hy hy'
    exact hne (cube_inj ⟨hx'.1.1, by omega⟩ ⟨hy'.1.1, by omega⟩ ⟨hx.1.1, by omega⟩ ⟨hy.1.1, by omega⟩ e).2.2.symm

/-- How often the workers together look at a cube: once if the index of its lowest corner leaves a remainder smaller
than the number of workers, otherwise not at all. With subsampling length 1 that is once, always. The wanted statement
is "once" for every subsampling length. -/
theorem C57_workers_partial {segWidth skip : ℤ} {workers : ℕ} (hs : 0 < skip) (hw : 0 < workers) (hseg : 0 ≤ segWidth)
    {x y z : ℤ} (hc : IsHistCube segWidth skip x y z) :
    let idx := x + y * (segWidth + 1) + z * (segWidth + 1) * (segWidth + 1)
    ((List.range workers).map fun (w : ℕ) =>
        (histVisits segWidth (segWidth + 1) skip workers w).count idx).sum =
      (if idx % (skip * skip * skip * workers) < workers then 1 else 0) ∧
    (skip = 1 → idx % (skip * skip * skip * workers) < workers) := by
  intro idx
  have hw' : (0 : ℤ) < workers := by exact_mod_cast hw
  have hM : 0 < skip * skip * skip * workers := by positivity
  have hr0 : 0 ≤ idx % (skip * skip * skip * workers) := Int.emod_nonneg _ hM.ne'
  refine ⟨?_, ?_⟩
  · have hcount : ∀ w : ℕ, (histVisits segWidth (segWidth + 1) skip workers w).count idx =
        if idx % (skip * skip * skip * workers) = w then 1 else 0 := by
      intro w
      rw [(histVisits_nodup hs).count]
      congr 1
      rw [mem_histVisits hs hw' hseg, eq_iff_iff]
      constructor
      · exact fun h => h.2
      · exact fun h => ⟨⟨x, y, z, hc, rfl⟩, h⟩
    have e : ((List.range workers).map fun (w : ℕ) =>
        (histVisits segWidth (segWidth + 1) skip workers w).count idx) =
        (List.range workers).map fun (w : ℕ) => if idx % (skip * skip * skip * workers) = w then 1 else 0 :=
      List.map_congr_left fun w _ => hcount w
    rw [e]
    obtain ⟨r, hr⟩ := Int.eq_ofNat_of_zero_le hr0
    rw [hr]
    have : ∀ n : ℕ, ((List.range n).map fun (w : ℕ) => if (r : ℤ) = w then 1 else 0).sum =
        if (r : ℤ) < n then 1 else 0 := by
      intro n
      induction n with
      | zero => simp
      | succ n ih =>
        rw [List.range_succ, List.map_append, List.sum_append, ih]
        simp only [List.map_cons, List.map_nil, List.sum_cons, List.sum_nil]
        push_cast
        split_ifs <;> omega
    exact this workers
  · rintro rfl
    simpa using Int.emod_lt_of_pos idx hw'

example : ((List.range 3).map fun (w : ℕ) => (histVisits 4 5 1 3 w).count 37).sum = 1 :=
  (C57_workers_partial (segWidth := 4) (skip := 1) (workers := 3) (x := 2) (y := 2) (z := 1) (by norm_num) (by norm_num)
    (by norm_num) ⟨⟨⟨by norm_num, by norm_num⟩, ⟨by norm_num, by norm_num⟩, ⟨by norm_num, by norm_num⟩⟩,
      ⟨one_dvd _, one_dvd _, one_dvd _⟩⟩).1

/-- Workers look at cubes of the sheet only. -/
theorem C57_only_cubes {segWidth skip workers worker idx : ℤ} (hs : 0 < skip) (hw : 0 < workers)
    (hseg : 0 ≤ segWidth) (h : idx ∈ histVisits segWidth (segWidth + 1) skip workers worker) :
    ∃ x y z, IsHistCube segWidth skip x y z ∧ idx = x + y * (segWidth + 1) + z * (segWidth + 1) * (segWidth + 1) :=
  ((mem_histVisits hs hw hseg).mp h).1

example : (18 : ℤ) ∈ histVisits 4 5 1 3 0 := by decide +kernel

/-- With subsampling and one worker (more generally: no more workers than the subsampling length) the second cube of
the sheet is dropped. -/
theorem C57_counterexample {segWidth skip : ℤ} {workers : ℕ} (hs : 2 ≤ skip) (hw : 0 < workers)
    (hle : (workers : ℤ) ≤ skip) (hseg : skip < segWidth) :
    IsHistCube segWidth skip skip 0 0 ∧
      ∀ w : ℤ, 0 ≤ w → w < workers → skip ∉ histVisits segWidth (segWidth + 1) skip workers w := by
  have hw' : (0 : ℤ) < workers := by exact_mod_cast hw
  refine ⟨⟨⟨⟨by omega, hseg⟩, ⟨le_rfl, by omega⟩, ⟨le_rfl, by omega⟩⟩, dvd_rfl, dvd_zero _, dvd_zero _⟩, ?_⟩
  intro w h0 h1 h
  have h2 := ((mem_histVisits (by omega) hw' (by omega)).mp h).2
  have hbig : skip < skip * skip * skip * workers := by
    have a1 : skip * 2 ≤ skip * skip := mul_le_mul_of_nonneg_left hs (by omega)
    have a2 : skip * skip * 1 ≤ skip * skip * skip := mul_le_mul_of_nonneg_left (by omega) (by positivity)
    have a3 : skip * skip * skip * 1 ≤ skip * skip * skip * workers :=
      mul_le_mul_of_nonneg_left hw' (by positivity)
    omega
  rw [Int.emod_eq_of_lt (by omega) hbig] at h2
  omega

example : (2 : ℤ) ∉ histVisits 4 5 2 1 0 :=
  (C57_counterexample (segWidth := 4) (skip := 2) (workers := 1) (by norm_num) (by norm_num) (by norm_num)
    (by norm_num)).2 0 le_rfl (by norm_num)

/-! ## C95: the cube filter -/

/-- The bounding box of a cube is a single point: the position of its first corner. -/
theorem cubeBoundingBox_eq {xs : List Vec} {w jump : ℤ} {L : ℚ} (hL : 0 < L) {ix iy iz : ℤ} (hj : 0 < jump) {v : Vec}
    (hv : rd xs (ix + iy * w + iz * w * w) = some v) :
    cubeBoundingBox xs w jump L ix iy iz = some fun k => (v k, 0) := by
  have once : ∀ {σ : Type} (body : ℤ → σ → Option σ) (s : σ), forStep 0 jump jump body s = body 0 s := by
    intro σ body s
    unfold forStep
    have : (jump - 0 + jump - 1) / jump = 1 := by
      rw [show jump - 0 + jump - 1 = (jump - 1) + 1 * jump by ring, Int.add_mul_ediv_right _ _ hj.ne',
        Int.ediv_eq_zero_of_lt (by omega) (by omega)]
      rfl
    rw [this, forRange_step (by norm_num)]
    simp only [zero_mul, add_zero]
    cases body 0 s with
    | none => rfl
    | some t => exact forRange_empty (by norm_num) _ _
  unfold cubeBoundingBox
  refine bind_of hv ?_
  rw [once, once, once]
  dsimp only
  simp only [add_zero]
  refine bind_of hv ?_
  congr 1
  funext k
  have h1 : ¬ (L / 2 < 0) := by linarith
  have h2 : ¬ (0 < -L / 2) := by linarith
  unfold growAxis
  simp [h1, h2]

/-- Which cubes are used: those whose first corner lies strictly inside the sheet's own bounding box. The box being
analysed plays no role, and the three other corners of the tetrahedra play none. The wanted statement is that every
cube that meets the analysed box is used. -/
theorem C95_cube_filter_partial {xs : List Vec} {w skip : ℤ} {L : ℚ} {origin width : Vec} {x y z : ℤ} {v : Vec}
    (hL : 0 < L) (hs : 0 < skip) (hc : (0 ≤ x ∧ x + skip < w) ∧ (0 ≤ y ∧ y + skip < w) ∧ (0 ≤ z ∧ z + skip < w))
    (hv : rd xs (x + y * w + z * w * w) = some v) (ho : ∀ k, 0 ≤ origin k ∧ origin k < L)
    (hw : ∀ k, 0 < width k ∧ width k ≤ L) (hvL : ∀ k, 0 ≤ v k ∧ v k < L) :
    ∃ b, cubeIntersects xs w skip L origin width (x + y * w + z * w * w) = some b ∧
      (b = true ↔ ∀ k, Inside L (origin k) (width k) (v k)) := by
  obtain ⟨⟨x0, x1⟩, ⟨y0, y1⟩, ⟨z0, z1⟩⟩ := hc
  have hw0 : 0 < w := by omega
  have hnn : 0 ≤ x + y * w + z * w * w := by positivity
  have e1 : (x + y * w + z * w * w).tmod w = x := by
    rw [Int.tmod_eq_emod_of_nonneg hnn, show x + y * w + z * w * w = x + (y + z * w) * w by ring,
      Int.add_mul_emod_self_right, Int.emod_eq_of_lt x0 (by omega)]
  have e2 : (x + y * w + z * w * w).tdiv w = y + z * w := by
    rw [Int.tdiv_eq_ediv_of_nonneg hnn, show x + y * w + z * w * w = x + (y + z * w) * w by ring,
      Int.add_mul_ediv_right _ _ hw0.ne', Int.ediv_eq_zero_of_lt x0 (by omega), zero_add]
  have e3 : (y + z * w).tmod w = y := by
    rw [Int.tmod_eq_emod_of_nonneg (by positivity), Int.add_mul_emod_self_right, Int.emod_eq_of_lt y0 (by omega)]
  have e4 : (x + y * w + z * w * w).tdiv (w * w) = z := by
    rw [Int.tdiv_eq_ediv_of_nonneg hnn, ← Int.ediv_ediv_of_nonneg hw0.le, ← Int.tdiv_eq_ediv_of_nonneg hnn, e2,
      Int.add_mul_ediv_right _ _ hw0.ne', Int.ediv_eq_zero_of_lt y0 (by omega), zero_add]
  refine ⟨histIntersect origin width v (fun _ => 0) L, ?_, ?_⟩
  · unfold cubeIntersects
    rw [if_neg hw0.ne', e1, e2, e3, e4, if_neg (by omega)]
    exact bind_of (cubeBoundingBox_eq hL hs hv) rfl
  · have axis : ∀ k, intersect1D (origin k) (width k) (v k) 0 L = true ↔ Inside L (origin k) (width k) (v k) := by
      intro k
      unfold intersect1D
      simp only [Bool.or_eq_true]
      rw [add_zero, C58_contains hL (ho k) ⟨(hvL k).1, by linarith [(hvL k).2]⟩ (hw k).2,
        C58_contains hL (hvL k) ⟨(ho k).1, by linarith [(ho k).2]⟩ hL.le,
        C58_contains hL (hvL k) ⟨by linarith [(ho k).1, (hw k).1], by linarith [(ho k).2, (hw k).2]⟩ hL.le]
      have no : ∀ x, ¬ Inside L (v k) 0 x := fun x ⟨n, h1, h2⟩ => by linarith
      simp only [no, or_false, or_self]
    unfold histIntersect
    simp only [Bool.and_eq_true]
    rw [axis, axis, axis]
    constructor
    · rintro ⟨h0, h1, h2⟩ k
      fin_cases k
      exacts [h0, h1, h2]
    · exact fun h => ⟨h 0, h 1, h 2⟩

/-- A sheet of eight particles: the cube whose first corner is the sheet's lowest corner is dropped, although the
whole sheet is inside any box containing it. -/
theorem C95_cube_filter_counterexample :
    let xs : List Vec := [![1, 1, 1], ![2, 1, 1], ![1, 2, 1], ![2, 2, 1], ![1, 1, 2], ![2, 1, 2], ![1, 2, 2], ![2, 2, 2]]
    cubeIntersects xs 2 1 10 ![1, 1, 1] ![1, 1, 1] 0 = some false := by
  decide +kernel

example : cubeIntersects [![1, 1, 1], ![2, 1, 1], ![1, 2, 1], ![2, 2, 1], ![1, 1, 2], ![2, 1, 2], ![1, 2, 2],
    ![2, 2, 2]] 2 1 10 ![0, 0, 0] ![3, 3, 3] 0 = some true := by decide +kernel

/-! ## C60: density lookup -/

/-- Position `x` lies in `[a, a + width)` on the circle of length `L`. -/
def InHalfOpen (L a width x : ℚ) : Prop := ∃ n : ℤ, a ≤ x + n * L ∧ x + n * L < a + width

theorem gridAxis_some {L o span pw v : ℚ} {n i : ℤ} (hpw : 0 < pw) (hspan : span = n * pw)
    (e : gridAxis L o span pw v = some i) : (0 ≤ i ∧ i < n) ∧ InHalfOpen L (o + i * pw) pw v := by
  unfold gridAxis at e
  dsimp only at e
  set d1 := if v - o < 0 then v - o + L else v - o with hd1
  set d2 := if d1 ≥ span then d1 - L else d1 with hd2
  have hm : ∃ m : ℤ, d2 = v - o + m * L := by
    rw [hd2, hd1]
    split_ifs
    · exact ⟨0, by push_cast; ring⟩
    · exact ⟨1, by push_cast; ring⟩
    · exact ⟨-1, by push_cast; ring⟩
    · exact ⟨0, by push_cast; ring⟩
  split_ifs at e with h
  push Not at h
  have hi : i = ⌊d2 / pw⌋ := by
    rw [← trunc_of_nonneg (div_nonneg h.1 hpw.le)]
    exact (Option.some.inj e).symm
  have f1 : (i : ℚ) * pw ≤ d2 := by
    rw [hi, ← le_div_iff₀ hpw]; exact Int.floor_le _
  have f2 : d2 < (i + 1) * pw := by
    rw [hi, ← div_lt_iff₀ hpw]; exact Int.lt_floor_add_one _
  refine ⟨⟨?_, ?_⟩, ?_⟩
  · rw [hi]; exact Int.floor_nonneg.mpr (div_nonneg h.1 hpw.le)
  · have : (i : ℚ) * pw < n * pw := by linarith [h.2]
    exact_mod_cast lt_of_mul_lt_mul_right this hpw.le
  · obtain ⟨m, hm⟩ := hm
    exact ⟨m, by linarith, by linarith⟩

theorem gridAxis_none {L o span pw v : ℚ} (hL : 0 < L) (ho : 0 ≤ o ∧ o < L) (hv : 0 ≤ v ∧ v < L)
    (e : gridAxis L o span pw v = none) : ¬ InHalfOpen L o span v := by
  unfold gridAxis at e
  dsimp only at e
  set d1 := if v - o < 0 then v - o + L else v - o with hd1
  have hd : 0 ≤ d1 ∧ d1 < L ∧ ∃ m : ℤ, d1 = v - o + m * L := by
    rw [hd1]
    split_ifs with h
    · exact ⟨by linarith [ho.2, hv.1], by linarith, 1, by push_cast; ring⟩
    · exact ⟨by linarith, by linarith [ho.1, hv.2], 0, by push_cast; ring⟩
  have hbig : span ≤ d1 := by
    by_contra hlt
    rw [if_neg (show ¬ d1 ≥ span from hlt), if_neg (not_or.mpr ⟨not_lt.mpr hd.1, hlt⟩)] at e
    cases e
  rintro ⟨n, h1, h2⟩
  obtain ⟨m, hm⟩ := hd.2.2
  have a1 : 0 ≤ d1 + ((n - m : ℤ) : ℚ) * L := by push_cast; linarith
  have a2 : d1 + ((n - m : ℤ) : ℚ) * L < span := by push_cast; linarith
  have k0 : (n - m : ℤ) < 0 := by
    by_contra h
    have : (0 : ℚ) ≤ ((n - m : ℤ) : ℚ) := by exact_mod_cast not_lt.mp h
    nlinarith
  have : ((n - m : ℤ) : ℚ) ≤ -1 := by exact_mod_cast (by omega : n - m ≤ -1)
  nlinarith [hd.2.1]

/-- The index found for a position: of the pixel that contains it, and a valid index of the grid; `-1` exactly
when the position is outside the grid's region. -/
theorem C60_gridIndex {L pw : ℚ} {origin : Vec} {n : IVec} (hL : 0 < L) (hpw : 0 < pw)
    (ho : ∀ k, 0 ≤ origin k ∧ origin k < L) {v : Vec} (hv : ∀ k, 0 ≤ v k ∧ v k < L) :
    let span : Vec := fun k => n k * pw
    let r := gridIndex L origin span n pw v
    (r = -1 ∧ ∃ k, ¬ InHalfOpen L (origin k) (span k) (v k)) ∨
      ∃ c : IVec, (∀ k, (0 ≤ c k ∧ c k < n k) ∧ InHalfOpen L (origin k + c k * pw) pw (v k)) ∧
        r = c 0 + c 1 * n 0 + c 2 * (n 0 * n 1) ∧ 0 ≤ r ∧ r < n 0 * n 1 * n 2 := by
  intro span r
  have hr : r = gridIndex L origin span n pw v := rfl
  unfold gridIndex at hr
  rcases h0 : gridAxis L (origin 0) (span 0) pw (v 0) with _ | i
  · left
    rw [h0] at hr
    exact ⟨hr, 0, gridAxis_none hL (ho 0) (hv 0) h0⟩
  rcases h1 : gridAxis L (origin 1) (span 1) pw (v 1) with _ | j
  · left
    rw [h0, h1] at hr
    exact ⟨hr, 1, gridAxis_none hL (ho 1) (hv 1) h1⟩
  rcases h2 : gridAxis L (origin 2) (span 2) pw (v 2) with _ | k
  · left
    rw [h0, h1, h2] at hr
    exact ⟨hr, 2, gridAxis_none hL (ho 2) (hv 2) h2⟩
  right
  rw [h0, h1, h2] at hr
  dsimp only at hr
  have a0 := gridAxis_some (n := n 0) hpw rfl h0
  have a1 := gridAxis_some (n := n 1) hpw rfl h1
  have a2 := gridAxis_some (n := n 2) hpw rfl h2
  refine ⟨![i, j, k], ?_, ?_, ?_, ?_⟩
  · intro t
    fin_cases t
    exacts [a0, a1, a2]
  · exact hr
  · rw [hr]
    have : 0 ≤ n 0 := by omega
    have : 0 ≤ n 1 := by omega
    have := a0.1.1; have := a1.1.1; have := a2.1.1
    positivity
  · rw [hr]
    have p0 : 0 ≤ n 0 := by omega
    have p1 : 0 ≤ n 1 := by omega
    have q1 : (j + 1) * n 0 ≤ n 1 * n 0 := mul_le_mul_of_nonneg_right (by omega) p0
    have q2 : (k + 1) * (n 0 * n 1) ≤ n 2 * (n 0 * n 1) :=
      mul_le_mul_of_nonneg_right (by omega) (mul_nonneg p0 p1)
    nlinarith [a0.1.2]

example : gridIndex 10 ![8, 0, 0] ![4, 2, 2] ![4, 2, 2] 1 ![1, 1, 1] = 3 + 1 * 4 + 1 * (4 * 2) ∧
    gridIndex 10 ![8, 0, 0] ![4, 2, 2] ![4, 2, 2] 1 ![5, 1, 1] = -1 := by
  constructor <;> decide +kernel

/-- The value recorded for a sampled point, which may lie up to one period outside the box before wrapping: never a
panic, and for a point inside both the analysed box and the grid it is the value of the pixel that contains the point;
every other point is flagged as outside. -/
theorem C60_density {L pw : ℚ} {origin boxO boxS : Vec} {n : IVec} {grid : List ℚ} (hL : 0 < L) (hpw : 0 < pw)
    (ho : ∀ k, 0 ≤ origin k ∧ origin k < L) (hbo : ∀ k, 0 ≤ boxO k ∧ boxO k < L) (hbs : ∀ k, boxS k ≤ L)
    (hg : (grid.length : ℤ) = n 0 * n 1 * n 2) {v : Vec} (hv : ∀ k, -L ≤ v k ∧ v k < 2 * L) :
    ∃ d ok, density L boxO boxS L origin (fun k => n k * pw) n pw grid v = some (d, ok) ∧
      (ok = true ↔ (∀ k, Inside L (boxO k) (boxS k) (v k)) ∧ ∀ k, InHalfOpen L (origin k) (n k * pw) (v k)) ∧
      (ok = true → ∃ c : IVec, (∀ k, (0 ≤ c k ∧ c k < n k) ∧ InHalfOpen L (origin k + c k * pw) pw (v k)) ∧
        rd grid (c 0 + c 1 * n 0 + c 2 * (n 0 * n 1)) = some d) := by
  set v' : Vec := fun k =>
    let x := if v k ≥ L then v k - L else v k
    if x < 0 then x + L else x with hv'
  have hvr : ∀ k, (0 ≤ v' k ∧ v' k < L) ∧ ∃ m : ℤ, v' k = v k + m * L := by
    intro k
    have := hv k
    rw [hv']
    dsimp only
    by_cases h1 : v k ≥ L
    · rw [if_pos h1, if_neg (by linarith)]
      exact ⟨⟨by linarith, by linarith⟩, -1, by push_cast; ring⟩
    · rw [if_neg h1]
      by_cases h2 : v k < 0
      · rw [if_pos h2]
        exact ⟨⟨by linarith, by linarith⟩, 1, by push_cast; ring⟩
      · rw [if_neg h2]
        exact ⟨⟨by linarith, by linarith⟩, 0, by push_cast; ring⟩
  have half : ∀ k a w, InHalfOpen L a w (v' k) ↔ InHalfOpen L a w (v k) := by
    intro k a w
    obtain ⟨m, hm⟩ := (hvr k).2
    rw [hm]
    constructor
    · rintro ⟨t, h1, h2⟩
      refine ⟨t + m, ?_, ?_⟩ <;> push_cast <;> linarith
    · rintro ⟨t, h1, h2⟩
      refine ⟨t - m, ?_, ?_⟩ <;> push_cast <;> linarith
  have ins : ∀ k a w, Inside L a w (v' k) ↔ Inside L a w (v k) := by
    intro k a w
    obtain ⟨m, hm⟩ := (hvr k).2
    rw [hm, inside_shift]
  have hbox : boxContains boxO boxS v' L = true ↔ ∀ k, Inside L (boxO k) (boxS k) (v k) := by
    unfold boxContains
    simp only [Bool.and_eq_true]
    have ax : ∀ k, contains1D (boxO k) (boxS k) (v' k) L = true ↔ Inside L (boxO k) (boxS k) (v k) := by
      intro k
      rw [C58_contains hL (hbo k) ⟨(hvr k).1.1, by linarith [(hvr k).1.2]⟩ (hbs k), ins]
    rw [ax, ax, ax]
    constructor
    · rintro ⟨h0, h1, h2⟩ k
      fin_cases k
      exacts [h0, h1, h2]
    · exact fun h => ⟨h 0, h 1, h 2⟩
  unfold density
  dsimp only
  rw [← hv']
  by_cases hb : boxContains boxO boxS v' L = false
  · rw [if_pos hb]
    refine ⟨-1, false, rfl, ?_, by simp⟩
    rw [← hbox, hb]
    simp
  · rw [if_neg hb]
    rw [Bool.not_eq_false, hbox] at hb
    have := C60_gridIndex (n := n) hL hpw ho (v := v') (fun k => (hvr k).1)
    dsimp only at this
    generalize gridIndex L origin (fun k => n k * pw) n pw v' = r at *
    rcases this with ⟨hr, k, hk⟩ | ⟨c, hc, hr, hr0, hr1⟩
    · rw [if_neg (by omega)]
      refine ⟨-1, false, rfl, ?_, by simp⟩
      simp only [Bool.false_eq_true, false_iff, not_and, not_forall]
      intro _
      rw [half] at hk
      exact ⟨k, hk⟩
    · rw [if_pos hr0]
      obtain ⟨d, hd⟩ := rd_isSome hr0 (by rw [hg]; exact hr1)
      refine ⟨d, true, bind_of hd rfl, ?_, ?_⟩
      · simp only [true_iff]
        refine ⟨hb, fun k => ?_⟩
        obtain ⟨⟨c0, c1⟩, m, h1, h2⟩ := hc k
        rw [← half]
        refine ⟨m, ?_, ?_⟩
        · have : (0 : ℚ) ≤ c k * pw := mul_nonneg (by exact_mod_cast c0) hpw.le
          linarith
        · have : ((c k + 1 : ℤ) : ℚ) * pw ≤ n k * pw :=
            mul_le_mul_of_nonneg_right (by exact_mod_cast c1) hpw.le
          push_cast at this
          linarith
      · intro _
        refine ⟨c, fun k => ⟨(hc k).1, (half k _ _).mp (hc k).2⟩, ?_⟩
        rw [← hr]
        exact hd

example : density 10 ![0, 0, 0] ![9, 9, 9] 10 ![8, 0, 0] ![4, 2, 2] ![4, 2, 2] 1 ((List.range 16).map fun n => (n : ℚ))
    ![11, 1, 1] = some (15, true) := by decide +kernel

end Verif.Hist
