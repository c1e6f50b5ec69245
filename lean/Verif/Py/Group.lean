import Verif.Py.GroupModel
import Verif.Py.Penna
import Mathlib.Data.List.Perm.Basic

/-! # Properties of groups of profiles in a plane, and of the sum of density grids -/

set_option autoImplicit false

namespace Verif.Py

/-! ## C175 -/

/-- A unit vector. -/
def IsUnit3 (u : ℝ × ℝ × ℝ) : Prop := u.1 ^ 2 + u.2.1 ^ 2 + u.2.2 ^ 2 = 1

/-- The splashback points of the segments that have one. -/
noncomputable def rspPoints (segs : List (Option ℝ × (ℝ × ℝ × ℝ))) : List (ℝ × ℝ × ℝ) :=
  segs.filterMap fun s => s.1.map fun r => (r * s.2.1, r * s.2.2.1, r * s.2.2.2)

theorem atan2_unit {u v : ℝ} (h : u ^ 2 + v ^ 2 = 1) : Real.cos (atan2 v u) = u ∧ Real.sin (atan2 v u) = v := by
  have h1 := atan2_cos u v
  have h2 := atan2_sin u v
  rw [h, Real.sqrt_one, one_mul] at h1 h2
  exact ⟨h1, h2⟩

/-- Coordinates of the radii and angles of a group are the splashback points; a group exists exactly if the directions of
the segments with a radius are in one of the three planes of the axes and there is such a segment. -/
theorem C175_coords (segs : List (Option ℝ × (ℝ × ℝ × ℝ))) (hu : ∀ s ∈ segs, IsUnit3 s.2) :
    (∀ g, group2D segs = some g →
      g.rs.length = g.angles.length ∧ List.zipWith g.coords g.rs g.angles = rspPoints segs) ∧
    ((group2D segs).isSome ↔ (∃ s ∈ segs, s.1.isSome) ∧
      ((∀ s ∈ segs, s.1.isSome → s.2.1 = 0) ∨ (∀ s ∈ segs, s.1.isSome → s.2.2.1 = 0) ∨
        (∀ s ∈ segs, s.1.isSome → s.2.2.2 = 0))) := by
  classical
  set kept := segs.filterMap fun s => s.1.map fun r => (r, s.2) with hk
  have hmem : ∀ p : ℝ × (ℝ × ℝ × ℝ), p ∈ kept ↔ (some p.1, p.2) ∈ segs := by
    intro p
    rw [hk, List.mem_filterMap]
    constructor
    · rintro ⟨s, hs, e⟩
      rcases s with ⟨_ | r, u⟩
      · simp at e
      · simp only [Option.map_some, Option.some.injEq] at e
        rw [← e]; exact hs
    · intro h
      exact ⟨_, h, rfl⟩
  have hplane : ∀ f : ℝ × ℝ × ℝ → Prop, (∀ p ∈ kept, f p.2) ↔ ∀ s ∈ segs, s.1.isSome → f s.2 := by
    intro f
    constructor
    · rintro h ⟨_ | r, u⟩ hs hi
      · simp at hi
      · exact h (r, u) ((hmem _).2 hs)
    · intro h p hp
      exact h _ ((hmem p).1 hp) rfl
  have hne : kept ≠ [] ↔ ∃ s ∈ segs, s.1.isSome := by
    constructor
    · intro h
      obtain ⟨p, hp⟩ := List.exists_mem_of_ne_nil _ h
      exact ⟨_, (hmem p).1 hp, rfl⟩
    · rintro ⟨⟨_ | r, u⟩, hs, hi⟩
      · simp at hi
      · exact List.ne_nil_of_mem ((hmem (r, u)).2 hs)
  have hpts : rspPoints segs = kept.map fun p => (p.1 * p.2.1, p.1 * p.2.2.1, p.1 * p.2.2.2) := by
    rw [hk, rspPoints, List.map_filterMap]
    congr 1
    funext s
    rcases s with ⟨_ | r, u⟩ <;> rfl
  have hku : ∀ p ∈ kept, IsUnit3 p.2 := fun p hp => hu _ ((hmem p).1 hp)
  have main : ∀ a, (a = 0 ∧ (∀ p ∈ kept, p.2.1 = 0)) ∨ (a = 1 ∧ (∀ p ∈ kept, p.2.2.1 = 0)) ∨
      (a = 2 ∧ (∀ p ∈ kept, p.2.2.2 = 0)) →
      ∀ g : Group2D, g = ⟨kept.map Prod.fst, a,
        kept.map fun p => atan2 (comp p.2 (planeIdx a).2) (comp p.2 (planeIdx a).1)⟩ →
      g.rs.length = g.angles.length ∧ List.zipWith g.coords g.rs g.angles = rspPoints segs := by
    rintro a ha g rfl
    refine ⟨by simp, ?_⟩
    rw [hpts]
    simp only
    rw [List.zipWith_map, List.zipWith_self]
    refine List.map_congr_left fun p hp => ?_
    have h1 := hku p hp
    unfold IsUnit3 at h1
    rcases ha with ⟨rfl, h0⟩ | ⟨rfl, h0⟩ | ⟨rfl, h0⟩
    · rw [h0 p hp] at h1 ⊢
      obtain ⟨e1, e2⟩ := atan2_unit (u := p.2.2.1) (v := p.2.2.2) (by linarith)
      simp [Group2D.coords, comp, planeIdx, e1, e2]
    · rw [h0 p hp] at h1 ⊢
      obtain ⟨e1, e2⟩ := atan2_unit (u := p.2.1) (v := p.2.2.2) (by linarith)
      simp [Group2D.coords, comp, planeIdx, e1, e2]
    · rw [h0 p hp] at h1 ⊢
      obtain ⟨e1, e2⟩ := atan2_unit (u := p.2.1) (v := p.2.2.1) (by linarith)
      simp [Group2D.coords, comp, planeIdx, e1, e2]
  have hg : group2D segs = (if kept = [] then none
      else if ∀ p ∈ kept, p.2.1 = 0 then some 0
      else if ∀ p ∈ kept, p.2.2.1 = 0 then some 1
      else if ∀ p ∈ kept, p.2.2.2 = 0 then some 2
      else none : Option Nat).map fun a => ⟨kept.map Prod.fst, a,
        kept.map fun p => atan2 (comp p.2 (planeIdx a).2) (comp p.2 (planeIdx a).1)⟩ := by
    unfold group2D
    rw [← hk]
  constructor
  · intro g hg'
    rw [hg] at hg'
    split at hg'
    · simp at hg'
    · split at hg'
      · next h => exact main 0 (Or.inl ⟨rfl, h⟩) g (Option.some.inj hg').symm
      · split at hg'
        · next h => exact main 1 (Or.inr (Or.inl ⟨rfl, h⟩)) g (Option.some.inj hg').symm
        · split at hg'
          · next h => exact main 2 (Or.inr (Or.inr ⟨rfl, h⟩)) g (Option.some.inj hg').symm
          · simp at hg'
  · rw [← hne, ← hplane fun u => u.1 = 0, ← hplane fun u => u.2.1 = 0, ← hplane fun u => u.2.2 = 0, hg,
      Option.isSome_map]
    by_cases h0 : kept = []
    · simp [h0]
    · rw [if_neg h0]
      by_cases h1 : ∀ p ∈ kept, p.2.1 = 0
      · rw [if_pos h1]; simp [h0]; exact Or.inl (by simpa using h1)
      · rw [if_neg h1]
        by_cases h2 : ∀ p ∈ kept, p.2.2.1 = 0
        · rw [if_pos h2]; simp [h0]; exact Or.inr (Or.inl (by simpa using h2))
        · rw [if_neg h2]
          by_cases h3 : ∀ p ∈ kept, p.2.2.2 = 0
          · rw [if_pos h3]; simp [h0]; exact Or.inr (Or.inr (by simpa using h3))
          · rw [if_neg h3]
            constructor
            · simp
            · rintro ⟨_, h | h | h⟩
              · exact absurd h h1
              · exact absurd h h2
              · exact absurd h h3

/-- A group in the plane of the first axis, and directions outside of a plane. -/
example : (group2D [(some 2, (0, 3 / 5, 4 / 5)), (none, (1, 0, 0)), (some 3, (0, 0, 1))]).isSome ∧
    ∀ s ∈ [((some 2 : Option ℝ), ((0 : ℝ), (3 / 5 : ℝ), (4 / 5 : ℝ))), (none, (1, 0, 0)), (some 3, (0, 0, 1))],
      IsUnit3 s.2 := by
  have hu : ∀ s ∈ [((some 2 : Option ℝ), ((0 : ℝ), (3 / 5 : ℝ), (4 / 5 : ℝ))), (none, (1, 0, 0)), (some 3, (0, 0, 1))],
      IsUnit3 s.2 := by
    intro s hs
    simp only [List.mem_cons, List.not_mem_nil, or_false] at hs
    rcases hs with rfl | rfl | rfl <;> norm_num [IsUnit3]
  refine ⟨?_, hu⟩
  rw [(C175_coords _ hu).2]
  simp

example : group2D [(some 2, (0, 0, 1)), (some 2, (0, 1, 0)), (some 2, (1, 0, 0))] = none := by
  have hu : ∀ s ∈ [((some 2 : Option ℝ), ((0 : ℝ), (0 : ℝ), (1 : ℝ))), (some 2, (0, 1, 0)), (some 2, (1, 0, 0))],
      IsUnit3 s.2 := by
    intro s hs
    simp only [List.mem_cons, List.not_mem_nil, or_false] at hs
    rcases hs with rfl | rfl | rfl <;> norm_num [IsUnit3]
  rw [← Option.not_isSome_iff_eq_none, (C175_coords _ hu).2]
  simp

/-! ## C176 -/

/-- Segments in the plane of the third axis, given by radius and angle. -/
noncomputable def planeSegs (pts : List (ℝ × ℝ)) : List (Option ℝ × (ℝ × ℝ × ℝ)) :=
  pts.map fun p => (some p.1, (Real.cos p.2, Real.sin p.2, 0))

open Classical in
/-- The radii of the points whose angle is in sector `i` of `bins`. -/
noncomputable def inSector (pts : List (ℝ × ℝ)) (bins i : Nat) : List ℝ :=
  (pts.filter fun p => decide (2 * Real.pi * i / bins ≤ p.2 ∧ p.2 < 2 * Real.pi * (i + 1) / bins)).map Prod.fst

theorem atan2_cos_sin {t : ℝ} (h : t ∈ Set.Ioc (-Real.pi) Real.pi) : atan2 (Real.sin t) (Real.cos t) = t := by
  unfold atan2
  have : (⟨Real.cos t, Real.sin t⟩ : ℂ) = Complex.cos t + Complex.sin t * Complex.I := by
    rw [← Complex.ofReal_cos, ← Complex.ofReal_sin]
    apply Complex.ext <;> simp [Complex.add_re, Complex.add_im, -Complex.ofReal_cos, -Complex.ofReal_sin]
  rw [this, Complex.arg_cos_add_sin_mul_I h]

theorem group_plane (pts : List (ℝ × ℝ)) (hne : pts ≠ []) (hx : ∃ p ∈ pts, Real.cos p.2 ≠ 0)
    (hy : ∃ p ∈ pts, Real.sin p.2 ≠ 0) :
    group2D (planeSegs pts) = some ⟨pts.map Prod.fst, 2, pts.map fun p => atan2 (Real.sin p.2) (Real.cos p.2)⟩ := by
  have hk : (planeSegs pts).filterMap (fun s => s.1.map fun r => (r, s.2)) =
      pts.map fun p => (p.1, (Real.cos p.2, Real.sin p.2, (0 : ℝ))) := by
    rw [planeSegs, List.filterMap_map, ← List.filterMap_eq_map]
    rfl
  unfold group2D
  simp only [hk]
  have h1 : ¬ ∀ q ∈ pts.map (fun p : ℝ × ℝ => (p.1, (Real.cos p.2, Real.sin p.2, (0 : ℝ)))), q.2.1 = 0 := by
    intro h
    obtain ⟨p, hp, hc⟩ := hx
    exact hc (h _ (List.mem_map_of_mem hp))
  have h2 : ¬ ∀ q ∈ pts.map (fun p : ℝ × ℝ => (p.1, (Real.cos p.2, Real.sin p.2, (0 : ℝ)))), q.2.2.1 = 0 := by
    intro h
    obtain ⟨p, hp, hc⟩ := hy
    exact hc (h _ (List.mem_map_of_mem hp))
  have h3 : ∀ q ∈ pts.map (fun p : ℝ × ℝ => (p.1, (Real.cos p.2, Real.sin p.2, (0 : ℝ)))), q.2.2.2 = 0 := by
    intro q hq
    obtain ⟨p, _, rfl⟩ := List.mem_map.1 hq
    rfl
  rw [if_neg (by simpa using hne), if_neg h1, if_neg h2, if_pos h3]
  simp [comp, planeIdx, Function.comp_def]

/-- Means over sectors of the half circle from 0 to π. Missing: angles beyond π, see the counterexample. -/
theorem C176_mean_partial (pts : List (ℝ × ℝ)) (hne : pts ≠ []) (hx : ∃ p ∈ pts, Real.cos p.2 ≠ 0)
    (hy : ∃ p ∈ pts, Real.sin p.2 ≠ 0) (ht : ∀ p ∈ pts, 0 ≤ p.2 ∧ p.2 ≤ Real.pi) (bins : Nat) :
    ∃ g, group2D (planeSegs pts) = some g ∧ ∀ i, i < bins →
      g.binnedMean bins i = (2 * Real.pi * (i + 1 / 2) / bins,
        if inSector pts bins i = [] then none
        else some ((inSector pts bins i).sum / (inSector pts bins i).length)) := by
  refine ⟨_, group_plane pts hne hx hy, fun i hi => ?_⟩
  have hang : (pts.map fun p => atan2 (Real.sin p.2) (Real.cos p.2)) = pts.map Prod.snd := by
    refine List.map_congr_left fun p hp => ?_
    obtain ⟨h1, h2⟩ := ht p hp
    exact atan2_cos_sin ⟨by linarith [Real.pi_pos], h2⟩
  rw [hang]
  have hb : (Group2D.mk (pts.map Prod.fst) 2 (pts.map Prod.snd)).inBin bins i = inSector pts bins i := by
    unfold Group2D.inBin inSector
    simp only
    have hz : (pts.map Prod.snd).zip (pts.map Prod.fst) = pts.map fun p => (p.2, p.1) := by
      rw [List.zip_map', ]
    rw [hz, List.filter_map, List.map_map]
    have hf : ∀ p ∈ pts, ((fun p : ℝ × ℝ => decide (2 * Real.pi * i / bins ≤ p.1 ∧
        (p.1 < 2 * Real.pi * (i + 1) / bins ∨ (i + 1 = bins ∧ p.1 = 2 * Real.pi)))) ∘ fun p : ℝ × ℝ => (p.2, p.1)) p =
        decide (2 * Real.pi * i / bins ≤ p.2 ∧ p.2 < 2 * Real.pi * (i + 1) / bins) := by
      intro p hp
      have h1 : ¬ p.2 = 2 * Real.pi := by
        intro h; have := (ht p hp).2; linarith [Real.pi_pos]
      simp [h1]
    rw [List.filter_congr hf]
    rfl
  simp only [Group2D.binnedMean, hb, meanOf, List.length_eq_zero_iff]
  congr 1
  ring

/-- Points in the lower half of the circle are in no bin. -/
theorem C176_lower (pts : List (ℝ × ℝ)) (hne : pts ≠ []) (hx : ∃ p ∈ pts, Real.cos p.2 ≠ 0)
    (ht : ∀ p ∈ pts, Real.pi < p.2 ∧ p.2 < 2 * Real.pi) :
    ∃ g, group2D (planeSegs pts) = some g ∧ ∀ bins i, g.inBin bins i = [] := by
  have hs : ∀ p ∈ pts, Real.sin p.2 < 0 := by
    intro p hp
    obtain ⟨h1, h2⟩ := ht p hp
    have := Real.sin_pos_of_pos_of_lt_pi (x := p.2 - Real.pi) (by linarith) (by linarith)
    rw [Real.sin_sub_pi] at this
    linarith
  have hy : ∃ p ∈ pts, Real.sin p.2 ≠ 0 := by
    obtain ⟨p, hp⟩ := List.exists_mem_of_ne_nil _ hne
    exact ⟨p, hp, (hs p hp).ne⟩
  refine ⟨_, group_plane pts hne hx hy, fun bins i => ?_⟩
  unfold Group2D.inBin
  rw [List.map_eq_nil_iff, List.filter_eq_nil_iff]
  rintro ⟨a, r⟩ hm
  have ha := (List.of_mem_zip hm).1
  simp only [List.mem_map] at ha
  obtain ⟨p, hp, rfl⟩ := ha
  have hneg : atan2 (Real.sin p.2) (Real.cos p.2) < 0 := by
    unfold atan2
    rw [Complex.arg_neg_iff]
    exact hs p hp
  have h0 : 0 ≤ 2 * Real.pi * (i : ℝ) / bins := by
    have := Real.pi_pos
    positivity
  simp only [decide_eq_true_eq, not_and]
  intro h
  linarith

/-- Means over sectors are not those of the points in them. -/
theorem C176_counterexample_mean : ¬ ∀ (pts : List (ℝ × ℝ)) (g : Group2D) (bins i : Nat),
    (∀ p ∈ pts, 0 ≤ p.2 ∧ p.2 < 2 * Real.pi) → group2D (planeSegs pts) = some g → i < bins →
    g.inBin bins i = inSector pts bins i := by
  intro h
  have hpi := Real.pi_pos
  have hc : Real.cos (5 * Real.pi / 4) ≠ 0 := by
    rw [show 5 * Real.pi / 4 = Real.pi / 4 + Real.pi by ring, Real.cos_add_pi, Real.cos_pi_div_four]
    have := Real.sqrt_pos.2 (show (0 : ℝ) < 2 by norm_num)
    intro h0; linarith
  obtain ⟨t, ht⟩ : ∃ t, t = 5 * Real.pi / 4 := ⟨_, rfl⟩
  rw [← ht] at hc
  have hb : ∀ p ∈ [((1 : ℝ), t)], Real.pi < p.2 ∧ p.2 < 2 * Real.pi := by
    intro p hp
    rw [List.mem_singleton] at hp
    subst hp
    exact ⟨by linarith, by linarith⟩
  obtain ⟨g, hg, h0⟩ := C176_lower [(1, t)] (by simp) ⟨(1, t), by simp, hc⟩ hb
  have h1 := h [(1, t)] g 1 0 (fun p hp => ⟨by linarith [(hb p hp).1], (hb p hp).2⟩) hg (by norm_num)
  rw [h0] at h1
  have h2 : inSector [(1, t)] 1 0 = [1] := by
    unfold inSector
    rw [List.filter_cons_of_pos]
    · simp
    · rw [decide_eq_true_eq, Nat.cast_zero, Nat.cast_one]
      constructor <;> linarith
  rw [h2] at h1
  simp at h1

/-- The scatter reported is the root of the mean less its square, whatever the scatter is: none
for means above 1. -/
theorem C176_std_partial (g : Group2D) (bins i : Nat) (m : ℝ) (hm : (g.binnedMean bins i).2 = some m) :
    g.binnedStd bins i = (if m < m * m then none else some (Real.sqrt (m - m * m))) ∧
      (1 < m → g.binnedStd bins i = none) := by
  simp only [Group2D.binnedMean] at hm
  have h : g.binnedStd bins i = if m < m * m then none else some (Real.sqrt (m - m * m)) := by
    simp only [Group2D.binnedStd, hm, Option.bind_some, sub_neg]
  refine ⟨h, fun h1 => ?_⟩
  rw [h, if_pos (by nlinarith)]

/-- The scatter reported is not the standard deviation of the radii of the bin: two equal radii have scatter 1/2. -/
theorem C176_counterexample_std : ¬ ∀ (g : Group2D) (bins i : Nat), g.inBin bins i ≠ [] →
    g.binnedStd bins i = some (Real.sqrt
      (((g.inBin bins i).map fun r => (r - (g.inBin bins i).sum / (g.inBin bins i).length) ^ 2).sum /
        (g.inBin bins i).length)) := by
  intro h
  have hb : (Group2D.mk [1 / 2, 1 / 2] 2 [0, 0]).inBin 1 0 = [1 / 2, 1 / 2] := by
    unfold Group2D.inBin
    have hpi := Real.pi_pos
    simp [hpi]
  have h1 := h ⟨[1 / 2, 1 / 2], 2, [0, 0]⟩ 1 0 (by rw [hb]; simp)
  rw [(C176_std_partial _ _ _ (1 / 2) (by simp only [Group2D.binnedMean, hb, meanOf]; norm_num)).1, hb] at h1
  norm_num at h1

/-- Two points of the upper half. -/
example : ∃ p ∈ [((3 : ℝ), Real.pi / 4)], Real.cos p.2 ≠ 0 ∧ Real.sin p.2 ≠ 0 ∧ 0 ≤ p.2 ∧ p.2 ≤ Real.pi := by
  have hpi := Real.pi_pos
  refine ⟨(3, Real.pi / 4), by simp, ?_, ?_, by linarith, by linarith⟩
  · simp only [Real.cos_pi_div_four]; positivity
  · simp only [Real.sin_pi_div_four]; positivity

/-! ## C177 -/

theorem addInto_sum (n : Nat) (inputs : List (List ℚ)) : ∀ grid : List ℚ, grid.length = n →
    (∀ g ∈ inputs, g.length = n) →
    inputs.foldlM addInto grid = some ((List.range n).map fun i => grid.getD i 0 + (inputs.map fun g => g.getD i 0).sum) := by
  induction inputs with
  | nil =>
    intro grid hg _
    simp only [List.foldlM_nil, List.map_nil, List.sum_nil, add_zero]
    congr 1
    apply List.ext_getElem
    · simp [hg]
    · intro i h1 h2
      simp [List.getElem?_eq_getElem h1]
  | cons g l ih =>
    intro grid hg hl
    have h1 : g.length = n := hl g (by simp)
    rw [List.foldlM_cons]
    have e : addInto grid g = some (List.zipWith (· + ·) grid g) := by
      unfold addInto; rw [if_pos (by omega)]
    rw [e]
    simp only [Option.bind_eq_bind, Option.bind_some]
    rw [ih _ (by simp [hg, h1]) fun q hq => hl q (by simp [hq])]
    congr 1
    refine List.map_congr_left fun i hi => ?_
    rw [List.mem_range] at hi
    have e1 : (List.zipWith (· + ·) grid g).getD i 0 = grid.getD i 0 + g.getD i 0 := by
      rw [List.getD_eq_getElem _ _ (by simp; omega), List.getD_eq_getElem _ _ (by omega),
        List.getD_eq_getElem _ _ (by omega), List.getElem_zipWith]
    rw [e1, List.map_cons, List.sum_cons]
    ring

/-- The output is the sum of the grids entry by entry, whatever the order of the files. -/
theorem C177_sum (width : Nat) (inputs : List (List ℚ)) (h : ∀ g ∈ inputs, g.length = width ^ 3) :
    ∃ out, addDensities width inputs = some out ∧ out.length = width ^ 3 ∧
      (∀ i, i < width ^ 3 → out.getD i 0 = (inputs.map fun g => g.getD i 0).sum) ∧
      ∀ inputs' : List (List ℚ), inputs'.Perm inputs → addDensities width inputs' = some out := by
  have hw : width * width * width = width ^ 3 := by ring
  have hrun : ∀ l : List (List ℚ), (∀ g ∈ l, g.length = width ^ 3) →
      addDensities width l = some ((List.range (width ^ 3)).map fun i => (l.map fun g => g.getD i 0).sum) := by
    intro l hl
    unfold addDensities
    rw [hw, addInto_sum _ _ _ (by simp) hl]
    congr 1
    refine List.map_congr_left fun i hi => ?_
    rw [List.mem_range] at hi
    rw [List.getD_eq_getElem _ _ (by simpa using hi)]
    simp
  refine ⟨_, hrun inputs h, by simp, ?_, ?_⟩
  · intro i hi
    rw [List.getD_eq_getElem _ _ (by simpa using hi)]
    simp
  · intro inputs' hp
    rw [hrun inputs' fun g hg => h g (hp.mem_iff.1 hg)]
    congr 1
    refine List.map_congr_left fun i _ => ?_
    exact (hp.map _).sum_eq

theorem addInto_length {grid g out : List ℚ} (h : addInto grid g = some out) : out.length = grid.length := by
  unfold addInto at h
  split at h
  · next e => rw [← Option.some.inj h]; simp [e]
  · split at h
    · rw [← Option.some.inj h]; simp
    · simp at h

/-- A file of another size is an error, unless it has a single number. -/
theorem C177_size_partial (width : Nat) (inputs : List (List ℚ)) :
    addDensities width inputs = none ↔ ∃ g ∈ inputs, g.length ≠ width ^ 3 ∧ g.length ≠ 1 := by
  have hw : width * width * width = width ^ 3 := by ring
  unfold addDensities
  have : ∀ (l : List (List ℚ)) (grid : List ℚ), grid.length = width ^ 3 →
      (l.foldlM addInto grid = none ↔ ∃ g ∈ l, g.length ≠ width ^ 3 ∧ g.length ≠ 1) := by
    intro l
    induction l with
    | nil => intro grid _; simp
    | cons g l ih =>
      intro grid hg
      rw [List.foldlM_cons]
      cases e : addInto grid g with
      | none =>
        simp only [Option.bind_eq_bind, Option.bind_none, true_iff]
        refine ⟨g, by simp, ?_⟩
        unfold addInto at e
        split at e
        · simp at e
        · next h1 =>
          split at e
          · simp at e
          · next h2 => exact ⟨by omega, h2⟩
      | some out =>
        simp only [Option.bind_eq_bind, Option.bind_some]
        rw [ih out (by rw [addInto_length e, hg])]
        have hgood : ¬ (g.length ≠ width ^ 3 ∧ g.length ≠ 1) := by
          rintro ⟨h1, h2⟩
          unfold addInto at e
          rw [if_neg (by omega), if_neg h2] at e
          simp at e
        constructor
        · rintro ⟨q, hq, h⟩
          exact ⟨q, by simp [hq], h⟩
        · rintro ⟨q, hq, h⟩
          rcases List.mem_cons.1 hq with rfl | hq
          · exact absurd h hgood
          · exact ⟨q, hq, h⟩
  exact this inputs _ (by simp [hw])

/-- A file of a single number is accepted for any width. -/
theorem C177_counterexample : ¬ ∀ (width : Nat) (inputs : List (List ℚ)),
    (∃ g ∈ inputs, g.length ≠ width ^ 3) → addDensities width inputs = none := by
  intro h
  have := h 2 [[1]] ⟨[1], by simp, by simp⟩
  rw [C177_size_partial] at this
  simp at this

example : addDensities 1 [[1], [2], [4]] = some [7] := by decide +kernel

example : addDensities 2 [[1, 2, 3]] = none := by decide +kernel

end Verif.Py
