import Verif.Hist.Files

/-!
Property C119: the samples of the histogram program and the periodic boundary.
-/

set_option autoImplicit false

namespace Verif.Hist

open Verif.Go Verif.Geom Verif.Render

/-! ## Spec -/

/-- `q` belongs, up to whole boxes, to the tetrahedron with corners `c`, where every corner is first moved by whole boxes to
be no farther than half a box from the last one on every axis. -/
def Placed (L : ℚ) (c : Fin 4 → Vec) (q : Vec) : Prop :=
  ∃ c' : Fin 4 → Vec, (∀ i k, ∃ n : ℤ, c' i k = c i k + n * L) ∧ (∀ i k, |c' i k - c' 3 k| ≤ L / 2) ∧
    ∃ q', InSimplex c' q' ∧ ∀ k, ∃ n : ℤ, q k = q' k + n * L

/-- What a sample of a tetrahedron with corners `c` may say about a region: nothing, or the density of the pixel at a
position of the tetrahedron inside the region. -/
def SampleOk (g : DensityGrid) (L : ℚ) (origin span : Vec) (c : Fin 4 → Vec) (r : ℚ × Bool) : Prop :=
  r.2 = true → ∃ q, Placed L c q ∧ (∀ k, Inside L (origin k) (span k) (q k)) ∧
    ∃ px : IVec, (∀ k, (0 ≤ px k ∧ px k < g.pixelSpan k) ∧
      InHalfOpen L (g.origin k + px k * g.pixelWidth) g.pixelWidth (q k)) ∧
    rd g.values (px 0 + px 1 * g.pixelSpan 0 + px 2 * (g.pixelSpan 0 * g.pixelSpan 1)) = some r.1

/-! ## Samples of tetrahedra that do not cross the boundary -/

/-- C119: the samples of a tetrahedron no wider than half a box. The wanted statement is without that condition, which fails
for matter at the boundary of the box. -/
theorem C119_samples_partial {s : Sheet} {g : DensityGrid} {L : ℚ} (hL : 0 < L) (hs : s.Ok L) (hg : g.Ok L)
    {origin span : Vec} (ho : ∀ k, 0 ≤ origin k ∧ origin k < L) (hsp : ∀ k, span k ≤ L) {unit : List Vec}
    (hu : ∀ p ∈ unit, UnitPoint p) {x y z : ℤ}
    (hc : (0 ≤ x ∧ x < s.segWidth) ∧ (0 ≤ y ∧ y < s.segWidth) ∧ (0 ≤ z ∧ z < s.segWidth)) (d : Fin 6)
    (hw : ∀ i k, |s.corners x y z d i k - s.corners x y z d 3 k| ≤ L / 2) :
    ∃ ds, getDensities s g 1 origin span unit (x + y * s.gridWidth + z * s.gridWidth * s.gridWidth) (d.val : ℤ) = some ds ∧
      ds.length = unit.length ∧ ∀ r ∈ ds, SampleOk g L origin span (s.corners x y z d) r := by
  obtain ⟨idxs, -, hk⟩ := cube_visit hs hc d
  have key : ∀ p ∈ unit, ∃ r : ℚ × Bool, density L origin span g.boxWidth g.origin g.span g.pixelSpan g.pixelWidth g.values
      (mix (s.corners x y z d) p) = some r ∧ SampleOk g L origin span (s.corners x y z d) r := by
    intro p hp
    have hb := fun k => mix_below (hu p hp) fun i => hs.pos _ (hk i).2 k
    obtain ⟨v, ok, e, h1, h2⟩ := C60_density (grid := g.values) (n := g.pixelSpan) (origin := g.origin) hL hg.pixel hg.origin
      ho hsp hg.len (v := mix (s.corners x y z d) p) (fun k => ⟨by linarith [(hb k).1], by linarith [(hb k).2]⟩)
    refine ⟨(v, ok), ?_, ?_⟩
    · rw [hg.box, show g.span = fun k => (g.pixelSpan k : ℚ) * g.pixelWidth from funext hg.span]
      exact e
    · intro hok
      refine ⟨mix (s.corners x y z d) p, ⟨s.corners x y z d, fun i k => ⟨0, by simp⟩, hw, _, mix_inSimplex (hu p hp),
        fun k => ⟨0, by simp⟩⟩, (h1.mp hok).1, h2 hok⟩
  choose! f hf1 hf2 using key
  refine ⟨unit.map f, ?_, by simp, ?_⟩
  · rw [getDensities_eq hs g origin span unit hc d]
    exact mapM_exact hf1
  · intro r hr
    rw [List.mem_map] at hr
    obtain ⟨p, hp, rfl⟩ := hr
    exact hf2 p hp

/-- The example sheet of C118 meets the conditions. -/
example (d : Fin 6) : ∃ ds, getDensities (exSheet 1 2 (1 / 2) 2) exDensity 1 ![0, 0, 0] ![5, 5, 5] [![1 / 4, 1 / 4, 1 / 4]]
    (0 + 0 * (exSheet 1 2 (1 / 2) 2).gridWidth + 0 * (exSheet 1 2 (1 / 2) 2).gridWidth * (exSheet 1 2 (1 / 2) 2).gridWidth)
    (d.val : ℤ) = some ds ∧ ds.length = 1 ∧
      ∀ r ∈ ds, SampleOk exDensity 10 ![0, 0, 0] ![5, 5, 5] ((exSheet 1 2 (1 / 2) 2).corners 0 0 0 d) r := by
  refine C119_samples_partial (by norm_num) (exSheet_ok (by norm_num) (by norm_num) (by norm_num) (by norm_num)) exDensity_ok
    (fun k => by fin_cases k <;> norm_num) (fun k => by fin_cases k <;> norm_num)
    (exUnit_ok _ (by simp [exUnit])) ⟨by decide, by decide, by decide⟩ d ?_
  intro i k
  have : ∀ (d : Fin 6) (i : Fin 4) (k : Fin 3),
      (exSheet 1 2 (1 / 2) 2).corners 0 0 0 d i k - (exSheet 1 2 (1 / 2) 2).corners 0 0 0 d 3 k ≤ 5 ∧
        -5 ≤ (exSheet 1 2 (1 / 2) 2).corners 0 0 0 d i k - (exSheet 1 2 (1 / 2) 2).corners 0 0 0 d 3 k := by decide +kernel
  rw [abs_le]
  have := this d i k
  constructor
  · linarith [this.2]
  · linarith [this.1]

/-! ## Samples of a tetrahedron at the boundary -/

/-- C119: a cube of side 1 at the corner of a box of side 10. Its sample is counted for the region from 2 to 8, to which no
position of the tetrahedron belongs. -/
theorem C119_samples_counterexample :
    (exSheet (19 / 2) (1 / 2) 9 2).Ok 10 ∧ CubeUsed 10 (exSheet (19 / 2) (1 / 2) 9 2) 0 0 0 ∧
    getDensities (exSheet (19 / 2) (1 / 2) 9 2) exDensity 1 ![2, 2, 2] ![6, 6, 6] [![1 / 4, 1 / 4, 1 / 4]] 0 0 =
      some [(7, true)] ∧
    ∀ q, Placed 10 ((exSheet (19 / 2) (1 / 2) 9 2).corners 0 0 0 0) q →
      ¬ ∀ k, Inside 10 (![2, 2, 2] k) (![6, 6, 6] k) (q k) := by
  refine ⟨exSheet_ok (by norm_num) (by norm_num) (by norm_num) (by norm_num), ?_, by decide +kernel, ?_⟩
  · have h : ∀ k, (exSheet (19 / 2) (1 / 2) 9 2).corners 0 0 0 0 3 k = 19 / 2 := by decide +kernel
    intro k
    rw [h]
    exact ⟨0, by norm_num [exSheet]⟩
  · rintro q ⟨c', h1, h2, q', ⟨l, ⟨hl, hq⟩, hl0⟩, hq'⟩ hin
    have hcor : ∀ i, (exSheet (19 / 2) (1 / 2) 9 2).corners 0 0 0 0 i 0 = 19 / 2 ∨
        (exSheet (19 / 2) (1 / 2) 9 2).corners 0 0 0 0 i 0 = 1 / 2 := by decide +kernel
    have h3 : (exSheet (19 / 2) (1 / 2) 9 2).corners 0 0 0 0 3 0 = 19 / 2 := by decide +kernel
    obtain ⟨n, hn⟩ := h1 3 0
    rw [h3] at hn
    have hb : ∀ i, 19 / 2 + (n : ℚ) * 10 ≤ c' i 0 ∧ c' i 0 ≤ 21 / 2 + (n : ℚ) * 10 := by
      intro i
      obtain ⟨m, hm⟩ := h1 i 0
      have := h2 i 0
      rw [hn, abs_le] at this
      rcases hcor i with h | h <;> rw [h] at hm <;> rw [hm] at this ⊢
      · have : m = n := by
          have a : (m : ℚ) < n + 1 := by linarith [this.2]
          have b : (n : ℚ) < m + 1 := by linarith [this.1]
          have a' : m < n + 1 := by exact_mod_cast a
          have b' : n < m + 1 := by exact_mod_cast b
          omega
        subst this
        constructor <;> linarith
      · have : m = n + 1 := by
          have a : (m : ℚ) < n + 2 := by linarith [this.2]
          have b : (n : ℚ) < m := by linarith [this.1]
          have a' : m < n + 2 := by exact_mod_cast a
          have b' : n < m := by exact_mod_cast b
          omega
        subst this
        push_cast
        constructor <;> linarith
    have hq0 : 19 / 2 + (n : ℚ) * 10 ≤ q' 0 ∧ q' 0 ≤ 21 / 2 + (n : ℚ) * 10 := by
      rw [hq 0]
      rw [Fin.sum_univ_four] at hl ⊢
      constructor
      · have e : (l 0 + l 1 + l 2 + l 3) * (19 / 2 + (n : ℚ) * 10) = 19 / 2 + n * 10 := by rw [hl, one_mul]
        linarith [mul_le_mul_of_nonneg_left (hb 0).1 (hl0 0), mul_le_mul_of_nonneg_left (hb 1).1 (hl0 1),
          mul_le_mul_of_nonneg_left (hb 2).1 (hl0 2), mul_le_mul_of_nonneg_left (hb 3).1 (hl0 3)]
      · have e : (l 0 + l 1 + l 2 + l 3) * (21 / 2 + (n : ℚ) * 10) = 21 / 2 + n * 10 := by rw [hl, one_mul]
        linarith [mul_le_mul_of_nonneg_left (hb 0).2 (hl0 0), mul_le_mul_of_nonneg_left (hb 1).2 (hl0 1),
          mul_le_mul_of_nonneg_left (hb 2).2 (hl0 2), mul_le_mul_of_nonneg_left (hb 3).2 (hl0 3)]
    obtain ⟨m, hm⟩ := hq' 0
    obtain ⟨r, hr⟩ := hin 0
    simp only [Matrix.cons_val_zero] at hr
    rw [hm] at hr
    have a : ((n + m + r : ℤ) : ℚ) < 0 := by push_cast; linarith [hr.2, hq0.1]
    have b : (-1 : ℚ) < ((n + m + r : ℤ) : ℚ) := by push_cast; linarith [hr.1, hq0.2]
    have a' : n + m + r < 0 := by exact_mod_cast a
    have b' : -1 < n + m + r := by exact_mod_cast b
    omega

end Verif.Hist
