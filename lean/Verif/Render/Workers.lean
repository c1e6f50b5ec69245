import Verif.Render.Overlap
import Mathlib.Data.List.Nodup

/-!
# The work of one segment is divided among the workers: C45
-/

set_option autoImplicit false

namespace Verif.Render

open Verif.Go Verif.Geom

/-- The tetrahedron of cube `(x, y, z)` in direction `dir`: its cube starts at particle `(x skip, y skip, z skip)` of
the `(segWidth + 1)³` particles of the segment. -/
def cubeVisit (segWidth skip x y z dir : ℤ) : TetVisit :=
  (x * skip + (segWidth + 1) * (y * skip + (segWidth + 1) * (z * skip)), dir)

/-- A cube of a segment with `n` cubes per side. -/
def IsCube (n x y z : ℤ) : Prop := (0 ≤ x ∧ x < n) ∧ (0 ≤ y ∧ y < n) ∧ (0 ≤ z ∧ z < n)

theorem coords_of_cube {n x y z : ℤ} (h : IsCube n x y z) : coords (x + n * (y + n * z)) n = (x, y, z) := by
  obtain ⟨⟨x0, x1⟩, ⟨y0, y1⟩, z0, z1⟩ := h
  have hn : 0 < n := by omega
  have hi : 0 ≤ x + n * (y + n * z) := by positivity
  have hxy : x + n * y < n * n := by
    have : n * (y + 1) ≤ n * n := mul_le_mul_of_nonneg_left (by omega) hn.le
    rw [mul_add, mul_one] at this
    omega
  have hxy0 : 0 ≤ x + n * y := by positivity
  unfold coords
  have e1 : (x + n * (y + n * z)) % (n * n) = x + n * y := by
    rw [show x + n * (y + n * z) = x + n * y + n * n * z by ring, Int.add_mul_emod_self_left,
      Int.emod_eq_of_lt hxy0 hxy]
  have e2 : (x + n * (y + n * z)) / (n * n) = z := by
    rw [show x + n * (y + n * z) = x + n * y + n * n * z by ring, Int.add_mul_ediv_left _ _ (by positivity),
      Int.ediv_eq_zero_of_lt hxy0 hxy, zero_add]
  rw [Int.tmod_eq_emod_of_nonneg hi, Int.tmod_eq_emod_of_nonneg hi, Int.tdiv_eq_ediv_of_nonneg hi, e1, e2,
    Int.tdiv_eq_ediv_of_nonneg hxy0, Int.add_mul_emod_self_left, Int.emod_eq_of_lt x0 x1,
    Int.add_mul_ediv_left _ _ hn.ne', Int.ediv_eq_zero_of_lt x0 x1, zero_add]

theorem cube_of_idx {n i : ℤ} (hn : 0 ≤ n) (h0 : 0 ≤ i) (h1 : i < n * n * n) :
    ∃ x y z, IsCube n x y z ∧ i = x + n * (y + n * z) := by
  obtain ⟨x, y, z, ⟨h1, h2, h3⟩, e⟩ := exists_cell (w := fun _ => n) (n := i) (fun _ => hn) h0 h1
  exact ⟨x, y, z, ⟨h1, h2, h3⟩, by rw [e]; ring⟩

theorem cube_idx_range {n x y z : ℤ} (h : IsCube n x y z) :
    0 ≤ x + n * (y + n * z) ∧ x + n * (y + n * z) < n * n * n :=
  cell_range (w := fun _ => n) ⟨h.1, h.2.1, h.2.2⟩

theorem cube_idx_inj {n x y z x' y' z' : ℤ} (h : IsCube n x y z) (h' : IsCube n x' y' z')
    (e : x + n * (y + n * z) = x' + n * (y' + n * z')) : x = x' ∧ y = y' ∧ z = z' :=
  cell_inj (w := fun _ => n) ⟨h.1, h.2.1, h.2.2⟩ ⟨h'.1, h'.2.1, h'.2.2⟩ e

theorem cubeVisit_inj {segWidth skip : ℤ} (hs : 0 < skip) {x y z dir x' y' z' dir' : ℤ}
    (h : IsCube (segWidth / skip) x y z) (h' : IsCube (segWidth / skip) x' y' z')
    (e : cubeVisit segWidth skip x y z dir = cubeVisit segWidth skip x' y' z' dir') :
    x = x' ∧ y = y' ∧ z = z' ∧ dir = dir' := by
  have hn : segWidth / skip * skip ≤ segWidth := Int.ediv_mul_le _ hs.ne'
  have key : ∀ a, 0 ≤ a → a < segWidth / skip → 0 ≤ a * skip ∧ a * skip < segWidth + 1 := by
    intro a h0 h1
    have : a * skip ≤ segWidth / skip * skip := mul_le_mul_of_nonneg_right h1.le hs.le
    exact ⟨by positivity, by omega⟩
  have hc : ∀ {x y z}, IsCube (segWidth / skip) x y z → IsCube (segWidth + 1) (x * skip) (y * skip) (z * skip) :=
    fun h => ⟨key _ h.1.1 h.1.2, key _ h.2.1.1 h.2.1.2, key _ h.2.2.1 h.2.2.2⟩
  unfold cubeVisit at e
  obtain ⟨e1, e2⟩ := Prod.mk.inj e
  obtain ⟨a, b, c⟩ := cube_idx_inj (hc h) (hc h') e1
  exact ⟨mul_right_cancel₀ hs.ne' a, mul_right_cancel₀ hs.ne' b, mul_right_cancel₀ hs.ne' c, e2⟩

/-- What worker `id` visits: the cubes whose number is `id` modulo the number of workers, in all six directions. -/
theorem mem_workerVisits {segWidth skip workers id : ℤ} (h0 : 0 ≤ segWidth) (hs : 0 < skip) (hw : 0 < workers)
    (hid : 0 ≤ id) (v : TetVisit) :
    v ∈ workerVisits segWidth skip workers id ↔
      ∃ x y z dir, IsCube (segWidth / skip) x y z ∧ (0 ≤ dir ∧ dir < 6) ∧ v = cubeVisit segWidth skip x y z dir ∧
        ∃ k : ℕ, x + segWidth / skip * (y + segWidth / skip * z) = id + k * workers := by
  have hn : 0 ≤ segWidth / skip := Int.ediv_nonneg h0 hs.le
  have htd : segWidth.tdiv skip = segWidth / skip := Int.tdiv_eq_ediv_of_nonneg h0
  have hlt : ∀ k : ℕ, k < ((segWidth / skip * (segWidth / skip) * (segWidth / skip) - id + workers - 1) / workers).toNat ↔
      id + k * workers < segWidth / skip * (segWidth / skip) * (segWidth / skip) := by
    intro k
    rw [Int.lt_toNat, ← Int.add_one_le_iff, Int.le_ediv_iff_mul_le hw]
    constructor <;> intro h <;> nlinarith
  unfold workerVisits segLen
  rw [htd]
  simp only [List.mem_flatMap, List.mem_range, List.mem_map]
  constructor
  · rintro ⟨k, hk, dir, hdir, rfl⟩
    rw [hlt] at hk
    obtain ⟨x, y, z, hc, e⟩ := cube_of_idx hn (by positivity) hk
    refine ⟨x, y, z, dir, hc, ⟨by positivity, by exact_mod_cast hdir⟩, ?_, k, e.symm⟩
    rw [e, coords_of_cube hc]
    simp only [cubeVisit, index]
    congr 1
    ring
  · rintro ⟨x, y, z, dir, hc, hdir, rfl, k, e⟩
    refine ⟨k, ?_, dir.toNat, by omega, ?_⟩
    · rw [hlt, ← e]
      exact (cube_idx_range hc).2
    · rw [← e, coords_of_cube hc, Int.toNat_of_nonneg hdir.1]
      simp only [cubeVisit, index]
      congr 1
      ring

theorem workerVisits_nodup {segWidth skip workers id : ℤ} (h0 : 0 ≤ segWidth) (hs : 0 < skip) (hw : 0 < workers)
    (hid : 0 ≤ id) : (workerVisits segWidth skip workers id).Nodup := by
  have hn : 0 ≤ segWidth / skip := Int.ediv_nonneg h0 hs.le
  have htd : segWidth.tdiv skip = segWidth / skip := Int.tdiv_eq_ediv_of_nonneg h0
  have hlt : ∀ k : ℕ, k < ((segWidth / skip * (segWidth / skip) * (segWidth / skip) - id + workers - 1) / workers).toNat →
      id + k * workers < segWidth / skip * (segWidth / skip) * (segWidth / skip) := by
    intro k h
    rw [Int.lt_toNat, ← Int.add_one_le_iff, Int.le_ediv_iff_mul_le hw] at h
    nlinarith
  unfold workerVisits segLen
  rw [htd, List.nodup_flatMap]
  refine ⟨fun k _ => ?_, ?_⟩
  · dsimp only
    refine (List.nodup_range).map ?_
    intro a b e
    have := (Prod.mk.inj e).2
    exact_mod_cast this
  · refine List.Pairwise.imp_of_mem ?_ (List.nodup_range)
    intro k l hk hl hne
    rw [List.mem_range] at hk hl
    obtain ⟨x, y, z, hc, e⟩ := cube_of_idx hn (by positivity) (hlt k hk)
    obtain ⟨x', y', z', hc', e'⟩ := cube_of_idx hn (by positivity) (hlt l hl)
    simp only [Function.onFun]
    rw [e, e', coords_of_cube hc, coords_of_cube hc']
    intro v hv hv'
    simp only [List.mem_map] at hv hv'
    obtain ⟨d, _, rfl⟩ := hv
    obtain ⟨d', _, e2⟩ := hv'
    have key : cubeVisit segWidth skip x' y' z' d' = cubeVisit segWidth skip x y z d := by
      unfold cubeVisit index at *
      obtain ⟨a, b⟩ := Prod.mk.inj e2
      exact Prod.ext (by dsimp only; linarith) b
    obtain ⟨rfl, rfl, rfl, _⟩ := cubeVisit_inj hs hc' hc key
    rw [← e] at e'
    have : (l : ℤ) * workers = k * workers := by omega
    have := mul_right_cancel₀ hw.ne' this
    exact hne (by exact_mod_cast this.symm)

/-- **C45**: for every number of workers, each tetrahedron of each cube of the segment is visited by exactly one
worker, once; and nothing else is visited. -/
theorem C45_partition (segWidth skip workers : ℤ) (h0 : 0 ≤ segWidth) (hs : 0 < skip) (hw : 0 < workers) :
    (∀ x y z dir, IsCube (segWidth / skip) x y z → 0 ≤ dir → dir < 6 →
      ∃! id : ℤ, (0 ≤ id ∧ id < workers) ∧
        (workerVisits segWidth skip workers id).count (cubeVisit segWidth skip x y z dir) = 1) ∧
    (∀ id v, 0 ≤ id → id < workers → v ∈ workerVisits segWidth skip workers id →
      (workerVisits segWidth skip workers id).count v = 1 ∧
      ∃ x y z dir, IsCube (segWidth / skip) x y z ∧ (0 ≤ dir ∧ dir < 6) ∧ v = cubeVisit segWidth skip x y z dir) ∧
    (∀ x y z dir x' y' z' dir', IsCube (segWidth / skip) x y z → IsCube (segWidth / skip) x' y' z' →
      cubeVisit segWidth skip x y z dir = cubeVisit segWidth skip x' y' z' dir' →
      x = x' ∧ y = y' ∧ z = z' ∧ dir = dir') := by
  refine ⟨fun x y z dir hc d0 d1 => ?_, fun id v i0 _ hv => ⟨?_, ?_⟩, fun _ _ _ _ _ _ _ _ h h' e => cubeVisit_inj hs h h' e⟩
  · set i := x + segWidth / skip * (y + segWidth / skip * z) with hi
    have hi0 := (cube_idx_range hc).1
    refine ⟨i % workers, ⟨⟨Int.emod_nonneg _ hw.ne', Int.emod_lt_of_pos _ hw⟩, ?_⟩, ?_⟩
    · refine List.count_eq_one_of_mem (workerVisits_nodup h0 hs hw (Int.emod_nonneg _ hw.ne')) ?_
      rw [mem_workerVisits h0 hs hw (Int.emod_nonneg _ hw.ne')]
      refine ⟨x, y, z, dir, hc, ⟨d0, d1⟩, rfl, (i / workers).toNat, ?_⟩
      rw [Int.toNat_of_nonneg (Int.ediv_nonneg hi0 hw.le), ← hi, mul_comm]
      exact (Int.emod_add_mul_ediv i workers).symm
    · rintro id ⟨⟨i0, i1⟩, hcnt⟩
      have hv : cubeVisit segWidth skip x y z dir ∈ workerVisits segWidth skip workers id := by
        rw [← List.count_pos_iff, hcnt]; exact one_pos
      rw [mem_workerVisits h0 hs hw i0] at hv
      obtain ⟨x', y', z', dir', hc', _, e, k, ek⟩ := hv
      obtain ⟨rfl, rfl, rfl, _⟩ := cubeVisit_inj hs hc hc' e
      rw [hi, ek, Int.add_mul_emod_self_right, Int.emod_eq_of_lt i0 i1]
  · exact List.count_eq_one_of_mem (workerVisits_nodup h0 hs hw i0) hv
  · rw [mem_workerVisits h0 hs hw i0] at hv
    obtain ⟨x, y, z, dir, hc, hd, e, _⟩ := hv
    exact ⟨x, y, z, dir, hc, hd, e⟩

/-- Three workers, 4 cubes per side: worker 2 gets 21 of the 64 cubes. -/
example : (workerVisits 8 2 3 2).length = 21 * 6 ∧ IsCube (8 / 2) 3 1 2 ∧
    cubeVisit 8 2 3 1 2 5 ∈ workerVisits 8 2 3 0 := by
  refine ⟨by decide +kernel, ?_, by decide +kernel⟩
  unfold IsCube
  omega

/-- The segment is covered completely iff the subsampling length divides its width. -/
theorem C45_coverage (segWidth skip : ℤ) (hs : 0 < skip) :
    (∀ p, 0 ≤ p → p < segWidth → ∃ x, (0 ≤ x ∧ x < segWidth / skip) ∧ x * skip ≤ p ∧ p < (x + 1) * skip) ↔
      (segWidth ≤ 0 ∨ skip ∣ segWidth) := by
  constructor
  · intro h
    by_cases h0 : segWidth ≤ 0
    · exact Or.inl h0
    · right
      obtain ⟨x, ⟨x0, x1⟩, h1, h2⟩ := h (segWidth - 1) (by omega) (by omega)
      have h3 : (x + 1) * skip ≤ segWidth / skip * skip := mul_le_mul_of_nonneg_right (by omega) hs.le
      have h4 := Int.ediv_mul_le segWidth hs.ne'
      exact ⟨segWidth / skip, by rw [mul_comm]; omega⟩
  · rintro (h | ⟨q, rfl⟩) p p0 p1
    · omega
    · rw [Int.mul_ediv_cancel_left _ hs.ne']
      refine ⟨p / skip, ⟨Int.ediv_nonneg p0 hs.le, ?_⟩, Int.ediv_mul_le _ hs.ne', ?_⟩
      · exact Int.ediv_lt_of_lt_mul hs (by rw [mul_comm]; exact p1)
      · have := Int.lt_ediv_add_one_mul_self p hs
        exact this

example : ¬ (3 : ℤ) ∣ 8 ∧ (4 : ℤ) ∣ 8 := by decide

end Verif.Render
