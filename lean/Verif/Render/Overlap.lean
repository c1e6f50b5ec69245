import Verif.Render.Accum
import Verif.Geom.Deriv

/-!
# Depositing points and adding buffers to the image: C47, C48

The cells of a buffer of widths `w` are numbered x fastest, z slowest. Two cells coincide in the periodic box with
`cells` cells per side when their absolute coordinates differ by multiples of `cells` on every axis.
-/

set_option autoImplicit false

namespace Verif.Render

open Verif.Go Verif.Geom

variable {M : Type} [AddCommMonoid M]

/-! ## Specification -/

/-- Cell that contains a point. -/
def cellOf (p : Vec) : IVec := fun j => ⌊p j⌋

/-- All cells of a buffer. -/
def boxCells (w : IVec) : Finset (ℤ × ℤ × ℤ) := Finset.Ico 0 (w 0) ×ˢ Finset.Ico 0 (w 1) ×ˢ Finset.Ico 0 (w 2)

/-- All cells of a 2D buffer. -/
def rectCells (wi wj : ℤ) : Finset (ℤ × ℤ) := Finset.Ico 0 wi ×ˢ Finset.Ico 0 wj

/-- The slice `new` is the slice `old` with `G x y z` added to every cell. -/
def Grew3 (w : IVec) (old new : List M) (G : ℤ → ℤ → ℤ → M) : Prop :=
  new.length = old.length ∧ ∀ x y z, IsCell w x y z →
    ∃ v, rd old (x + y * w 0 + z * (w 0 * w 1)) = some v ∧
      rd new (x + y * w 0 + z * (w 0 * w 1)) = some (v + G x y z)

/-- The slice `new` is the slice `old` with `G i j` added to every pixel. -/
def Grew2 (wi wj : ℤ) (old new : List M) (G : ℤ → ℤ → M) : Prop :=
  new.length = old.length ∧ ∀ i j, (0 ≤ i ∧ i < wi) → (0 ≤ j ∧ j < wj) →
    ∃ v, rd old (i + j * wi) = some v ∧ rd new (i + j * wi) = some (v + G i j)

/-! ## Index arithmetic -/

theorem flat_eq (w : IVec) (x y z : ℤ) : x + y * w 0 + z * (w 0 * w 1) = x + w 0 * (y + w 1 * z) := by ring

theorem flat_range {w : IVec} {x y z : ℤ} (h : IsCell w x y z) :
    0 ≤ x + y * w 0 + z * (w 0 * w 1) ∧ x + y * w 0 + z * (w 0 * w 1) < w 0 * w 1 * w 2 := by
  rw [flat_eq]; exact cell_range h

theorem flat_inj {w : IVec} {x y z x' y' z' : ℤ} (h : IsCell w x y z) (h' : IsCell w x' y' z') :
    x + y * w 0 + z * (w 0 * w 1) = x' + y' * w 0 + z' * (w 0 * w 1) ↔ x = x' ∧ y = y' ∧ z = z' := by
  rw [flat_eq, flat_eq]
  constructor
  · exact cell_inj h h'
  · rintro ⟨rfl, rfl, rfl⟩; rfl

theorem flat2_range {wi wj i j : ℤ} (hi : 0 ≤ i ∧ i < wi) (hj : 0 ≤ j ∧ j < wj) :
    0 ≤ i + j * wi ∧ i + j * wi < wi * wj := by
  have h1 : 0 ≤ j * wi := mul_nonneg hj.1 (by omega)
  have h2 : (j + 1) * wi ≤ wj * wi := mul_le_mul_of_nonneg_right (by omega) (by omega)
  constructor
  · omega
  · rw [add_mul, one_mul, mul_comm wj] at h2; omega

theorem flat2_inj {wi wj i j i' j' : ℤ} (hi : 0 ≤ i ∧ i < wi) (_hj : 0 ≤ j ∧ j < wj) (hi' : 0 ≤ i' ∧ i' < wi) :
    i + j * wi = i' + j' * wi ↔ i = i' ∧ j = j' := by
  constructor
  · intro h
    exact mul_add_inj hi hi' (by rw [mul_comm wi, mul_comm wi]; exact h)
  · rintro ⟨rfl, rfl⟩; rfl

/-- Every cell number of a buffer belongs to a cell. -/
theorem exists_cell {w : IVec} {n : ℤ} (hw : ∀ j, 0 ≤ w j) (h0 : 0 ≤ n) (h1 : n < w 0 * w 1 * w 2) :
    ∃ x y z, IsCell w x y z ∧ n = x + y * w 0 + z * (w 0 * w 1) := by
  have p0 : 0 < w 0 := by
    rcases (hw 0).lt_or_eq with h | h
    · exact h
    · rw [← h] at h1; simp at h1; omega
  have p1 : 0 < w 1 := by
    rcases (hw 1).lt_or_eq with h | h
    · exact h
    · rw [← h] at h1; simp at h1; omega
  refine ⟨n % w 0, n / w 0 % w 1, n / w 0 / w 1, ⟨⟨Int.emod_nonneg _ p0.ne', Int.emod_lt_of_pos _ p0⟩,
    ⟨Int.emod_nonneg _ p1.ne', Int.emod_lt_of_pos _ p1⟩,
    Int.ediv_nonneg (Int.ediv_nonneg h0 p0.le) p1.le, ?_⟩, ?_⟩
  · rw [Int.ediv_ediv_of_nonneg p0.le]
    exact Int.ediv_lt_of_lt_mul (mul_pos p0 p1) (by rw [mul_comm (w 2)]; exact h1)
  · rw [flat_eq, Int.emod_add_mul_ediv, Int.emod_add_mul_ediv]

theorem bound_eq_emod {x n : ℤ} (h1 : -n ≤ x) (h2 : x < 2 * n) : bound x n = x % n := by
  unfold bound
  split_ifs with a b
  · rw [← Int.add_emod_right, Int.emod_eq_of_lt (by omega) (by omega)]
  · rw [show x = x - n + n by ring, Int.add_emod_right, Int.emod_eq_of_lt (by omega) (by omega)]
    ring
  · rw [Int.emod_eq_of_lt (by omega) (by omega)]

/-- A number equals its place in `[0, n)`. -/
theorem emod_eq_iff {x n d : ℤ} (h0 : 0 ≤ d) (h1 : d < n) : x % n = d ↔ n ∣ x - d := by
  constructor
  · rintro rfl
    exact Int.dvd_self_sub_emod
  · rintro ⟨k, hk⟩
    have : x = d + n * k := by omega
    rw [this, Int.add_mul_emod_self_left, Int.emod_eq_of_lt h0 h1]

theorem domCoord_eq (bufO domO n b : ℤ) : domCoord bufO domO n b = bound (b + (bufO - domO)) n := rfl

theorem domCoord_iff {bufO domO n b d : ℤ} (h1 : -n ≤ b + (bufO - domO)) (h2 : b + (bufO - domO) < 2 * n)
    (d0 : 0 ≤ d) (d1 : d < n) : domCoord bufO domO n b = d ↔ n ∣ (b + bufO) - (d + domO) := by
  rw [domCoord_eq, bound_eq_emod h1 h2, emod_eq_iff d0 d1, show b + (bufO - domO) - d = b + bufO - (d + domO) by ring]

theorem domCoord_nonneg {bufO domO n b : ℤ} (h1 : -n ≤ b + (bufO - domO)) : 0 ≤ domCoord bufO domO n b := by
  rw [domCoord_eq]
  unfold bound
  split_ifs <;> omega

/-- From cell numbers to cells. -/
theorem Adds.grew3 {w : IVec} {body : List M → Option (List M)} {G : ℤ → M} (h : Adds (w 0 * w 1 * w 2) body G)
    (G3 : ℤ → ℤ → ℤ → M) (hG : ∀ x y z, IsCell w x y z → G (x + y * w 0 + z * (w 0 * w 1)) = G3 x y z)
    (buf : List M) (hb : (buf.length : ℤ) = w 0 * w 1 * w 2) :
    ∃ buf', body buf = some buf' ∧ Grew3 w buf buf' G3 := by
  obtain ⟨ys, e, hl, hy⟩ := h.run buf hb
  refine ⟨ys, e, hl, fun x y z hc => ?_⟩
  have hr := flat_range hc
  obtain ⟨v, hv⟩ := rd_isSome (xs := buf) hr.1 (by omega)
  exact ⟨v, hv, by rw [hy _ v hr.1 hr.2 hv, hG x y z hc]⟩

theorem Adds.grew2 {wi wj : ℤ} {body : List M → Option (List M)} {G : ℤ → M} (h : Adds (wi * wj) body G)
    (G2 : ℤ → ℤ → M) (hG : ∀ i j, (0 ≤ i ∧ i < wi) → (0 ≤ j ∧ j < wj) → G (i + j * wi) = G2 i j)
    (buf : List M) (hb : (buf.length : ℤ) = wi * wj) :
    ∃ buf', body buf = some buf' ∧ Grew2 wi wj buf buf' G2 := by
  obtain ⟨ys, e, hl, hy⟩ := h.run buf hb
  refine ⟨ys, e, hl, fun i j hi hj => ?_⟩
  have hr := flat2_range hi hj
  obtain ⟨v, hv⟩ := rd_isSome (xs := buf) hr.1 (by omega)
  exact ⟨v, hv, by rw [hy _ v hr.1 hr.2 hv, hG i j hi hj]⟩

/-! ## C47 -/

theorem adds_ite {n : ℤ} {c : Prop} [Decidable c] {b1 b2 : List M → Option (List M)} {G1 G2 : ℤ → M}
    (h1 : c → Adds n b1 G1) (h2 : ¬ c → Adds n b2 G2) :
    Adds n (fun xs => if c then b1 xs else b2 xs) (fun i => if c then G1 i else G2 i) := by
  by_cases hc : c
  · simp only [if_pos hc]; exact h1 hc
  · simp only [if_neg hc]; exact h2 hc

theorem seg3_adds {bufCb : CellBounds} {xs : List Vec} {P : ℤ → Vec} {low high jump : ℤ} (hj : 0 < jump)
    (hP : ∀ idx ∈ visited low high jump, rd xs idx = some (P idx))
    (hin : ∀ idx ∈ visited low high jump, ∀ j, 0 ≤ P idx j ∧ P idx j < bufCb.width j) (dep : ℤ → M) :
    Adds (bufCb.width 0 * bufCb.width 1 * bufCb.width 2) (seg3Interpolate bufCb xs dep low high jump)
      (fun c => ∑ idx ∈ visited low high jump,
        if c = cellOf (P idx) 0 + cellOf (P idx) 1 * bufCb.width 0 +
          cellOf (P idx) 2 * (bufCb.width 0 * bufCb.width 1) then dep idx else 0) := by
  unfold seg3Interpolate
  refine adds_forStep hj fun idx hidx => ?_
  have hp := hin idx hidx
  have e : ∀ j, trunc (P idx j) = cellOf (P idx) j := fun j => trunc_of_nonneg (hp j).1
  have hc : IsCell bufCb.width (cellOf (P idx) 0) (cellOf (P idx) 1) (cellOf (P idx) 2) := by
    have f : ∀ j, 0 ≤ cellOf (P idx) j ∧ cellOf (P idx) j < bufCb.width j := fun j =>
      ⟨Int.floor_nonneg.mpr (hp j).1, Int.floor_lt.mpr (hp j).2⟩
    exact ⟨f 0, f 1, f 2⟩
  have key := adds_accum (flat_range hc).1 (flat_range hc).2 (dep idx)
  intro ys F hF
  obtain ⟨zs, e1, e2⟩ := key ys F hF
  refine ⟨zs, ?_, e2⟩
  rw [hP idx hidx]
  simp only [Option.bind_eq_bind, Option.bind_some, e]
  exact e1

/-- **C47** for the segment buffer: every sample point adds its value to the cell containing it, nothing else
changes, and the buffer grows by the sum of the values. -/
theorem C47_segment_partial (bufCb : CellBounds) (xs : List Vec) (P : ℤ → Vec) (low high jump : ℤ) (hj : 0 < jump)
    (hP : ∀ idx ∈ visited low high jump, rd xs idx = some (P idx))
    (hin : ∀ idx ∈ visited low high jump, ∀ j, 0 ≤ P idx j ∧ P idx j < bufCb.width j) (dep : ℤ → M) (buf : List M)
    (hb : (buf.length : ℤ) = bufCb.width 0 * bufCb.width 1 * bufCb.width 2) :
    ∃ buf', seg3Interpolate bufCb xs dep low high jump buf = some buf' ∧
      Grew3 bufCb.width buf buf' (fun x y z =>
        ∑ idx ∈ visited low high jump with cellOf (P idx) = ![x, y, z], dep idx) ∧
      buf'.sum = buf.sum + ∑ idx ∈ visited low high jump, dep idx := by
  have hA := seg3_adds hj hP hin dep
  have hcell : ∀ idx ∈ visited low high jump,
      IsCell bufCb.width (cellOf (P idx) 0) (cellOf (P idx) 1) (cellOf (P idx) 2) := by
    intro idx hidx
    have f : ∀ j, 0 ≤ cellOf (P idx) j ∧ cellOf (P idx) j < bufCb.width j := fun j =>
      ⟨Int.floor_nonneg.mpr (hin idx hidx j).1, Int.floor_lt.mpr (hin idx hidx j).2⟩
    exact ⟨f 0, f 1, f 2⟩
  obtain ⟨ys, e, hg⟩ := hA.grew3 (fun x y z =>
      ∑ idx ∈ visited low high jump with cellOf (P idx) = ![x, y, z], dep idx) (by
    intro x y z hc
    rw [Finset.sum_filter]
    refine Finset.sum_congr rfl fun idx hidx => ?_
    refine if_congr ?_ rfl rfl
    rw [flat_inj hc (hcell idx hidx)]
    constructor
    · rintro ⟨rfl, rfl, rfl⟩; funext j; fin_cases j <;> rfl
    · intro h; rw [h]; exact ⟨rfl, rfl, rfl⟩) buf hb
  refine ⟨ys, e, hg, ?_⟩
  rw [hA.sum hb e, Finset.sum_comm]
  congr 1
  refine Finset.sum_congr rfl fun idx hidx => ?_
  rw [Finset.sum_ite_eq', if_pos]
  rw [Finset.mem_Ico]
  exact flat_range (hcell idx hidx)

/-- The points of the domain strategy: each is shifted by one period towards the box if necessary. -/
theorem dom3_adds_with {fl : ℚ → ℤ} {bufCb : CellBounds} {cells : ℤ} {xs : List Vec} {P : ℤ → Vec} {low high jump : ℤ} (hj : 0 < jump)
    (hP : ∀ idx ∈ visited low high jump, rd xs idx = some (P idx))
    (hin : ∀ idx ∈ visited low high jump, ∀ j, -cells ≤ fl (P idx j) ∧ fl (P idx j) < 2 * cells)
    (dep : ℤ → M) :
    Adds (bufCb.width 0 * bufCb.width 1 * bufCb.width 2) (dom3InterpolateWith fl bufCb cells xs dep low high jump)
      (fun c => ∑ idx ∈ visited low high jump,
        if (fl (P idx 0) % cells < bufCb.width 0 ∧ fl (P idx 1) % cells < bufCb.width 1 ∧
            fl (P idx 2) % cells < bufCb.width 2) ∧
          c = fl (P idx 0) % cells + fl (P idx 1) % cells * bufCb.width 0 +
            fl (P idx 2) % cells * (bufCb.width 0 * bufCb.width 1) then dep idx else 0) := by
  unfold dom3InterpolateWith
  refine adds_forStep hj fun idx hidx => ?_
  have hp := hin idx hidx
  have e : ∀ j, bound (fl (P idx j)) cells = fl (P idx j) % cells := fun j =>
    bound_eq_emod (hp j).1 (hp j).2
  have hn : ∀ j, 0 ≤ fl (P idx j) % cells := fun j => Int.emod_nonneg _ (by have := hp j; omega)
  have key := adds_accum_if (M := M) (n := bufCb.width 0 * bufCb.width 1 * bufCb.width 2)
    (i := fl (P idx 0) % cells + fl (P idx 1) % cells * bufCb.width 0 +
      fl (P idx 2) % cells * (bufCb.width 0 * bufCb.width 1))
    (c := fl (P idx 0) % cells < bufCb.width 0 ∧ fl (P idx 1) % cells < bufCb.width 1 ∧
      fl (P idx 2) % cells < bufCb.width 2)
    (fun h => flat_range ⟨⟨hn 0, h.1⟩, ⟨hn 1, h.2.1⟩, ⟨hn 2, h.2.2⟩⟩) (dep idx)
  intro ys F hF
  obtain ⟨zs, e1, e2⟩ := key ys F hF
  refine ⟨zs, ?_, e2⟩
  rw [hP idx hidx]
  simp only [Option.bind_eq_bind, Option.bind_some, e]
  rw [← e1]
  by_cases c0 : fl (P idx 0) % cells < bufCb.width 0
  · by_cases c1 : fl (P idx 1) % cells < bufCb.width 1
    · by_cases c2 : fl (P idx 2) % cells < bufCb.width 2 <;> simp [c0, c1, c2]
    · simp [c0, c1]
  · simp [c0]

theorem dom3_adds {bufCb : CellBounds} {cells : ℤ} {xs : List Vec} {P : ℤ → Vec} {low high jump : ℤ} (hj : 0 < jump)
    (hP : ∀ idx ∈ visited low high jump, rd xs idx = some (P idx))
    (hin : ∀ idx ∈ visited low high jump, ∀ j, -cells ≤ intFloor (P idx j) ∧ intFloor (P idx j) < 2 * cells)
    (dep : ℤ → M) :
    Adds (bufCb.width 0 * bufCb.width 1 * bufCb.width 2) (dom3Interpolate bufCb cells xs dep low high jump)
      (fun c => ∑ idx ∈ visited low high jump,
        if (intFloor (P idx 0) % cells < bufCb.width 0 ∧ intFloor (P idx 1) % cells < bufCb.width 1 ∧
            intFloor (P idx 2) % cells < bufCb.width 2) ∧
          c = intFloor (P idx 0) % cells + intFloor (P idx 1) % cells * bufCb.width 0 +
            intFloor (P idx 2) % cells * (bufCb.width 0 * bufCb.width 1) then dep idx else 0) :=
  dom3_adds_with hj hP hin dep

theorem intFloor_of_pos {x : ℚ} (h : 0 < x) : intFloor x = ⌊x⌋ := by
  unfold intFloor
  rw [if_pos h, trunc_of_nonneg h.le]

/-- **C47** for the domain buffer, for points with positive coordinates inside the buffer. Missing: points with a
coordinate equal to zero (see `C47_domain_counterexample`). -/
theorem C47_domain_partial (bufCb : CellBounds) (cells : ℤ) (hw : ∀ j, bufCb.width j ≤ cells) (xs : List Vec)
    (P : ℤ → Vec) (low high jump : ℤ) (hj : 0 < jump)
    (hP : ∀ idx ∈ visited low high jump, rd xs idx = some (P idx))
    (hin : ∀ idx ∈ visited low high jump, ∀ j, 0 < P idx j ∧ P idx j < bufCb.width j) (dep : ℤ → M) (buf : List M)
    (hb : (buf.length : ℤ) = bufCb.width 0 * bufCb.width 1 * bufCb.width 2) :
    ∃ buf', dom3Interpolate bufCb cells xs dep low high jump buf = some buf' ∧
      Grew3 bufCb.width buf buf' (fun x y z =>
        ∑ idx ∈ visited low high jump with cellOf (P idx) = ![x, y, z], dep idx) ∧
      buf'.sum = buf.sum + ∑ idx ∈ visited low high jump, dep idx := by
  have hfl : ∀ idx ∈ visited low high jump, ∀ j, 0 ≤ cellOf (P idx) j ∧ cellOf (P idx) j < bufCb.width j := by
    intro idx hidx j
    exact ⟨Int.floor_nonneg.mpr (hin idx hidx j).1.le, Int.floor_lt.mpr (hin idx hidx j).2⟩
  have hif : ∀ idx ∈ visited low high jump, ∀ j, intFloor (P idx j) = cellOf (P idx) j := fun idx hidx j =>
    intFloor_of_pos (hin idx hidx j).1
  have hem : ∀ idx ∈ visited low high jump, ∀ j, intFloor (P idx j) % cells = cellOf (P idx) j := by
    intro idx hidx j
    rw [hif idx hidx j]
    exact Int.emod_eq_of_lt (hfl idx hidx j).1 ((hfl idx hidx j).2.trans_le (hw j))
  have hA := dom3_adds (bufCb := bufCb) (cells := cells) hj hP (fun idx hidx j => by
    rw [hif idx hidx j]
    have := hfl idx hidx j
    have := hw j
    omega) dep
  have hcell : ∀ idx ∈ visited low high jump,
      IsCell bufCb.width (cellOf (P idx) 0) (cellOf (P idx) 1) (cellOf (P idx) 2) := fun idx hidx =>
    ⟨hfl idx hidx 0, hfl idx hidx 1, hfl idx hidx 2⟩
  obtain ⟨ys, e, hg⟩ := hA.grew3 (fun x y z =>
      ∑ idx ∈ visited low high jump with cellOf (P idx) = ![x, y, z], dep idx) (by
    intro x y z hc
    rw [Finset.sum_filter]
    refine Finset.sum_congr rfl fun idx hidx => ?_
    refine if_congr ?_ rfl rfl
    rw [hem idx hidx, hem idx hidx, hem idx hidx, flat_inj hc (hcell idx hidx)]
    constructor
    · rintro ⟨_, rfl, rfl, rfl⟩; funext j; fin_cases j <;> rfl
    · intro h
      refine ⟨⟨(hfl idx hidx 0).2, (hfl idx hidx 1).2, (hfl idx hidx 2).2⟩, ?_⟩
      rw [h]; exact ⟨rfl, rfl, rfl⟩) buf hb
  refine ⟨ys, e, hg, ?_⟩
  rw [hA.sum hb e, Finset.sum_comm]
  congr 1
  refine Finset.sum_congr rfl fun idx hidx => ?_
  rw [hem idx hidx, hem idx hidx, hem idx hidx]
  simp only [(hfl idx hidx 0).2, (hfl idx hidx 1).2, (hfl idx hidx 2).2, and_self, true_and]
  rw [Finset.sum_ite_eq', if_pos]
  rw [Finset.mem_Ico]
  exact flat_range (hcell idx hidx)

/-- Two points in a buffer of 2 x 1 x 1 cells. -/
example : seg3Interpolate ⟨![5, 5, 5], ![2, 1, 1]⟩ [![1/2, 1/4, 0], ![3/2, 1/2, 1/2]] (fun i => (3 : ℚ) + i) 0 2 1
    [10, 20] = some [13, 24] ∧
    dom3Interpolate ⟨![5, 5, 5], ![2, 1, 1]⟩ 8 [![1/2, 1/4, 1/8], ![3/2, 1/2, 1/2]] (fun i => (3 : ℚ) + i) 0 2 1
    [10, 20] = some [13, 24] := by decide +kernel

example : ∃ (bufCb : CellBounds) (xs : List Vec) (P : ℤ → Vec),
    (∀ idx ∈ visited 0 2 1, rd xs idx = some (P idx)) ∧
    (∀ idx ∈ visited 0 2 1, ∀ j, 0 < P idx j ∧ P idx j < bufCb.width j) ∧ ∀ j, bufCb.width j ≤ 8 := by
  refine ⟨⟨![5, 5, 5], ![2, 1, 1]⟩, [![1/2, 1/4, 1/8], ![3/2, 1/2, 1/2]],
    fun i => if i = 0 then ![1/2, 1/4, 1/8] else ![3/2, 1/2, 1/2], ?_, ?_, ?_⟩
  all_goals decide +kernel

/-- A sample point inside the domain buffer whose first coordinate is exactly zero is lost: `intFloor 0 = -1`, so
the point is taken for one outside the buffer. -/
theorem C47_domain_counterexample :
    ¬ ∀ (bufCb : CellBounds) (cells : ℤ) (p : Vec) (buf : List ℚ), (∀ j, bufCb.width j ≤ cells) →
      (∀ j, 0 ≤ p j ∧ p j < bufCb.width j) → (buf.length : ℤ) = bufCb.width 0 * bufCb.width 1 * bufCb.width 2 →
      ∃ buf', dom3Interpolate bufCb cells [p] (fun _ => 1) 0 1 1 buf = some buf' ∧ buf'.sum = buf.sum + 1 := by
  intro h
  obtain ⟨buf', e, hs⟩ := h ⟨![0, 0, 0], ![1, 1, 1]⟩ 4 ![0, 1/2, 1/2] [0] (by decide +kernel) (by decide +kernel)
    (by decide +kernel)
  rw [show dom3Interpolate ⟨![0, 0, 0], ![1, 1, 1]⟩ 4 [![0, 1/2, 1/2]] (fun _ => (1 : ℚ)) 0 1 1 [0] = some [0] by
    decide +kernel] at e
  obtain rfl := Option.some.inj e
  norm_num at hs

end Verif.Render
