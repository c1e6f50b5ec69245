import Mathlib.Tactic.IntervalCases
import Verif.Render.Boxes
import Verif.Render.Image

/-!
# Projected images: C50
-/

set_option autoImplicit false

namespace Verif.Render

open Verif.Go Verif.Geom

variable {M : Type} [AddCommMonoid M]

/-- The voxel at depth `k` behind pixel `(i, j)` of a projection along axis `proj`. -/
def voxel (proj i j k : ℤ) : IVec :=
  if proj = 0 then ![k, i, j] else if proj = 1 then ![i, k, j] else ![i, j, k]

theorem voxel_dims (proj i j k : ℤ) : voxel proj i j k (projDims proj).1 = i ∧
    voxel proj i j k (projDims proj).2.1 = j ∧ voxel proj i j k (projDims proj).2.2 = k := by
  unfold voxel projDims
  split_ifs <;> exact ⟨rfl, rfl, rfl⟩

theorem forall_dims (proj : ℤ) (p : Fin 3 → Prop) :
    (∀ j, p j) ↔ p (projDims proj).1 ∧ p (projDims proj).2.1 ∧ p (projDims proj).2.2 := by
  constructor
  · intro h; exact ⟨h _, h _, h _⟩
  · unfold projDims
    split_ifs <;> rintro ⟨a, b, c⟩ j <;> fin_cases j <;> assumption

/-- The points seen in pixel `(i, j)`: those in the column of the pixel and inside the image in depth. -/
def InPixel (cells proj : ℤ) (domCb : CellBounds) (g : IVec) (i j : ℤ) : Prop :=
  (cells ∣ g (projDims proj).1 - (i + domCb.origin (projDims proj).1)) ∧
  (cells ∣ g (projDims proj).2.1 - (j + domCb.origin (projDims proj).2.1)) ∧
  (g (projDims proj).2.2 - domCb.origin (projDims proj).2.2) % cells < domCb.width (projDims proj).2.2

instance (cells proj : ℤ) (domCb : CellBounds) (g : IVec) (i j : ℤ) : Decidable (InPixel cells proj domCb g i j) := by
  unfold InPixel; infer_instance

/-- The voxels behind a pixel hold together exactly the points seen in the pixel. -/
theorem sum_depth {cells proj : ℤ} {domCb : CellBounds} (hc : 0 < cells)
    (hw : domCb.width (projDims proj).2.2 ≤ cells) (S : Finset ℤ)
    (g : ℤ → IVec) (dep : ℤ → M) (i j : ℤ) :
    ∑ k ∈ Finset.Ico 0 (domCb.width (projDims proj).2.2), imageAt cells domCb S g dep (voxel proj i j k 0)
      (voxel proj i j k 1) (voxel proj i j k 2) = ∑ idx ∈ S with InPixel cells proj domCb (g idx) i j, dep idx := by
  unfold imageAt
  simp only [Finset.sum_filter]
  rw [Finset.sum_comm]
  refine Finset.sum_congr rfl fun idx _ => ?_
  have hv : ∀ k, (![voxel proj i j k 0, voxel proj i j k 1, voxel proj i j k 2] : IVec) = voxel proj i j k := by
    intro k; funext j; fin_cases j <;> rfl
  have hiff : ∀ k ∈ Finset.Ico 0 (domCb.width (projDims proj).2.2),
      ((∀ a, cells ∣ g idx a - ((![voxel proj i j k 0, voxel proj i j k 1, voxel proj i j k 2] : IVec) a +
        domCb.origin a)) ↔
      (InPixel cells proj domCb (g idx) i j ∧
        k = (g idx (projDims proj).2.2 - domCb.origin (projDims proj).2.2) % cells)) := by
    intro k hk
    rw [Finset.mem_Ico] at hk
    rw [hv, forall_dims proj, (voxel_dims proj i j k).1, (voxel_dims proj i j k).2.1, (voxel_dims proj i j k).2.2,
      show g idx (projDims proj).2.2 - (k + domCb.origin (projDims proj).2.2) =
        g idx (projDims proj).2.2 - domCb.origin (projDims proj).2.2 - k by ring,
      ← emod_eq_iff hk.1 (by omega)]
    unfold InPixel
    constructor
    · rintro ⟨a, b, c⟩; exact ⟨⟨a, b, by omega⟩, c.symm⟩
    · rintro ⟨⟨a, b, _⟩, c⟩; exact ⟨a, b, c.symm⟩
  rw [Finset.sum_congr rfl fun k hk => if_congr (hiff k hk) rfl rfl]
  by_cases hp : InPixel cells proj domCb (g idx) i j
  · simp only [hp, true_and, if_true]
    rw [Finset.sum_ite_eq', if_pos]
    rw [Finset.mem_Ico]
    exact ⟨Int.emod_nonneg _ hc.ne', hp.2.2⟩
  · simp only [hp, false_and, if_false, Finset.sum_const_zero]

/-- The same for an image of any depth: only its first `cells` layers count. -/
theorem sum_depth_wide {cells proj : ℤ} {domCb : CellBounds} (hc : 0 < cells) (S : Finset ℤ)
    (g : ℤ → IVec) (dep : ℤ → M) (i j : ℤ) :
    ∑ k ∈ Finset.Ico 0 (min (domCb.width (projDims proj).2.2) cells), imageAt cells domCb S g dep (voxel proj i j k 0)
      (voxel proj i j k 1) (voxel proj i j k 2) = ∑ idx ∈ S with InPixel cells proj domCb (g idx) i j, dep idx := by
  refine (sum_depth (domCb := ⟨domCb.origin, fun a => min (domCb.width a) cells⟩) hc (min_le_right _ _) S g dep i
    j).trans ?_
  congr 1
  refine Finset.filter_congr fun idx _ => ?_
  unfold InPixel
  dsimp only
  rw [lt_min_iff, and_iff_left (Int.emod_lt_of_pos _ hc)]

theorem intFloor_le (x : ℚ) : intFloor x ≤ ⌊x⌋ := by
  by_cases h : x ≤ 0 ∧ ∃ n : ℤ, x = n
  · have := (C52_intFloor_partial x).2 h
    omega
  · exact ((C52_intFloor_partial x).1.mpr h).le

theorem le_intFloor (x : ℚ) : ⌊x⌋ - 1 ≤ intFloor x := by
  by_cases h : x ≤ 0 ∧ ∃ n : ℤ, x = n
  · exact ((C52_intFloor_partial x).2 h).ge
  · have := (C52_intFloor_partial x).1.mpr h
    omega

/-- The points of a projected segment buffer, also at depth zero. -/
theorem seg2_adds_with {fl : ℚ → ℤ} {bufCb domCb : CellBounds} {cells proj : ℤ} (h : Near cells bufCb domCb) {xs : List Vec}
    {P : ℤ → Vec} {low high jump : ℤ} (hj : 0 < jump)
    (hP : ∀ idx ∈ visited low high jump, rd xs idx = some (P idx))
    (hf : ∀ idx ∈ visited low high jump, -cells ≤ fl (P idx (projDims proj).2.2) +
      bufCb.origin (projDims proj).2.2 - domCb.origin (projDims proj).2.2)
    (hfl : ∀ idx ∈ visited low high jump, fl (P idx (projDims proj).2.2) ≤ cellOf (P idx) (projDims proj).2.2)
    (hin : ∀ idx ∈ visited low high jump, ∀ j, 0 ≤ P idx j ∧ P idx j < bufCb.width j) (dep : ℤ → M) :
    Adds (bufCb.width (projDims proj).1 * bufCb.width (projDims proj).2.1)
      (seg2InterpolateWith fl bufCb domCb cells proj xs dep low high jump)
      (fun c => ∑ idx ∈ visited low high jump,
        if (fl (P idx (projDims proj).2.2) + bufCb.origin (projDims proj).2.2 -
              domCb.origin (projDims proj).2.2) % cells < domCb.width (projDims proj).2.2 ∧
          c = cellOf (P idx) (projDims proj).1 + cellOf (P idx) (projDims proj).2.1 * bufCb.width (projDims proj).1
        then dep idx else 0) := by
  unfold seg2InterpolateWith
  generalize projDims proj = pd at hf hfl ⊢
  obtain ⟨iD, jD, kD⟩ := pd
  dsimp only at hf hfl ⊢
  refine adds_forStep hj fun idx hidx => ?_
  have hp := hin idx hidx
  have e : ∀ j, trunc (P idx j) = cellOf (P idx) j := fun j => trunc_of_nonneg (hp j).1
  have f : ∀ j, 0 ≤ cellOf (P idx) j ∧ cellOf (P idx) j < bufCb.width j := fun j =>
    ⟨Int.floor_nonneg.mpr (hp j).1, Int.floor_lt.mpr (hp j).2⟩
  have hd : fl (P idx kD) ≤ cellOf (P idx) kD := hfl idx hidx
  have hl := hf idx hidx
  have ek : bound (fl (P idx kD) - (domCb.origin kD - bufCb.origin kD)) cells =
      (fl (P idx kD) + bufCb.origin kD - domCb.origin kD) % cells := by
    rw [show fl (P idx kD) - (domCb.origin kD - bufCb.origin kD) =
      fl (P idx kD) + bufCb.origin kD - domCb.origin kD by ring]
    have := h kD
    have := f kD
    exact bound_eq_emod hl (by omega)
  have hnn : 0 ≤ (fl (P idx kD) + bufCb.origin kD - domCb.origin kD) % cells := by
    refine Int.emod_nonneg _ ?_
    have := h kD
    have := f kD
    omega
  have hr := flat2_range (f iD) (f jD)
  have key := adds_accum_if (M := M) (n := bufCb.width iD * bufCb.width jD)
    (i := cellOf (P idx) iD + cellOf (P idx) jD * bufCb.width iD)
    (c := (fl (P idx kD) + bufCb.origin kD - domCb.origin kD) % cells < domCb.width kD)
    (fun _ => hr) (dep idx)
  intro ys F hF
  obtain ⟨zs, e1, e2⟩ := key ys F hF
  refine ⟨zs, ?_, e2⟩
  rw [hP idx hidx]
  simp only [Option.bind_eq_bind, Option.bind_some, e, ek]
  rw [← e1]
  beta_reduce
  by_cases c : (fl (P idx kD) + bufCb.origin kD - domCb.origin kD) % cells < domCb.width kD
  · rw [if_pos ⟨c, hnn⟩, if_pos c]
  · rw [if_neg (fun hh => c hh.1), if_neg c]

theorem seg2_adds_any {bufCb domCb : CellBounds} {cells proj : ℤ} (h : Near cells bufCb domCb) {xs : List Vec}
    {P : ℤ → Vec} {low high jump : ℤ} (hj : 0 < jump)
    (hP : ∀ idx ∈ visited low high jump, rd xs idx = some (P idx))
    (hf : ∀ idx ∈ visited low high jump, -cells ≤ intFloor (P idx (projDims proj).2.2) +
      bufCb.origin (projDims proj).2.2 - domCb.origin (projDims proj).2.2)
    (hin : ∀ idx ∈ visited low high jump, ∀ j, 0 ≤ P idx j ∧ P idx j < bufCb.width j) (dep : ℤ → M) :
    Adds (bufCb.width (projDims proj).1 * bufCb.width (projDims proj).2.1)
      (seg2Interpolate bufCb domCb cells proj xs dep low high jump)
      (fun c => ∑ idx ∈ visited low high jump,
        if (intFloor (P idx (projDims proj).2.2) + bufCb.origin (projDims proj).2.2 -
              domCb.origin (projDims proj).2.2) % cells < domCb.width (projDims proj).2.2 ∧
          c = cellOf (P idx) (projDims proj).1 + cellOf (P idx) (projDims proj).2.1 * bufCb.width (projDims proj).1
        then dep idx else 0) :=
  seg2_adds_with h hj hP hf (fun _ _ => intFloor_le _) hin dep

theorem seg2_adds {bufCb domCb : CellBounds} {cells proj : ℤ} (h : Near cells bufCb domCb) {xs : List Vec}
    {P : ℤ → Vec} {low high jump : ℤ} (hj : 0 < jump)
    (hP : ∀ idx ∈ visited low high jump, rd xs idx = some (P idx))
    (hf : ∀ idx ∈ visited low high jump, P idx (projDims proj).2.2 ≠ 0)
    (hin : ∀ idx ∈ visited low high jump, ∀ j, 0 ≤ P idx j ∧ P idx j < bufCb.width j) (dep : ℤ → M) :
    Adds (bufCb.width (projDims proj).1 * bufCb.width (projDims proj).2.1)
      (seg2Interpolate bufCb domCb cells proj xs dep low high jump)
      (fun c => ∑ idx ∈ visited low high jump,
        if (cellOf (P idx) (projDims proj).2.2 + bufCb.origin (projDims proj).2.2 -
              domCb.origin (projDims proj).2.2) % cells < domCb.width (projDims proj).2.2 ∧
          c = cellOf (P idx) (projDims proj).1 + cellOf (P idx) (projDims proj).2.1 * bufCb.width (projDims proj).1
        then dep idx else 0) := by
  have hfl : ∀ idx ∈ visited low high jump,
      intFloor (P idx (projDims proj).2.2) = cellOf (P idx) (projDims proj).2.2 := fun idx hidx =>
    intFloor_of_pos (lt_of_le_of_ne (hin idx hidx _).1 (hf idx hidx).symm)
  refine adds_congr (seg2_adds_any h hj hP (fun idx hidx => ?_) hin dep) fun c _ _ => ?_
  · rw [hfl idx hidx]
    have h0 : 0 ≤ cellOf (P idx) (projDims proj).2.2 := Int.floor_nonneg.mpr (hin idx hidx _).1
    have := (h (projDims proj).2.2).1
    omega
  · exact Finset.sum_congr rfl fun idx hidx => by rw [hfl idx hidx]

/-- Image of the points through a projected segment buffer. -/
theorem segment_image2 (cells proj : ℤ) (bufCb domCb : CellBounds) (h : Placed cells bufCb domCb) (hc : 0 < cells)
    (hw : ∀ j, 0 ≤ bufCb.width j) (xs : List Vec)
    (P : ℤ → Vec) (low high jump : ℤ) (hj : 0 < jump)
    (hP : ∀ idx ∈ visited low high jump, rd xs idx = some (P idx))
    (hf : ∀ idx ∈ visited low high jump, P idx (projDims proj).2.2 ≠ 0)
    (hin : ∀ idx ∈ visited low high jump, ∀ j, 0 ≤ P idx j ∧ P idx j < bufCb.width j) (dep : ℤ → M) (grid : List M)
    (hg : (grid.length : ℤ) = domCb.width (projDims proj).1 * domCb.width (projDims proj).2.1) :
    ∃ buf grid', seg2Interpolate bufCb domCb cells proj xs dep low high jump (List.replicate
        (bufCb.width (projDims proj).1 * bufCb.width (projDims proj).2.1).toNat 0) = some buf ∧
      seg2Add bufCb domCb cells proj buf grid = some grid' ∧
      Grew2 (domCb.width (projDims proj).1) (domCb.width (projDims proj).2.1) grid grid' (fun i j =>
        ∑ k ∈ Finset.Ico 0 (domCb.width (projDims proj).2.2), imageAt cells domCb (visited low high jump)
          (fun idx a => cellOf (P idx) a + bufCb.origin a) dep (voxel proj i j k 0) (voxel proj i j k 1)
          (voxel proj i j k 2)) := by
  have hA := seg2_adds (proj := proj) h.near hj hP hf hin dep
  have hn : 0 ≤ bufCb.width (projDims proj).1 * bufCb.width (projDims proj).2.1 := mul_nonneg (hw _) (hw _)
  have hz := cells_zero (M := M) (bufCb.width (projDims proj).1 * bufCb.width (projDims proj).2.1).toNat
  rw [Int.toNat_of_nonneg hn] at hz
  obtain ⟨buf, e, hb⟩ := hA _ _ hz
  obtain ⟨G, hB, hG⟩ := seg2Add_adds (proj := proj) h hb
  refine ⟨buf, ?_⟩
  obtain ⟨grid', e', hgr⟩ := hB.grew2 (fun i j =>
        ∑ k ∈ Finset.Ico 0 (domCb.width (projDims proj).2.2), imageAt cells domCb (visited low high jump)
          (fun idx a => cellOf (P idx) a + bufCb.origin a) dep (voxel proj i j k 0) (voxel proj i j k 1)
          (voxel proj i j k 2)) (fun i j hi hj' => by
    rw [sum_depth hc (h _).1, hG i j hi hj']
    rw [Finset.sum_filter, Finset.sum_filter]
    calc _ = ∑ b ∈ rectCells (bufCb.width (projDims proj).1) (bufCb.width (projDims proj).2.1),
          ∑ idx ∈ visited low high jump,
          (if b = (cellOf (P idx) (projDims proj).1, cellOf (P idx) (projDims proj).2.1) then
            (if InPixel cells proj domCb (fun a => cellOf (P idx) a + bufCb.origin a) i j then dep idx
              else 0) else 0) := by
          refine Finset.sum_congr rfl fun b hbm => ?_
          simp only [rectCells, Finset.mem_product, Finset.mem_Ico] at hbm
          have hcell : ∀ idx ∈ visited low high jump, (b.1 + b.2 * bufCb.width (projDims proj).1 =
              cellOf (P idx) (projDims proj).1 + cellOf (P idx) (projDims proj).2.1 * bufCb.width (projDims proj).1 ↔
              b = (cellOf (P idx) (projDims proj).1, cellOf (P idx) (projDims proj).2.1)) := by
            intro idx hidx
            have f : ∀ j, 0 ≤ cellOf (P idx) j ∧ cellOf (P idx) j < bufCb.width j := fun j =>
              ⟨Int.floor_nonneg.mpr (hin idx hidx j).1, Int.floor_lt.mpr (hin idx hidx j).2⟩
            rw [flat2_inj hbm.1 hbm.2 (f _), Prod.ext_iff]
          have hplace : ∀ idx, b = (cellOf (P idx) (projDims proj).1, cellOf (P idx) (projDims proj).2.1) →
              (InPixel cells proj domCb (fun a => cellOf (P idx) a + bufCb.origin a) i j ↔
              (SamePlace cells bufCb domCb (projDims proj).1 b.1 i ∧
                SamePlace cells bufCb domCb (projDims proj).2.1 b.2 j) ∧
                (cellOf (P idx) (projDims proj).2.2 + bufCb.origin (projDims proj).2.2 -
                  domCb.origin (projDims proj).2.2) % cells < domCb.width (projDims proj).2.2) := by
            rintro idx rfl
            unfold InPixel SamePlace
            rw [and_assoc]
          by_cases c : SamePlace cells bufCb domCb (projDims proj).1 b.1 i ∧
                SamePlace cells bufCb domCb (projDims proj).2.1 b.2 j
          · rw [if_pos c, zero_add]
            refine Finset.sum_congr rfl fun idx hidx => ?_
            by_cases hb' : b = (cellOf (P idx) (projDims proj).1, cellOf (P idx) (projDims proj).2.1)
            · rw [if_pos hb']
              refine if_congr ?_ rfl rfl
              rw [hplace idx hb']
              constructor
              · rintro ⟨a, _⟩; exact ⟨c, a⟩
              · rintro ⟨_, a⟩; exact ⟨a, (hcell idx hidx).mpr hb'⟩
            · rw [if_neg (fun hh => hb' ((hcell idx hidx).mp hh.2)), if_neg hb']
          · rw [if_neg c]
            refine (Finset.sum_eq_zero fun idx _ => ?_).symm
            by_cases hb' : b = (cellOf (P idx) (projDims proj).1, cellOf (P idx) (projDims proj).2.1)
            · rw [if_pos hb', if_neg (fun hh => c ((hplace idx hb').mp hh).1)]
            · rw [if_neg hb']
      _ = _ := by
          rw [Finset.sum_comm]
          refine Finset.sum_congr rfl fun idx hidx => ?_
          rw [Finset.sum_ite_eq', if_pos]
          simp only [rectCells, Finset.mem_product, Finset.mem_Ico]
          have f : ∀ j, 0 ≤ cellOf (P idx) j ∧ cellOf (P idx) j < bufCb.width j := fun j =>
            ⟨Int.floor_nonneg.mpr (hin idx hidx j).1, Int.floor_lt.mpr (hin idx hidx j).2⟩
          exact ⟨f _, f _⟩) grid hg
  exact ⟨grid', e, e', hgr⟩

/-- The points of a projected domain buffer. -/
theorem dom2_adds_with {fl : ℚ → ℤ} {domCb : CellBounds} {cells proj : ℤ} {xs : List Vec} {P : ℤ → Vec} {low high jump : ℤ}
    (hj : 0 < jump) (hP : ∀ idx ∈ visited low high jump, rd xs idx = some (P idx))
    (hin : ∀ idx ∈ visited low high jump, ∀ j, -cells ≤ fl (P idx j) ∧ fl (P idx j) < 2 * cells)
    (dep : ℤ → M) :
    Adds (domCb.width (projDims proj).1 * domCb.width (projDims proj).2.1)
      (dom2InterpolateWith fl domCb cells proj xs dep low high jump)
      (fun c => ∑ idx ∈ visited low high jump,
        if (fl (P idx (projDims proj).1) % cells < domCb.width (projDims proj).1 ∧
            fl (P idx (projDims proj).2.1) % cells < domCb.width (projDims proj).2.1 ∧
            fl (P idx (projDims proj).2.2) % cells < domCb.width (projDims proj).2.2) ∧
          c = fl (P idx (projDims proj).1) % cells +
            fl (P idx (projDims proj).2.1) % cells * domCb.width (projDims proj).1 then dep idx else 0) := by
  unfold dom2InterpolateWith
  generalize projDims proj = pd
  obtain ⟨iD, jD, kD⟩ := pd
  dsimp only
  refine adds_forStep hj fun idx hidx => ?_
  have hp := hin idx hidx
  have e : ∀ j, bound (fl (P idx j)) cells = fl (P idx j) % cells := fun j =>
    bound_eq_emod (hp j).1 (hp j).2
  have hn : ∀ j, 0 ≤ fl (P idx j) % cells := fun j => Int.emod_nonneg _ (by have := hp j; omega)
  have key := adds_accum_if (M := M) (n := domCb.width iD * domCb.width jD)
    (i := fl (P idx iD) % cells + fl (P idx jD) % cells * domCb.width iD)
    (c := fl (P idx iD) % cells < domCb.width iD ∧ fl (P idx jD) % cells < domCb.width jD ∧
      fl (P idx kD) % cells < domCb.width kD)
    (fun h => flat2_range ⟨hn iD, h.1⟩ ⟨hn jD, h.2.1⟩) (dep idx)
  intro ys F hF
  obtain ⟨zs, e1, e2⟩ := key ys F hF
  refine ⟨zs, ?_, e2⟩
  rw [hP idx hidx]
  simp only [Option.bind_eq_bind, Option.bind_some, e]
  rw [← e1]
  by_cases c0 : fl (P idx iD) % cells < domCb.width iD
  · by_cases c1 : fl (P idx jD) % cells < domCb.width jD
    · by_cases c2 : fl (P idx kD) % cells < domCb.width kD <;> simp [c0, c1, c2]
    · simp [c0, c1]
  · simp [c0]

theorem dom2_adds_any {domCb : CellBounds} {cells proj : ℤ} {xs : List Vec} {P : ℤ → Vec} {low high jump : ℤ}
    (hj : 0 < jump) (hP : ∀ idx ∈ visited low high jump, rd xs idx = some (P idx))
    (hin : ∀ idx ∈ visited low high jump, ∀ j, -cells ≤ intFloor (P idx j) ∧ intFloor (P idx j) < 2 * cells)
    (dep : ℤ → M) :
    Adds (domCb.width (projDims proj).1 * domCb.width (projDims proj).2.1)
      (dom2Interpolate domCb cells proj xs dep low high jump)
      (fun c => ∑ idx ∈ visited low high jump,
        if (intFloor (P idx (projDims proj).1) % cells < domCb.width (projDims proj).1 ∧
            intFloor (P idx (projDims proj).2.1) % cells < domCb.width (projDims proj).2.1 ∧
            intFloor (P idx (projDims proj).2.2) % cells < domCb.width (projDims proj).2.2) ∧
          c = intFloor (P idx (projDims proj).1) % cells +
            intFloor (P idx (projDims proj).2.1) % cells * domCb.width (projDims proj).1 then dep idx else 0) :=
  dom2_adds_with hj hP hin dep

theorem dom2_adds {domCb : CellBounds} {cells proj : ℤ} {xs : List Vec} {P : ℤ → Vec} {low high jump : ℤ}
    (hj : 0 < jump) (hP : ∀ idx ∈ visited low high jump, rd xs idx = some (P idx))
    (hf : ∀ idx ∈ visited low high jump, FloorOk (P idx))
    (hin : ∀ idx ∈ visited low high jump, ∀ j, -cells ≤ cellOf (P idx) j ∧ cellOf (P idx) j < 2 * cells)
    (dep : ℤ → M) :
    Adds (domCb.width (projDims proj).1 * domCb.width (projDims proj).2.1)
      (dom2Interpolate domCb cells proj xs dep low high jump)
      (fun c => ∑ idx ∈ visited low high jump,
        if (cellOf (P idx) (projDims proj).1 % cells < domCb.width (projDims proj).1 ∧
            cellOf (P idx) (projDims proj).2.1 % cells < domCb.width (projDims proj).2.1 ∧
            cellOf (P idx) (projDims proj).2.2 % cells < domCb.width (projDims proj).2.2) ∧
          c = cellOf (P idx) (projDims proj).1 % cells +
            cellOf (P idx) (projDims proj).2.1 % cells * domCb.width (projDims proj).1 then dep idx else 0) := by
  refine adds_congr (dom2_adds_any (proj := proj) hj hP (fun idx hidx j => ?_) dep) fun c _ _ => ?_
  · rw [hf idx hidx j]
    exact hin idx hidx j
  · exact Finset.sum_congr rfl fun idx hidx => by simp only [hf idx hidx _]; rfl

/-- Image of the points through a projected domain buffer. -/
theorem domain_image2 (cells proj : ℤ) (domCb : CellBounds) (hc : 0 < cells)
    (hw : ∀ j, 0 ≤ domCb.width j ∧ domCb.width j ≤ cells) (xs : List Vec)
    (Q : ℤ → Vec) (low high jump : ℤ) (hj : 0 < jump)
    (hQ : ∀ idx ∈ visited low high jump, rd xs idx = some (Q idx))
    (hf : ∀ idx ∈ visited low high jump, FloorOk (Q idx))
    (hin : ∀ idx ∈ visited low high jump, ∀ j, -cells ≤ Q idx j ∧ Q idx j < 2 * cells) (dep : ℤ → M) (grid : List M)
    (hg : (grid.length : ℤ) = domCb.width (projDims proj).1 * domCb.width (projDims proj).2.1) :
    ∃ buf grid', dom2Interpolate domCb cells proj xs dep low high jump (List.replicate
        (domCb.width (projDims proj).1 * domCb.width (projDims proj).2.1).toNat 0) = some buf ∧
      domAdd buf grid = some grid' ∧
      Grew2 (domCb.width (projDims proj).1) (domCb.width (projDims proj).2.1) grid grid' (fun i j =>
        ∑ k ∈ Finset.Ico 0 (domCb.width (projDims proj).2.2), imageAt cells domCb (visited low high jump)
          (fun idx a => cellOf (Q idx) a + domCb.origin a) dep (voxel proj i j k 0) (voxel proj i j k 1)
          (voxel proj i j k 2)) := by
  have hfl : ∀ idx ∈ visited low high jump, ∀ j, -cells ≤ cellOf (Q idx) j ∧ cellOf (Q idx) j < 2 * cells := by
    intro idx hidx j
    constructor
    · exact Int.le_floor.mpr (by push_cast; exact (hin idx hidx j).1)
    · exact Int.floor_lt.mpr (by push_cast; exact (hin idx hidx j).2)
  have hA := dom2_adds (domCb := domCb) (proj := proj) hj hQ hf hfl dep
  have hn : 0 ≤ domCb.width (projDims proj).1 * domCb.width (projDims proj).2.1 := mul_nonneg (hw _).1 (hw _).1
  have hz := cells_zero (M := M) (domCb.width (projDims proj).1 * domCb.width (projDims proj).2.1).toNat
  rw [Int.toNat_of_nonneg hn] at hz
  obtain ⟨buf, e, hb⟩ := hA _ _ hz
  refine ⟨buf, ?_⟩
  obtain ⟨grid', e', hgr⟩ := (domAdd_adds hb).grew2 (fun i j =>
        ∑ k ∈ Finset.Ico 0 (domCb.width (projDims proj).2.2), imageAt cells domCb (visited low high jump)
          (fun idx a => cellOf (Q idx) a + domCb.origin a) dep (voxel proj i j k 0) (voxel proj i j k 1)
          (voxel proj i j k 2)) (fun i j hi hj' => by
    rw [sum_depth hc (hw _).2, zero_add, Finset.sum_filter]
    refine Finset.sum_congr rfl fun idx hidx => if_congr ?_ rfl rfl
    have hem : ∀ a d, 0 ≤ d → d < domCb.width a → (cellOf (Q idx) a % cells = d ↔
        cells ∣ cellOf (Q idx) a + domCb.origin a - (d + domCb.origin a)) := by
      intro a d d0 d1
      rw [emod_eq_iff d0 (d1.trans_le (hw a).2)]
      rw [show cellOf (Q idx) a + domCb.origin a - (d + domCb.origin a) = cellOf (Q idx) a - d by ring]
    have hnn : ∀ a, 0 ≤ cellOf (Q idx) a % cells := fun a => Int.emod_nonneg _ hc.ne'
    unfold InPixel
    rw [← hem _ i hi.1 hi.2, ← hem _ j hj'.1 hj'.2, add_sub_cancel_right]
    constructor
    · rintro ⟨⟨c0, c1, c2⟩, eq⟩
      rw [flat2_inj hi hj' ⟨hnn _, c0⟩] at eq
      exact ⟨eq.1.symm, eq.2.symm, c2⟩
    · rintro ⟨a, b, c⟩
      rw [a, b]
      exact ⟨⟨hi.2, hj'.2, c⟩, rfl⟩) grid hg
  exact ⟨grid', e, e', hgr⟩

theorem imageAt_smul [Module ℚ M] (cells : ℤ) (domCb : CellBounds) (S : Finset ℤ) (g : ℤ → IVec) (dep : ℤ → M)
    (c : ℚ) (x y z : ℤ) :
    imageAt cells domCb S g (fun idx => c • dep idx) x y z = c • imageAt cells domCb S g dep x y z := by
  unfold imageAt
  rw [Finset.smul_sum]

/-- The buffer of a projection has one entry per pixel. -/
theorem bufferSize2_eq (cb : CellBounds) (proj : ℤ) (hp : 0 ≤ proj ∧ proj < 3) :
    bufferSize2 cb proj = cb.width (projDims proj).1 * cb.width (projDims proj).2.1 := by
  obtain ⟨h0, h1⟩ := hp
  unfold bufferSize2 projDims
  interval_cases proj <;> simp

/-- **C50**, segment strategy: a projected image (per-point values divided by the depth, as the code does) holds in
each pixel the sum of the voxels of the 3D image behind it, divided by the depth. Missing: depth coordinates for which
`intFloor` is not the floor (exactly zero), and images wider than the simulation box. -/
theorem C50_segment_partial [Module ℚ M] (cells proj : ℤ) (hp : 0 ≤ proj ∧ proj < 3) (bufCb domCb : CellBounds)
    (h : Placed cells bufCb domCb) (hc : 0 < cells) (hw : ∀ j, 0 ≤ bufCb.width j) (xs : List Vec)
    (P : ℤ → Vec) (low high jump : ℤ) (hj : 0 < jump)
    (hP : ∀ idx ∈ visited low high jump, rd xs idx = some (P idx))
    (hf : ∀ idx ∈ visited low high jump, P idx (projDims proj).2.2 ≠ 0)
    (hin : ∀ idx ∈ visited low high jump, ∀ j, 0 ≤ P idx j ∧ P idx j < bufCb.width j) (dep : ℤ → M)
    (grid2 grid3 : List M)
    (hg2 : (grid2.length : ℤ) = boxLen2 domCb proj)
    (hg3 : (grid3.length : ℤ) = boxLen3 domCb) :
    ∃ buf2 buf3 grid2' grid3' G3,
      seg2Interpolate bufCb domCb cells proj xs (fun idx => (domCb.width (projDims proj).2.2 : ℚ)⁻¹ • dep idx) low high
        jump (List.replicate (bufferSize2 bufCb proj).toNat 0) = some buf2 ∧
      seg2Add bufCb domCb cells proj buf2 grid2 = some grid2' ∧
      seg3Interpolate bufCb xs dep low high jump
        (List.replicate (bufferSize3 bufCb).toNat 0) = some buf3 ∧
      seg3Add bufCb domCb cells buf3 grid3 = some grid3' ∧
      Grew3 domCb.width grid3 grid3' G3 ∧
      Grew2 (domCb.width (projDims proj).1) (domCb.width (projDims proj).2.1) grid2 grid2' (fun i j =>
        (domCb.width (projDims proj).2.2 : ℚ)⁻¹ • ∑ k ∈ Finset.Ico 0 (domCb.width (projDims proj).2.2),
          G3 (voxel proj i j k 0) (voxel proj i j k 1) (voxel proj i j k 2)) := by
  rw [bufferSize2_eq _ _ hp]
  obtain ⟨b3, g3, e1, e2, h3⟩ := segment_image cells bufCb domCb h hw xs P low high jump hj hP hin dep grid3 hg3
  obtain ⟨b2, g2, e3, e4, h2⟩ := segment_image2 cells proj bufCb domCb h hc hw xs P low high jump hj hP hf hin
    (fun idx => (domCb.width (projDims proj).2.2 : ℚ)⁻¹ • dep idx) grid2 hg2
  refine ⟨b2, b3, g2, g3, _, e3, e4, e1, e2, h3, ?_⟩
  simpa only [imageAt_smul, ← Finset.smul_sum] using h2

/-- **C50**, domain strategy. -/
theorem C50_domain_partial [Module ℚ M] (cells proj : ℤ) (hp : 0 ≤ proj ∧ proj < 3) (domCb : CellBounds)
    (hc : 0 < cells) (hw : ∀ j, 0 ≤ domCb.width j ∧ domCb.width j ≤ cells) (xs : List Vec)
    (Q : ℤ → Vec) (low high jump : ℤ) (hj : 0 < jump)
    (hQ : ∀ idx ∈ visited low high jump, rd xs idx = some (Q idx))
    (hf : ∀ idx ∈ visited low high jump, FloorOk (Q idx))
    (hin : ∀ idx ∈ visited low high jump, ∀ j, -cells ≤ Q idx j ∧ Q idx j < 2 * cells) (dep : ℤ → M)
    (grid2 grid3 : List M)
    (hg2 : (grid2.length : ℤ) = boxLen2 domCb proj)
    (hg3 : (grid3.length : ℤ) = boxLen3 domCb) :
    ∃ buf2 buf3 grid2' grid3' G3,
      dom2Interpolate domCb cells proj xs (fun idx => (domCb.width (projDims proj).2.2 : ℚ)⁻¹ • dep idx) low high
        jump (List.replicate (bufferSize2 domCb proj).toNat 0) = some buf2 ∧
      domAdd buf2 grid2 = some grid2' ∧
      dom3Interpolate domCb cells xs dep low high jump
        (List.replicate (bufferSize3 domCb).toNat 0) = some buf3 ∧
      domAdd buf3 grid3 = some grid3' ∧
      Grew3 domCb.width grid3 grid3' G3 ∧
      Grew2 (domCb.width (projDims proj).1) (domCb.width (projDims proj).2.1) grid2 grid2' (fun i j =>
        (domCb.width (projDims proj).2.2 : ℚ)⁻¹ • ∑ k ∈ Finset.Ico 0 (domCb.width (projDims proj).2.2),
          G3 (voxel proj i j k 0) (voxel proj i j k 1) (voxel proj i j k 2)) := by
  rw [bufferSize2_eq _ _ hp]
  obtain ⟨b3, g3, e1, e2, h3⟩ := domain_image cells domCb hw xs Q low high jump hj hQ hf hin dep grid3 hg3
  obtain ⟨b2, g2, e3, e4, h2⟩ := domain_image2 cells proj domCb hc hw xs Q low high jump hj hQ hf hin
    (fun idx => (domCb.width (projDims proj).2.2 : ℚ)⁻¹ • dep idx) grid2 hg2
  refine ⟨b2, b3, g2, g3, _, e3, e4, e1, e2, h3, ?_⟩
  simpa only [imageAt_smul, ← Finset.smul_sum] using h2

/-- Two points in one column (2 x 1 x 2 cells, projected along z), values 2 and 6, depth 2. -/
example :
    seg2Interpolate (M := ℚ) ⟨![0, 0, 0], ![2, 1, 2]⟩ ⟨![0, 0, 0], ![2, 1, 2]⟩ 8 2 [![1/2, 1/2, 1/2], ![1/3, 1/2, 3/2]]
      (fun i => (2 + 4 * i) / 2) 0 2 1 [0, 0] = some [4, 0] ∧
    seg3Interpolate (M := ℚ) ⟨![0, 0, 0], ![2, 1, 2]⟩ [![1/2, 1/2, 1/2], ![1/3, 1/2, 3/2]]
      (fun i => 2 + 4 * i) 0 2 1 [0, 0, 0, 0] = some [2, 0, 6, 0] ∧
    FloorOk ![1/2, 1/2, 1/2] ∧ FloorOk ![1/3, 1/2, 3/2] := by
  refine ⟨by decide +kernel, by decide +kernel, fun j => ?_, fun j => ?_⟩ <;> fin_cases j <;> decide +kernel

/-- A point at depth exactly zero is lost from the projected image but kept in the 3D image. -/
theorem C50_counterexample :
    ∃ (cb : CellBounds) (cells : ℤ) (p : Vec), Placed cells cb cb ∧ (∀ j, 0 ≤ p j ∧ p j < cb.width j) ∧
      seg2Interpolate (M := ℚ) cb cb cells 2 [p] (fun _ => 1) 0 1 1 [0] = some [0] ∧
      seg3Interpolate (M := ℚ) cb [p] (fun _ => 1) 0 1 1 [0] = some [1] := by
  refine ⟨⟨![0, 0, 0], ![1, 1, 1]⟩, 4, ![1/2, 1/2, 0], fun j => by fin_cases j <;> decide, ?_, ?_, ?_⟩
  all_goals decide +kernel

end Verif.Render
