import Verif.Render.Overlap
import Mathlib.Algebra.BigOperators.GroupWithZero.Action
import Mathlib.Algebra.Module.Rat
import Mathlib.Algebra.Module.Prod

/-!
# From sample points to the image: C48, C49, C50
-/

set_option autoImplicit false

namespace Verif.Render

open Verif.Go Verif.Geom

variable {M : Type} [AddCommMonoid M]

/-! ## Specification -/

/-- The buffer cell `b` and the image cell `d` are the same place of the periodic box on axis `j`. -/
def SamePlace (cells : ℤ) (bufCb domCb : CellBounds) (j : Fin 3) (b d : ℤ) : Prop :=
  cells ∣ (b + bufCb.origin j) - (d + domCb.origin j)

instance (cells : ℤ) (bufCb domCb : CellBounds) (j : Fin 3) (b d : ℤ) :
    Decidable (SamePlace cells bufCb domCb j b d) := by unfold SamePlace; infer_instance

/-- Value that points with absolute cell coordinates `g idx` and values `dep idx` add to image cell `(x, y, z)`. -/
def imageAt (cells : ℤ) (domCb : CellBounds) (S : Finset ℤ) (g : ℤ → IVec) (dep : ℤ → M) (x y z : ℤ) : M :=
  ∑ idx ∈ S with (∀ j, cells ∣ g idx j - ((![x, y, z] : IVec) j + domCb.origin j)), dep idx

/-- The sizes the renderer works with: boxes not larger than the simulation box, the offset between the boxes below
one period. -/
def Placed (cells : ℤ) (bufCb domCb : CellBounds) : Prop :=
  ∀ j, domCb.width j ≤ cells ∧ -cells ≤ bufCb.origin j - domCb.origin j ∧
    bufCb.origin j - domCb.origin j + bufCb.width j ≤ 2 * cells

/-- As `Placed`, for an image of any width. -/
def Near (cells : ℤ) (bufCb domCb : CellBounds) : Prop :=
  ∀ j, -cells ≤ bufCb.origin j - domCb.origin j ∧ bufCb.origin j - domCb.origin j + bufCb.width j ≤ 2 * cells

theorem Placed.near {cells : ℤ} {bufCb domCb : CellBounds} (h : Placed cells bufCb domCb) : Near cells bufCb domCb :=
  fun j => (h j).2

/-- The same place, in the first period of the image. -/
def AtPlace (cells : ℤ) (bufCb domCb : CellBounds) (j : Fin 3) (b d : ℤ) : Prop :=
  d < cells ∧ SamePlace cells bufCb domCb j b d

instance (cells : ℤ) (bufCb domCb : CellBounds) (j : Fin 3) (b d : ℤ) :
    Decidable (AtPlace cells bufCb domCb j b d) := by unfold AtPlace; infer_instance

/-! ## C48 -/

theorem place_iff {cells : ℤ} {bufCb domCb : CellBounds} (h : Near cells bufCb domCb) (j : Fin 3) {b d : ℤ}
    (hb : 0 ≤ b ∧ b < bufCb.width j) (hd : 0 ≤ d) :
    d = domCoord (bufCb.origin j) (domCb.origin j) cells b ↔ AtPlace cells bufCb domCb j b d := by
  obtain ⟨h2, h3⟩ := h j
  unfold AtPlace
  by_cases hdc : d < cells
  · rw [eq_comm, domCoord_iff (by omega) (by omega) hd hdc]
    exact (and_iff_right hdc).symm
  · refine iff_of_false (fun e => hdc ?_) fun e => hdc e.1
    rw [e]
    unfold domCoord
    dsimp only
    split_ifs <;> omega

theorem not_place {cells : ℤ} {bufCb domCb : CellBounds} (h : Near cells bufCb domCb) (j : Fin 3) {b d : ℤ}
    (hb : 0 ≤ b ∧ b < bufCb.width j) (hd : 0 ≤ d ∧ d < domCb.width j)
    (hc : domCoord (bufCb.origin j) (domCb.origin j) cells b ≥ domCb.width j) :
    ¬ AtPlace cells bufCb domCb j b d := by
  rw [← place_iff h j hb hd.1]
  omega

theorem Placed.atPlace {cells : ℤ} {bufCb domCb : CellBounds} (h : Placed cells bufCb domCb) (j : Fin 3) {b d : ℤ}
    (hd : d < domCb.width j) : AtPlace cells bufCb domCb j b d ↔ SamePlace cells bufCb domCb j b d :=
  and_iff_right (lt_of_lt_of_le hd (h j).1)

theorem seg3Add_adds_wide {cells : ℤ} {bufCb domCb : CellBounds} (h : Near cells bufCb domCb) {buf : List M}
    {B : ℤ → M} (hB : Cells (bufCb.width 0 * bufCb.width 1 * bufCb.width 2) buf B) :
    ∃ G, Adds (domCb.width 0 * domCb.width 1 * domCb.width 2) (seg3Add bufCb domCb cells buf) G ∧
      ∀ x y z, IsCell domCb.width x y z → G (x + y * domCb.width 0 + z * (domCb.width 0 * domCb.width 1)) =
        ∑ b ∈ boxCells bufCb.width with AtPlace cells bufCb domCb 0 b.1 x ∧ AtPlace cells bufCb domCb 1 b.2.1 y ∧
          AtPlace cells bufCb domCb 2 b.2.2 z,
          B (b.1 + b.2.1 * bufCb.width 0 + b.2.2 * (bufCb.width 0 * bufCb.width 1)) := by
  let D := fun (j : Fin 3) (b : ℤ) => domCoord (bufCb.origin j) (domCb.origin j) cells b
  have hD : ∀ (j : Fin 3) (b : ℤ), 0 ≤ b → 0 ≤ D j b := fun j b hb =>
    domCoord_nonneg (by have := h j; omega)
  have key : Adds (domCb.width 0 * domCb.width 1 * domCb.width 2) (seg3Add bufCb domCb cells buf) (fun c =>
      ∑ zb ∈ Finset.Ico 0 (bufCb.width 2), if D 2 zb ≥ domCb.width 2 then 0 else
        ∑ yb ∈ Finset.Ico 0 (bufCb.width 1), if D 1 yb ≥ domCb.width 1 then 0 else
          ∑ xb ∈ Finset.Ico 0 (bufCb.width 0), if D 0 xb ≥ domCb.width 0 then 0 else
            if c = D 0 xb + D 1 yb * domCb.width 0 + D 2 zb * domCb.width 1 * domCb.width 0 then
              B (xb + yb * bufCb.width 0 + zb * bufCb.width 1 * bufCb.width 0) else 0) := by
    unfold seg3Add
    refine adds_forRange fun zb z0 z1 => ?_
    refine adds_ite (fun _ => adds_skip _) fun cz => ?_
    refine adds_forRange fun yb y0 y1 => ?_
    refine adds_ite (fun _ => adds_skip _) fun cy => ?_
    refine adds_forRange fun xb x0 x1 => ?_
    refine adds_ite (fun _ => adds_skip _) fun cx => ?_
    have hb := flat_range (w := bufCb.width) ⟨⟨x0, x1⟩, ⟨y0, y1⟩, ⟨z0, z1⟩⟩
    have hd := flat_range (w := domCb.width) (x := D 0 xb) (y := D 1 yb) (z := D 2 zb)
      ⟨⟨hD 0 xb x0, lt_of_not_ge cx⟩, ⟨hD 1 yb y0, lt_of_not_ge cy⟩, ⟨hD 2 zb z0, lt_of_not_ge cz⟩⟩
    rw [show zb * (bufCb.width 0 * bufCb.width 1) = zb * bufCb.width 1 * bufCb.width 0 by ring] at hb
    rw [show D 2 zb * (domCb.width 0 * domCb.width 1) = D 2 zb * domCb.width 1 * domCb.width 0 by ring] at hd
    have := adds_accum hd.1 hd.2 (B (xb + yb * bufCb.width 0 + zb * bufCb.width 1 * bufCb.width 0))
    intro ys F hF
    obtain ⟨zs, e1, e2⟩ := this ys F hF
    exact ⟨zs, bind_of (hB.2 _ hb.1 hb.2) e1, e2⟩
  refine ⟨_, key, fun x y z hc => ?_⟩
  rw [Finset.sum_filter]
  unfold boxCells
  rw [Finset.sum_product_right, Finset.sum_product_right]
  refine Finset.sum_congr rfl fun zb hz => ?_
  rw [Finset.mem_Ico] at hz
  split_ifs with cz
  · refine (Finset.sum_eq_zero fun yb _ => Finset.sum_eq_zero fun xb _ => ?_).symm
    exact if_neg fun hh => not_place h 2 hz hc.2.2 cz hh.2.2
  refine Finset.sum_congr rfl fun yb hy => ?_
  rw [Finset.mem_Ico] at hy
  split_ifs with cy
  · refine (Finset.sum_eq_zero fun xb _ => ?_).symm
    exact if_neg fun hh => not_place h 1 hy hc.2.1 cy hh.2.1
  refine Finset.sum_congr rfl fun xb hx => ?_
  rw [Finset.mem_Ico] at hx
  by_cases cx : D 0 xb ≥ domCb.width 0
  · rw [if_pos cx, if_neg fun hh => not_place h 0 hx hc.1 cx hh.1]
  rw [if_neg cx]
  rw [show zb * bufCb.width 1 * bufCb.width 0 = zb * (bufCb.width 0 * bufCb.width 1) by ring,
    show D 2 zb * domCb.width 1 * domCb.width 0 = D 2 zb * (domCb.width 0 * domCb.width 1) by ring]
  refine if_congr ?_ rfl rfl
  rw [flat_inj hc ⟨⟨hD 0 xb hx.1, lt_of_not_ge cx⟩, ⟨hD 1 yb hy.1, lt_of_not_ge cy⟩, ⟨hD 2 zb hz.1, lt_of_not_ge cz⟩⟩,
    place_iff h 0 hx hc.1.1, place_iff h 1 hy hc.2.1.1, place_iff h 2 hz hc.2.2.1]

theorem seg3Add_adds {cells : ℤ} {bufCb domCb : CellBounds} (h : Placed cells bufCb domCb) {buf : List M}
    {B : ℤ → M} (hB : Cells (bufCb.width 0 * bufCb.width 1 * bufCb.width 2) buf B) :
    ∃ G, Adds (domCb.width 0 * domCb.width 1 * domCb.width 2) (seg3Add bufCb domCb cells buf) G ∧
      ∀ x y z, IsCell domCb.width x y z → G (x + y * domCb.width 0 + z * (domCb.width 0 * domCb.width 1)) =
        ∑ b ∈ boxCells bufCb.width with SamePlace cells bufCb domCb 0 b.1 x ∧ SamePlace cells bufCb domCb 1 b.2.1 y ∧
          SamePlace cells bufCb domCb 2 b.2.2 z,
          B (b.1 + b.2.1 * bufCb.width 0 + b.2.2 * (bufCb.width 0 * bufCb.width 1)) := by
  obtain ⟨G, hA, hG⟩ := seg3Add_adds_wide h.near hB
  refine ⟨G, hA, fun x y z hc => ?_⟩
  rw [hG x y z hc]
  simp only [h.atPlace 0 hc.1.2, h.atPlace 1 hc.2.1.2, h.atPlace 2 hc.2.2.2]

/-- **C48**, 3D: adding a segment buffer to the image adds each buffer cell to exactly the image cell at the same
place of the periodic box. -/
theorem C48_add3_partial (cells : ℤ) (bufCb domCb : CellBounds) (h : Placed cells bufCb domCb) (buf grid : List M)
    (hb : (buf.length : ℤ) = bufCb.width 0 * bufCb.width 1 * bufCb.width 2)
    (hg : (grid.length : ℤ) = domCb.width 0 * domCb.width 1 * domCb.width 2) (B : ℤ → ℤ → ℤ → M)
    (hB : ∀ x y z, IsCell bufCb.width x y z →
      rd buf (x + y * bufCb.width 0 + z * (bufCb.width 0 * bufCb.width 1)) = some (B x y z)) :
    ∃ grid', seg3Add bufCb domCb cells buf grid = some grid' ∧
      Grew3 domCb.width grid grid' (fun x y z =>
        ∑ b ∈ boxCells bufCb.width with SamePlace cells bufCb domCb 0 b.1 x ∧
          SamePlace cells bufCb domCb 1 b.2.1 y ∧ SamePlace cells bufCb domCb 2 b.2.2 z, B b.1 b.2.1 b.2.2) := by
  have hself := cells_self buf
  rw [hb] at hself
  obtain ⟨G, hA, hG⟩ := seg3Add_adds h hself
  refine hA.grew3 _ (fun x y z hc => ?_) grid hg
  rw [hG x y z hc]
  refine Finset.sum_congr rfl fun b hbm => ?_
  have hbc : IsCell bufCb.width b.1 b.2.1 b.2.2 := by
    have := (Finset.mem_filter.mp hbm).1
    simp only [boxCells, Finset.mem_product, Finset.mem_Ico] at this
    exact this
  have hr := flat_range hbc
  have e1 := hself.2 _ hr.1 hr.2
  rw [hB _ _ _ hbc] at e1
  exact (Option.some.inj e1).symm

theorem seg2Add_adds_wide {cells proj : ℤ} {bufCb domCb : CellBounds} (h : Near cells bufCb domCb) {buf : List M}
    {B : ℤ → M} (hB : Cells (bufCb.width (projDims proj).1 * bufCb.width (projDims proj).2.1) buf B) :
    ∃ G, Adds (domCb.width (projDims proj).1 * domCb.width (projDims proj).2.1)
        (seg2Add bufCb domCb cells proj buf) G ∧
      ∀ i j, (0 ≤ i ∧ i < domCb.width (projDims proj).1) → (0 ≤ j ∧ j < domCb.width (projDims proj).2.1) →
        G (i + j * domCb.width (projDims proj).1) =
        ∑ b ∈ rectCells (bufCb.width (projDims proj).1) (bufCb.width (projDims proj).2.1) with
          AtPlace cells bufCb domCb (projDims proj).1 b.1 i ∧ AtPlace cells bufCb domCb (projDims proj).2.1 b.2 j,
          B (b.1 + b.2 * bufCb.width (projDims proj).1) := by
  unfold seg2Add
  revert hB
  generalize projDims proj = pd
  obtain ⟨iD, jD, kD⟩ := pd
  intro hB
  dsimp only at hB ⊢
  let D := fun (j : Fin 3) (b : ℤ) => domCoord (bufCb.origin j) (domCb.origin j) cells b
  have hD : ∀ (j : Fin 3) (b : ℤ), 0 ≤ b → 0 ≤ D j b := fun j b hb =>
    domCoord_nonneg (by have := h j; omega)
  refine ⟨fun c => ∑ jb ∈ Finset.Ico 0 (bufCb.width jD), if D jD jb ≥ domCb.width jD then 0 else
          ∑ ib ∈ Finset.Ico 0 (bufCb.width iD), if D iD ib ≥ domCb.width iD then 0 else
            if c = D iD ib + D jD jb * domCb.width iD then B (ib + jb * bufCb.width iD) else 0, ?_, ?_⟩
  · refine adds_forRange fun jb y0 y1 => ?_
    refine adds_ite (fun _ => adds_skip _) fun cy => ?_
    refine adds_forRange fun ib x0 x1 => ?_
    refine adds_ite (fun _ => adds_skip _) fun cx => ?_
    have hb := flat2_range (wi := bufCb.width iD) (wj := bufCb.width jD) ⟨x0, x1⟩ ⟨y0, y1⟩
    have hd := flat2_range (wi := domCb.width iD) (wj := domCb.width jD) ⟨hD iD ib x0, lt_of_not_ge cx⟩
      ⟨hD jD jb y0, lt_of_not_ge cy⟩
    have := adds_accum hd.1 hd.2 (B (ib + jb * bufCb.width iD))
    intro ys F hF
    obtain ⟨zs, e1, e2⟩ := this ys F hF
    exact ⟨zs, bind_of (hB.2 _ hb.1 hb.2) e1, e2⟩
  · intro i j hi hj
    rw [Finset.sum_filter]
    unfold rectCells
    rw [Finset.sum_product_right]
    refine Finset.sum_congr rfl fun jb hjb => ?_
    rw [Finset.mem_Ico] at hjb
    split_ifs with cy
    · refine (Finset.sum_eq_zero fun xb _ => ?_).symm
      exact if_neg fun hh => not_place h jD hjb hj cy hh.2
    refine Finset.sum_congr rfl fun ib hib => ?_
    rw [Finset.mem_Ico] at hib
    by_cases cx : D iD ib ≥ domCb.width iD
    · rw [if_pos cx, if_neg fun hh => not_place h iD hib hi cx hh.1]
    rw [if_neg cx]
    refine if_congr ?_ rfl rfl
    rw [flat2_inj hi hj ⟨hD iD ib hib.1, lt_of_not_ge cx⟩, place_iff h iD hib hi.1, place_iff h jD hjb hj.1]

theorem seg2Add_adds {cells proj : ℤ} {bufCb domCb : CellBounds} (h : Placed cells bufCb domCb) {buf : List M}
    {B : ℤ → M} (hB : Cells (bufCb.width (projDims proj).1 * bufCb.width (projDims proj).2.1) buf B) :
    ∃ G, Adds (domCb.width (projDims proj).1 * domCb.width (projDims proj).2.1)
        (seg2Add bufCb domCb cells proj buf) G ∧
      ∀ i j, (0 ≤ i ∧ i < domCb.width (projDims proj).1) → (0 ≤ j ∧ j < domCb.width (projDims proj).2.1) →
        G (i + j * domCb.width (projDims proj).1) =
        ∑ b ∈ rectCells (bufCb.width (projDims proj).1) (bufCb.width (projDims proj).2.1) with
          SamePlace cells bufCb domCb (projDims proj).1 b.1 i ∧ SamePlace cells bufCb domCb (projDims proj).2.1 b.2 j,
          B (b.1 + b.2 * bufCb.width (projDims proj).1) := by
  obtain ⟨G, hA, hG⟩ := seg2Add_adds_wide (proj := proj) h.near hB
  refine ⟨G, hA, fun i j hi hj => ?_⟩
  rw [hG i j hi hj]
  simp only [h.atPlace _ hi.2, h.atPlace _ hj.2]

/-- **C48**, 2D. -/
theorem C48_add2_partial (cells proj : ℤ) (bufCb domCb : CellBounds) (h : Placed cells bufCb domCb)
    (buf grid : List M) (wi wj wi' wj' : ℤ)
    (hi : wi = bufCb.width (projDims proj).1) (hj : wj = bufCb.width (projDims proj).2.1)
    (hi' : wi' = domCb.width (projDims proj).1) (hj' : wj' = domCb.width (projDims proj).2.1)
    (hb : (buf.length : ℤ) = wi * wj) (hg : (grid.length : ℤ) = wi' * wj') (B : ℤ → ℤ → M)
    (hB : ∀ i j, (0 ≤ i ∧ i < wi) → (0 ≤ j ∧ j < wj) → rd buf (i + j * wi) = some (B i j)) :
    ∃ grid', seg2Add bufCb domCb cells proj buf grid = some grid' ∧
      Grew2 wi' wj' grid grid' (fun i j => ∑ b ∈ rectCells wi wj with
          SamePlace cells bufCb domCb (projDims proj).1 b.1 i ∧ SamePlace cells bufCb domCb (projDims proj).2.1 b.2 j,
          B b.1 b.2) := by
  subst hi hj hi' hj'
  have hself := cells_self buf
  rw [hb] at hself
  obtain ⟨G, hA, hG⟩ := seg2Add_adds (proj := proj) h hself
  refine hA.grew2 _ (fun i j h1 h2 => ?_) grid hg
  rw [hG i j h1 h2]
  refine Finset.sum_congr rfl fun b hbm => ?_
  have hbc := (Finset.mem_filter.mp hbm).1
  simp only [rectCells, Finset.mem_product, Finset.mem_Ico] at hbc
  have hr := flat2_range hbc.1 hbc.2
  have e1 := hself.2 _ hr.1 hr.2
  rw [hB _ _ hbc.1 hbc.2] at e1
  exact (Option.some.inj e1).symm

/-- A buffer that hangs over both ends of the periodic box: cells 6, 7, 0, 1 of a box of 8 cells, image of the cells
7, 0, 1, 2. -/
example : Placed 8 ⟨![6, 0, 0], ![4, 1, 1]⟩ ⟨![7, 0, 0], ![4, 1, 1]⟩ ∧
    seg3Add (M := ℚ) ⟨![6, 0, 0], ![4, 1, 1]⟩ ⟨![7, 0, 0], ![4, 1, 1]⟩ 8 [1, 2, 3, 4] [10, 20, 30, 40] =
      some [12, 23, 34, 40] ∧
    seg2Add (M := ℚ) ⟨![6, 0, 0], ![4, 1, 1]⟩ ⟨![7, 0, 0], ![4, 1, 1]⟩ 8 2 [1, 2, 3, 4] [10, 20, 30, 40] =
      some [12, 23, 34, 40] := by
  refine ⟨?_, by decide +kernel, by decide +kernel⟩
  intro j; fin_cases j <;> decide

/-- The image of the whole box that `NewBox` makes has one layer too many (see C51); that layer is at the same place
as the first one but gets nothing. -/
theorem C48_counterexample :
    ¬ ∀ (cells : ℤ) (bufCb domCb : CellBounds) (buf grid grid' : List ℚ), 0 < cells →
      (∀ j, 0 ≤ bufCb.origin j ∧ bufCb.origin j < cells ∧ 0 ≤ domCb.origin j ∧ domCb.origin j < cells) →
      seg3Add bufCb domCb cells buf grid = some grid' →
      ∀ x, 0 ≤ x → x < domCb.width 0 → SamePlace cells bufCb domCb 0 0 x → domCb.width 1 = 1 → domCb.width 2 = 1 →
        bufCb.width 0 = 1 → bufCb.width 1 = 1 → bufCb.width 2 = 1 → domCb.origin 1 = bufCb.origin 1 →
        domCb.origin 2 = bufCb.origin 2 → ∀ v b, rd grid x = some v → rd buf 0 = some b → rd grid' x = some (v + b) := by
  intro h
  have := h 2 ⟨![0, 0, 0], ![1, 1, 1]⟩ ⟨![0, 0, 0], ![3, 1, 1]⟩ [5] [0, 0, 0] [5, 0, 0] (by decide) (by decide)
    (by decide +kernel) 2 (by decide) (by decide) (by decide) rfl rfl rfl rfl rfl rfl rfl 0 5 (by decide +kernel)
    (by decide +kernel)
  revert this
  decide +kernel

/-- **C48**, 3D, images of any width: buffer cells are added at their place in the first period of the image, and pixels
beyond it get nothing. -/
theorem C48_add3_wide (cells : ℤ) (bufCb domCb : CellBounds) (h : Near cells bufCb domCb) (buf grid : List M)
    (hb : (buf.length : ℤ) = bufCb.width 0 * bufCb.width 1 * bufCb.width 2)
    (hg : (grid.length : ℤ) = domCb.width 0 * domCb.width 1 * domCb.width 2) (B : ℤ → ℤ → ℤ → M)
    (hB : ∀ x y z, IsCell bufCb.width x y z →
      rd buf (x + y * bufCb.width 0 + z * (bufCb.width 0 * bufCb.width 1)) = some (B x y z)) :
    ∃ grid', seg3Add bufCb domCb cells buf grid = some grid' ∧
      Grew3 domCb.width grid grid' (fun x y z => if x < cells ∧ y < cells ∧ z < cells then
        ∑ b ∈ boxCells bufCb.width with SamePlace cells bufCb domCb 0 b.1 x ∧
          SamePlace cells bufCb domCb 1 b.2.1 y ∧ SamePlace cells bufCb domCb 2 b.2.2 z, B b.1 b.2.1 b.2.2 else 0) := by
  have hself := cells_self buf
  rw [hb] at hself
  obtain ⟨G, hA, hG⟩ := seg3Add_adds_wide h hself
  refine hA.grew3 _ (fun x y z hc => ?_) grid hg
  rw [hG x y z hc]
  split_ifs with hp
  · have hpl : ∀ j (b d : ℤ), d < cells → (AtPlace cells bufCb domCb j b d ↔ SamePlace cells bufCb domCb j b d) :=
      fun j b d hd => and_iff_right hd
    simp only [hpl _ _ _ hp.1, hpl _ _ _ hp.2.1, hpl _ _ _ hp.2.2]
    refine Finset.sum_congr rfl fun b hbm => ?_
    have hbc : IsCell bufCb.width b.1 b.2.1 b.2.2 := by
      have := (Finset.mem_filter.mp hbm).1
      simp only [boxCells, Finset.mem_product, Finset.mem_Ico] at this
      exact this
    have hr := flat_range hbc
    have e1 := hself.2 _ hr.1 hr.2
    rw [hB _ _ _ hbc] at e1
    exact (Option.some.inj e1).symm
  · rw [Finset.filter_false_of_mem, Finset.sum_empty]
    exact fun b _ hh => hp ⟨hh.1.1, hh.2.1.1, hh.2.2.1⟩

/-- An image of two cells and the extra layer, the buffer across its end. -/
example : Near 2 ⟨![1, 0, 0], ![2, 1, 1]⟩ ⟨![0, 0, 0], ![3, 1, 1]⟩ ∧
    seg3Add (M := ℚ) ⟨![1, 0, 0], ![2, 1, 1]⟩ ⟨![0, 0, 0], ![3, 1, 1]⟩ 2 [5, 7] [0, 0, 0] = some [7, 5, 0] := by
  refine ⟨fun j => ?_, by decide +kernel⟩
  fin_cases j <;> decide

/-! ## C49: from points to the image -/

theorem samePlace_floor {cells : ℤ} {bufCb domCb : CellBounds} (j : Fin 3) (b d : ℤ) :
    SamePlace cells bufCb domCb j b d ↔ cells ∣ (b + bufCb.origin j) - (d + domCb.origin j) := Iff.rfl

/-- The segment strategy: interpolate into a cleared segment buffer, then add it to the image. -/
theorem segment_image (cells : ℤ) (bufCb domCb : CellBounds) (h : Placed cells bufCb domCb)
    (hw : ∀ j, 0 ≤ bufCb.width j) (xs : List Vec)
    (P : ℤ → Vec) (low high jump : ℤ) (hj : 0 < jump)
    (hP : ∀ idx ∈ visited low high jump, rd xs idx = some (P idx))
    (hin : ∀ idx ∈ visited low high jump, ∀ j, 0 ≤ P idx j ∧ P idx j < bufCb.width j) (dep : ℤ → M) (grid : List M)
    (hg : (grid.length : ℤ) = domCb.width 0 * domCb.width 1 * domCb.width 2) :
    ∃ buf grid', seg3Interpolate bufCb xs dep low high jump
        (List.replicate (bufCb.width 0 * bufCb.width 1 * bufCb.width 2).toNat 0) = some buf ∧
      seg3Add bufCb domCb cells buf grid = some grid' ∧
      Grew3 domCb.width grid grid' (imageAt cells domCb (visited low high jump)
        (fun idx j => cellOf (P idx) j + bufCb.origin j) dep) := by
  have hn : 0 ≤ bufCb.width 0 * bufCb.width 1 * bufCb.width 2 := mul_nonneg (mul_nonneg (hw 0) (hw 1)) (hw 2)
  obtain ⟨buf, e, hgr, _⟩ := C47_segment_partial bufCb xs P low high jump hj hP hin dep
    (List.replicate (bufCb.width 0 * bufCb.width 1 * bufCb.width 2).toNat 0) (by simp [Int.toNat_of_nonneg hn])
  have hz := cells_zero (M := M) (bufCb.width 0 * bufCb.width 1 * bufCb.width 2).toNat
  rw [Int.toNat_of_nonneg hn] at hz
  obtain ⟨grid', e', hgr'⟩ := C48_add3_partial cells bufCb domCb h buf grid
    (by rw [hgr.1]; simp [Int.toNat_of_nonneg hn]) hg
    (fun x y z => ∑ idx ∈ visited low high jump with cellOf (P idx) = ![x, y, z], dep idx) (by
      intro x y z hc
      obtain ⟨v, hv, hv'⟩ := hgr.2 x y z hc
      have hr := flat_range hc
      rw [hz.2 _ hr.1 hr.2] at hv
      rw [hv', ← Option.some.inj hv, zero_add])
  refine ⟨buf, grid', e, e', hgr'.1, fun x y z hc => ?_⟩
  obtain ⟨v, hv, hv'⟩ := hgr'.2 x y z hc
  refine ⟨v, hv, ?_⟩
  rw [hv']
  congr 2
  unfold imageAt
  beta_reduce
  rw [Finset.sum_filter, Finset.sum_filter]
  calc _ = ∑ b ∈ boxCells bufCb.width, ∑ idx ∈ visited low high jump,
        (if b = (cellOf (P idx) 0, cellOf (P idx) 1, cellOf (P idx) 2) then
          (if ∀ j, cells ∣ cellOf (P idx) j + bufCb.origin j - ((![x, y, z] : IVec) j + domCb.origin j) then dep idx
            else 0) else 0) := by
        refine Finset.sum_congr rfl fun b _ => ?_
        rw [Finset.sum_filter]
        have hcell : ∀ idx, cellOf (P idx) = ![b.1, b.2.1, b.2.2] ↔
            b = (cellOf (P idx) 0, cellOf (P idx) 1, cellOf (P idx) 2) := by
          intro idx
          constructor
          · intro hh; rw [hh]; rfl
          · rintro rfl; funext j; fin_cases j <;> rfl
        have hplace : ∀ idx, b = (cellOf (P idx) 0, cellOf (P idx) 1, cellOf (P idx) 2) →
            ((∀ j, cells ∣ cellOf (P idx) j + bufCb.origin j - ((![x, y, z] : IVec) j + domCb.origin j)) ↔
            (SamePlace cells bufCb domCb 0 b.1 x ∧ SamePlace cells bufCb domCb 1 b.2.1 y ∧
              SamePlace cells bufCb domCb 2 b.2.2 z)) := by
          rintro idx rfl
          constructor
          · intro hh; exact ⟨hh 0, hh 1, hh 2⟩
          · rintro ⟨h0, h1, h2⟩ j
            fin_cases j
            · exact h0
            · exact h1
            · exact h2
        by_cases c : SamePlace cells bufCb domCb 0 b.1 x ∧ SamePlace cells bufCb domCb 1 b.2.1 y ∧
              SamePlace cells bufCb domCb 2 b.2.2 z
        · rw [if_pos c]
          refine Finset.sum_congr rfl fun idx _ => ?_
          by_cases hb : b = (cellOf (P idx) 0, cellOf (P idx) 1, cellOf (P idx) 2)
          · rw [if_pos ((hcell idx).mpr hb), if_pos hb, if_pos ((hplace idx hb).mpr c)]
          · rw [if_neg (fun hh => hb ((hcell idx).mp hh)), if_neg hb]
        · rw [if_neg c]
          refine (Finset.sum_eq_zero fun idx _ => ?_).symm
          by_cases hb : b = (cellOf (P idx) 0, cellOf (P idx) 1, cellOf (P idx) 2)
          · rw [if_pos hb, if_neg (fun hh => c ((hplace idx hb).mp hh))]
          · rw [if_neg hb]
    _ = _ := by
        rw [Finset.sum_comm]
        refine Finset.sum_congr rfl fun idx hidx => ?_
        rw [Finset.sum_ite_eq', if_pos]
        simp only [boxCells, Finset.mem_product, Finset.mem_Ico]
        have f : ∀ j, 0 ≤ cellOf (P idx) j ∧ cellOf (P idx) j < bufCb.width j := fun j =>
          ⟨Int.floor_nonneg.mpr (hin idx hidx j).1, Int.floor_lt.mpr (hin idx hidx j).2⟩
        exact ⟨f 0, f 1, f 2⟩

theorem domAdd_adds {n : ℤ} {buf : List M} {B : ℤ → M} (hB : Cells n buf B) : Adds n (domAdd buf) B := by
  unfold domAdd
  have hn : (0 : ℤ) ≤ n := by rw [← hB.1]; omega
  rw [hB.1]
  refine adds_congr (adds_forRange (G := fun k c => if c = k then B k else 0) fun k k0 k1 => ?_) ?_
  · intro ys F hF
    obtain ⟨zs, e1, e2⟩ := adds_accum k0 k1 (B k) ys F hF
    exact ⟨zs, bind_of (hB.2 _ k0 k1) e1, e2⟩
  · intro i h0 h1
    rw [Finset.sum_ite_eq, if_pos (Finset.mem_Ico.mpr ⟨h0, h1⟩)]

/-- The floor of the renderer is the floor of the point. -/
def FloorOk (p : Vec) : Prop := ∀ j, intFloor (p j) = ⌊p j⌋

/-- The domain strategy: interpolate into a cleared domain buffer, then add it to the image. -/
theorem domain_image (cells : ℤ) (domCb : CellBounds) (hw : ∀ j, 0 ≤ domCb.width j ∧ domCb.width j ≤ cells)
    (xs : List Vec) (Q : ℤ → Vec) (low high jump : ℤ) (hj : 0 < jump)
    (hQ : ∀ idx ∈ visited low high jump, rd xs idx = some (Q idx))
    (hf : ∀ idx ∈ visited low high jump, FloorOk (Q idx))
    (hin : ∀ idx ∈ visited low high jump, ∀ j, -cells ≤ Q idx j ∧ Q idx j < 2 * cells) (dep : ℤ → M)
    (grid : List M) (hg : (grid.length : ℤ) = domCb.width 0 * domCb.width 1 * domCb.width 2) :
    ∃ buf grid', dom3Interpolate domCb cells xs dep low high jump
        (List.replicate (domCb.width 0 * domCb.width 1 * domCb.width 2).toNat 0) = some buf ∧
      domAdd buf grid = some grid' ∧
      Grew3 domCb.width grid grid' (imageAt cells domCb (visited low high jump)
        (fun idx j => cellOf (Q idx) j + domCb.origin j) dep) := by
  have hn : 0 ≤ domCb.width 0 * domCb.width 1 * domCb.width 2 :=
    mul_nonneg (mul_nonneg (hw 0).1 (hw 1).1) (hw 2).1
  have hfl : ∀ idx ∈ visited low high jump, ∀ j, -cells ≤ cellOf (Q idx) j ∧ cellOf (Q idx) j < 2 * cells := by
    intro idx hidx j
    constructor
    · exact Int.le_floor.mpr (by push_cast; exact (hin idx hidx j).1)
    · exact Int.floor_lt.mpr (by push_cast; exact (hin idx hidx j).2)
  have hA := dom3_adds (bufCb := domCb) (cells := cells) hj hQ (fun idx hidx j => by
    rw [hf idx hidx j]; exact hfl idx hidx j) dep
  have hz := cells_zero (M := M) (domCb.width 0 * domCb.width 1 * domCb.width 2).toNat
  rw [Int.toNat_of_nonneg hn] at hz
  obtain ⟨buf, e, hb⟩ := hA _ _ hz
  obtain ⟨grid', e', hgr⟩ := (domAdd_adds hb).grew3 (imageAt cells domCb (visited low high jump)
        (fun idx j => cellOf (Q idx) j + domCb.origin j) dep) (by
    intro x y z hc
    beta_reduce
    unfold imageAt
    rw [zero_add, Finset.sum_filter]
    refine Finset.sum_congr rfl fun idx hidx => ?_
    refine if_congr ?_ rfl rfl
    have hem : ∀ j d, 0 ≤ d → d < domCb.width j → (cellOf (Q idx) j % cells = d ↔
        cells ∣ cellOf (Q idx) j + domCb.origin j - (d + domCb.origin j)) := by
      intro j d d0 d1
      rw [emod_eq_iff d0 (d1.trans_le (hw j).2)]
      rw [show cellOf (Q idx) j + domCb.origin j - (d + domCb.origin j) = cellOf (Q idx) j - d by ring]
    have hcp : ∀ j, 0 < domCb.width j → 0 ≤ cellOf (Q idx) j % cells := fun j hp =>
      Int.emod_nonneg _ (by have := (hw j).2; omega)
    obtain ⟨c0, c1, c2⟩ := hc
    rw [show intFloor (Q idx 0) = cellOf (Q idx) 0 from hf idx hidx 0,
      show intFloor (Q idx 1) = cellOf (Q idx) 1 from hf idx hidx 1,
      show intFloor (Q idx 2) = cellOf (Q idx) 2 from hf idx hidx 2]
    constructor
    · rintro ⟨⟨l0, l1, l2⟩, eq⟩
      rw [flat_inj ⟨c0, c1, c2⟩ ⟨⟨hcp 0 (by omega), l0⟩, ⟨hcp 1 (by omega), l1⟩, ⟨hcp 2 (by omega), l2⟩⟩] at eq
      intro j
      fin_cases j
      · exact (hem 0 x c0.1 c0.2).mp eq.1.symm
      · exact (hem 1 y c1.1 c1.2).mp eq.2.1.symm
      · exact (hem 2 z c2.1 c2.2).mp eq.2.2.symm
    · intro hh
      rw [(hem 0 x c0.1 c0.2).mpr (hh 0), (hem 1 y c1.1 c1.2).mpr (hh 1), (hem 2 z c2.1 c2.2).mpr (hh 2)]
      exact ⟨⟨c0.2, c1.2, c2.2⟩, rfl⟩) grid hg
  exact ⟨buf, grid', e, e', hgr⟩

/-- The image only depends on the places of the points in the periodic box. -/
theorem imageAt_congr {cells : ℤ} {domCb : CellBounds} {S : Finset ℤ} {g g' : ℤ → IVec} (dep : ℤ → M)
    (h : ∀ idx ∈ S, ∀ j, cells ∣ g' idx j - g idx j) : imageAt cells domCb S g dep = imageAt cells domCb S g' dep := by
  funext x y z
  unfold imageAt
  rw [Finset.sum_filter, Finset.sum_filter]
  refine Finset.sum_congr rfl fun idx hidx => if_congr ?_ rfl rfl
  refine forall_congr' fun j => ?_
  have := h idx hidx j
  rw [show g' idx j - (![x, y, z] j + domCb.origin j) =
    (g' idx j - g idx j) + (g idx j - (![x, y, z] j + domCb.origin j)) by ring]
  exact (Int.dvd_add_right this).symm

/-- Two slices that grew from the same slice by the same amounts are equal. -/
theorem Grew3.unique {w : IVec} (hw : ∀ j, 0 ≤ w j) {old new new' : List M} {G : ℤ → ℤ → ℤ → M}
    (hl : (old.length : ℤ) = w 0 * w 1 * w 2) (h : Grew3 w old new G) (h' : Grew3 w old new' G) : new = new' := by
  refine List.ext_getElem? fun i => ?_
  by_cases hi : i < old.length
  · obtain ⟨x, y, z, hc, e⟩ := exists_cell hw (Int.natCast_nonneg i) (by omega : (i : ℤ) < w 0 * w 1 * w 2)
    obtain ⟨v, h1, h2⟩ := h.2 x y z hc
    obtain ⟨v', h3, h4⟩ := h'.2 x y z hc
    rw [← e, rd_natCast] at h1 h2 h3 h4
    rw [h1] at h3
    rw [h2, h4, Option.some.inj h3]
  · rw [List.getElem?_eq_none (by rw [h.1]; omega), List.getElem?_eq_none (by rw [h'.1]; omega)]

/-- **C49**: rendering the same sample points through a segment buffer or directly through a domain buffer gives the
same image. `P` are the points in segment coordinates, `Q` the same points in domain coordinates: shifted by the
difference of the origins and, per point and axis, by a whole number of periods. Missing: domain coordinates for which
`intFloor` is not the floor (whole numbers `≤ 0`), and images wider than the simulation box. -/
theorem C49_strategies_agree_partial (cells : ℤ) (bufCb domCb : CellBounds) (h : Placed cells bufCb domCb)
    (hwb : ∀ j, 0 ≤ bufCb.width j) (hwd : ∀ j, 0 ≤ domCb.width j) (xs ys : List Vec) (P Q : ℤ → Vec)
    (shift : ℤ → Fin 3 → ℤ) (low high jump : ℤ) (hj : 0 < jump)
    (hP : ∀ idx ∈ visited low high jump, rd xs idx = some (P idx))
    (hQ : ∀ idx ∈ visited low high jump, rd ys idx = some (Q idx))
    (hin : ∀ idx ∈ visited low high jump, ∀ j, 0 ≤ P idx j ∧ P idx j < bufCb.width j)
    (hPQ : ∀ idx ∈ visited low high jump, ∀ j,
      Q idx j = P idx j + (bufCb.origin j - domCb.origin j : ℤ) + (shift idx j * cells : ℤ))
    (hr : ∀ idx ∈ visited low high jump, ∀ j, -cells ≤ Q idx j ∧ Q idx j < 2 * cells)
    (hf : ∀ idx ∈ visited low high jump, FloorOk (Q idx)) (dep : ℤ → M) (grid : List M)
    (hg : (grid.length : ℤ) = domCb.width 0 * domCb.width 1 * domCb.width 2) :
    ∃ bufS bufD grid',
      seg3Interpolate bufCb xs dep low high jump (List.replicate (bufferSize3 bufCb).toNat 0) = some bufS ∧
      seg3Add bufCb domCb cells bufS grid = some grid' ∧
      dom3Interpolate domCb cells ys dep low high jump (List.replicate (bufferSize3 domCb).toNat 0) = some bufD ∧
      domAdd bufD grid = some grid' := by
  obtain ⟨bufS, g1, e1, e2, h1⟩ := segment_image cells bufCb domCb h hwb xs P low high jump hj hP hin dep grid hg
  obtain ⟨bufD, g2, e3, e4, h2⟩ := domain_image cells domCb (fun j => ⟨hwd j, (h j).1⟩) ys Q low high jump hj hQ hf hr
    dep grid hg
  rw [imageAt_congr (g' := fun idx j => cellOf (Q idx) j + domCb.origin j) dep (by
    intro idx hidx j
    refine ⟨shift idx j, ?_⟩
    unfold cellOf
    rw [hPQ idx hidx j, Int.floor_add_intCast, Int.floor_add_intCast]
    ring)] at h1
  obtain rfl := h1.unique hwd hg h2
  exact ⟨bufS, bufD, g1, e1, e2, e3, e4⟩

/-- A segment of cells 6, 7, 0, 1 and an image of cells 7, 0, 1 in a box of 8 cells: one point in cell 6 (not in the
image), one in cell 0 (cell 1 of the image). -/
example : Placed 8 ⟨![6, 0, 0], ![4, 1, 1]⟩ ⟨![7, 0, 0], ![3, 1, 1]⟩ ∧
    (∃ b, seg3Interpolate (M := ℚ) ⟨![6, 0, 0], ![4, 1, 1]⟩ [![1/2, 1/2, 1/2], ![5/2, 1/2, 1/2]] (fun i => i + 1) 0 2 1
      (List.replicate 4 0) = some b ∧ seg3Add ⟨![6, 0, 0], ![4, 1, 1]⟩ ⟨![7, 0, 0], ![3, 1, 1]⟩ 8 b [0, 0, 0] =
        some [0, 2, 0]) ∧
    (∃ b, dom3Interpolate (M := ℚ) ⟨![7, 0, 0], ![3, 1, 1]⟩ 8 [![-1/2, 1/2, 1/2], ![3/2, 1/2, 1/2]] (fun i => i + 1)
      0 2 1 (List.replicate 3 0) = some b ∧ domAdd b [0, 0, 0] = some [0, 2, 0]) ∧
    FloorOk ![-1/2, 1/2, 1/2] := by
  refine ⟨fun j => by fin_cases j <;> decide, ⟨[1, 0, 2, 0], ?_, ?_⟩, ⟨[0, 2, 0], ?_, ?_⟩, fun j => ?_⟩
  · decide +kernel
  · decide +kernel
  · decide +kernel
  · decide +kernel
  · fin_cases j <;> decide +kernel

/-- The two strategies differ on a point exactly on the lower face of the image. -/
theorem C49_counterexample :
    ∃ (bufCb domCb : CellBounds) (cells : ℤ) (p : Vec) (b1 b2 g1 g2 : List ℚ), Placed cells bufCb domCb ∧
      bufCb.origin = domCb.origin ∧ (∀ j, 0 ≤ p j ∧ p j < bufCb.width j) ∧
      seg3Interpolate bufCb [p] (fun _ => 1) 0 1 1 (List.replicate (bufferSize3 bufCb).toNat 0) = some b1 ∧
      seg3Add bufCb domCb cells b1 [0] = some g1 ∧
      dom3Interpolate domCb cells [p] (fun _ => 1) 0 1 1 (List.replicate (bufferSize3 domCb).toNat 0) = some b2 ∧
      domAdd b2 [0] = some g2 ∧ g1 ≠ g2 := by
  refine ⟨⟨![0, 0, 0], ![1, 1, 1]⟩, ⟨![0, 0, 0], ![1, 1, 1]⟩, 4, ![0, 1/2, 1/2], [1], [0], [1], [0], ?_, rfl, ?_,
    ?_, ?_, ?_, ?_, by decide⟩
  · intro j; fin_cases j <;> decide
  all_goals decide +kernel

end Verif.Render
