import Verif.Render.McTotal

/-!
# Domain buffers, and projections, in any arithmetic

The lemmas behind C94 and C111, for a renderer whose arithmetic may be rounded: where a sample is counted is what its rounded
coordinates and the rounded floor say.
-/

set_option autoImplicit false

namespace Verif.Render

open Verif.Go Verif.Geom

variable {M : Type} [AddCommMonoid M]

/-! ## Specification -/

/-- Value a segment adds to an image cell when the point `p` of the unit tetrahedron is counted in the cell `g c p` (relative
to the buffer) for the tetrahedron with corners `c`, and has the velocity `w cv p`. -/
def cellImage (g : (Fin 4 → Vec) → Vec → IVec) (w : (Fin 4 → Vec) → Vec → Vec) (cells : ℤ) (buf dom : CellBounds) (points : ℕ)
    (n : ℤ) (c cv : ℤ × ℤ × ℤ × Fin 6 → Fin 4 → Vec) (val : Vec → M) (U : ℤ × ℤ × ℤ × Fin 6 → List Vec) (x y z : ℤ) : M :=
  ∑ t ∈ tetras n, ∑ i ∈ Finset.range points,
    if (∀ j, cells ∣ g (c t) ((U t).getD i 0) j + buf.origin j - ((![x, y, z] : IVec) j + dom.origin j)) then
      val (w (cv t) ((U t).getD i 0))
    else 0

/-- The sum of these over the voxels behind a pixel. -/
def cellColumn (g : (Fin 4 → Vec) → Vec → IVec) (w : (Fin 4 → Vec) → Vec → Vec) (cells : ℤ) (buf dom : CellBounds) (proj : ℤ)
    (points : ℕ) (n : ℤ) (c cv : ℤ × ℤ × ℤ × Fin 6 → Fin 4 → Vec) (val : Vec → M) (U : ℤ × ℤ × ℤ × Fin 6 → List Vec)
    (i j : ℤ) : M :=
  ∑ k ∈ Finset.Ico 0 (min (dom.width (projDims proj).2.2) cells),
    cellImage g w cells buf dom points n c cv val U (voxel proj i j k 0) (voxel proj i j k 1) (voxel proj i j k 2)

/-- The cell in which a domain buffer counts a sample, before it is taken modulo the period. -/
def MC.cellA (mc : MC) (c : Fin 4 → Vec) (p : Vec) : IVec := fun j => mc.arith.floor (mc.fixA c (mc.arith.place c p) j)

/-! ## Sums over images -/

/-- In an image of the whole box every sample has exactly one place. -/
theorem cellImage_sum (g : (Fin 4 → Vec) → Vec → IVec) (w : (Fin 4 → Vec) → Vec → Vec) (cells : ℤ) (hc : 0 < cells)
    (buf dom : CellBounds) (points : ℕ) (n : ℤ) (c cv : ℤ × ℤ × ℤ × Fin 6 → Fin 4 → Vec) (val : Vec → M)
    (U : ℤ × ℤ × ℤ × Fin 6 → List Vec) :
    ∑ b ∈ boxCells (fun _ => cells), cellImage g w cells buf dom points n c cv val U b.1 b.2.1 b.2.2 =
      placedTotal w points n cv val U := by
  unfold cellImage placedTotal
  rw [Finset.sum_comm]
  refine Finset.sum_congr rfl fun t _ => ?_
  rw [Finset.sum_comm]
  refine Finset.sum_congr rfl fun i _ => ?_
  generalize g (c t) ((U t).getD i 0) = p
  have key : ∀ (j : Fin 3) (d : ℤ), 0 ≤ d → d < cells →
      (cells ∣ p j + buf.origin j - (d + dom.origin j) ↔ d = (p j + buf.origin j - dom.origin j) % cells) := by
    intro j d d0 d1
    rw [eq_comm, emod_eq_iff d0 d1]
    rw [show p j + buf.origin j - (d + dom.origin j) = p j + buf.origin j - dom.origin j - d by ring]
  have hb : ∀ b ∈ boxCells (fun _ => cells),
      ((∀ j, cells ∣ p j + buf.origin j - ((![b.1, b.2.1, b.2.2] : IVec) j + dom.origin j)) ↔
      b = ((p 0 + buf.origin 0 - dom.origin 0) % cells, (p 1 + buf.origin 1 - dom.origin 1) % cells,
        (p 2 + buf.origin 2 - dom.origin 2) % cells)) := by
    intro b hb
    simp only [boxCells, Finset.mem_product, Finset.mem_Ico] at hb
    obtain ⟨b0, b1, b2⟩ := b
    obtain ⟨⟨x0, x1⟩, ⟨y0, y1⟩, z0, z1⟩ := hb
    rw [Prod.mk.injEq, Prod.mk.injEq, ← key 0 b0 x0 x1, ← key 1 b1 y0 y1, ← key 2 b2 z0 z1]
    constructor
    · intro hh; exact ⟨hh 0, hh 1, hh 2⟩
    · rintro ⟨h0, h1, h2⟩ j
      fin_cases j
      · exact h0
      · exact h1
      · exact h2
  rw [Finset.sum_congr rfl fun b hbm => if_congr (hb b hbm) rfl rfl, Finset.sum_ite_eq', if_pos]
  simp only [boxCells, Finset.mem_product, Finset.mem_Ico]
  exact ⟨⟨Int.emod_nonneg _ hc.ne', Int.emod_lt_of_pos _ hc⟩, ⟨Int.emod_nonneg _ hc.ne', Int.emod_lt_of_pos _ hc⟩,
    ⟨Int.emod_nonneg _ hc.ne', Int.emod_lt_of_pos _ hc⟩⟩

/-- A sample counts for a pixel when it is in the column of the pixel and in the depth of the image. -/
theorem cellColumn_eq (g : (Fin 4 → Vec) → Vec → IVec) (w : (Fin 4 → Vec) → Vec → Vec) {cells : ℤ} (hc : 0 < cells)
    (buf dom : CellBounds) (proj : ℤ) (points : ℕ) (n : ℤ) (c cv : ℤ × ℤ × ℤ × Fin 6 → Fin 4 → Vec) (val : Vec → M)
    (U : ℤ × ℤ × ℤ × Fin 6 → List Vec) (i j : ℤ) :
    cellColumn g w cells buf dom proj points n c cv val U i j =
      ∑ t ∈ tetras n, ∑ a ∈ Finset.range points,
        if InPixel cells proj dom (fun b => g (c t) ((U t).getD a 0) b + buf.origin b) i j then
          val (w (cv t) ((U t).getD a 0)) else 0 := by
  unfold cellColumn cellImage
  rw [Finset.sum_comm]
  refine Finset.sum_congr rfl fun t _ => ?_
  rw [Finset.sum_comm]
  refine Finset.sum_congr rfl fun a _ => ?_
  have := sum_depth_wide (M := M) (domCb := dom) (proj := proj) hc {0} (fun _ b => g (c t) ((U t).getD a 0) b + buf.origin b)
    (fun _ => val (w (cv t) ((U t).getD a 0))) i j
  unfold imageAt at this
  simp only [Finset.sum_filter, Finset.sum_singleton] at this
  exact this

/-- In a projection through the whole box every sample has exactly one pixel. -/
theorem cellColumn_sum (g : (Fin 4 → Vec) → Vec → IVec) (w : (Fin 4 → Vec) → Vec → Vec) {cells : ℤ} (hc : 0 < cells)
    (buf dom : CellBounds) (proj : ℤ) (hd : cells ≤ dom.width (projDims proj).2.2) (points : ℕ) (n : ℤ)
    (c cv : ℤ × ℤ × ℤ × Fin 6 → Fin 4 → Vec) (val : Vec → M) (U : ℤ × ℤ × ℤ × Fin 6 → List Vec) :
    ∑ b ∈ rectCells cells cells, cellColumn g w cells buf dom proj points n c cv val U b.1 b.2 =
      placedTotal w points n cv val U := by
  simp only [cellColumn_eq g w hc]
  unfold placedTotal
  rw [Finset.sum_comm]
  refine Finset.sum_congr rfl fun t _ => ?_
  rw [Finset.sum_comm]
  refine Finset.sum_congr rfl fun i _ => ?_
  generalize g (c t) ((U t).getD i 0) = p
  have key : ∀ (j : Fin 3) (d : ℤ), 0 ≤ d → d < cells →
      (cells ∣ p j + buf.origin j - (d + dom.origin j) ↔ d = (p j + buf.origin j - dom.origin j) % cells) := by
    intro j d d0 d1
    rw [eq_comm, emod_eq_iff d0 d1]
    rw [show p j + buf.origin j - (d + dom.origin j) = p j + buf.origin j - dom.origin j - d by ring]
  have hb : ∀ b ∈ rectCells cells cells, (InPixel cells proj dom (fun b => p b + buf.origin b) b.1 b.2 ↔
      b = ((p (projDims proj).1 + buf.origin (projDims proj).1 - dom.origin (projDims proj).1) % cells,
        (p (projDims proj).2.1 + buf.origin (projDims proj).2.1 - dom.origin (projDims proj).2.1) % cells)) := by
    intro b hb
    simp only [rectCells, Finset.mem_product, Finset.mem_Ico] at hb
    obtain ⟨b0, b1⟩ := b
    obtain ⟨⟨x0, x1⟩, y0, y1⟩ := hb
    rw [Prod.mk.injEq, ← key _ b0 x0 x1, ← key _ b1 y0 y1]
    unfold InPixel
    exact ⟨fun hh => ⟨hh.1, hh.2.1⟩, fun hh => ⟨hh.1, hh.2, (Int.emod_lt_of_pos _ hc).trans_le hd⟩⟩
  rw [Finset.sum_congr rfl fun b hbm => if_congr (hb b hbm) rfl rfl, Finset.sum_ite_eq', if_pos]
  simp only [rectCells, Finset.mem_product, Finset.mem_Ico]
  exact ⟨⟨Int.emod_nonneg _ hc.ne', Int.emod_lt_of_pos _ hc⟩, ⟨Int.emod_nonneg _ hc.ne', Int.emod_lt_of_pos _ hc⟩⟩

/-! ## Domain buffers -/

section Domain

variable (mc : MC) (pick : ℕ → ℕ → ℤ) (h : ∀ id, mc.Runs (pick id)) (hcells : 0 < mc.cells) (hbd : mc.buf = mc.dom)
  (hbw : ∀ j, 0 ≤ mc.dom.width j) (reqVel : Bool) (val : Vec → M) (hval : reqVel = false → ∀ w w', val w = val w')
  (xs vs : List Vec) (hx : (xs.length : ℤ) = (mc.segWidth + 1) * (mc.segWidth + 1) * (mc.segWidth + 1))
  (hv : reqVel = true → (vs.length : ℤ) = (mc.segWidth + 1) * (mc.segWidth + 1) * (mc.segWidth + 1))
  (hrange : ∀ t ∈ tetras (mc.segWidth / mc.skip), ∀ u ∈ mc.unitBufs, ∀ p ∈ u, ∀ j,
    -mc.cells ≤ mc.cellA (segCorners mc xs t) p j ∧ mc.cellA (segCorners mc xs t) p j < 2 * mc.cells)
  (hskip : ∀ t ∈ tetras (mc.segWidth / mc.skip), mc.drawnA (segCorners mc xs t) = false → ∀ u ∈ mc.unitBufs, ∀ p ∈ u,
    ¬ ∃ x y z, IsCell mc.dom.width x y z ∧ ∀ j, mc.cells ∣
      mc.cellA (segCorners mc xs t) p j + mc.buf.origin j - ((![x, y, z] : IVec) j + mc.dom.origin j))
  (workers : ℕ) (hw : 0 < workers) (s : ℕ → MCState M) (hs : ∀ id, (s id).Ok mc reqVel)

include h hcells hbd hbw hval hx hv hrange hskip hw hs

/-- What the workers together add to the cells of an image, with domain buffers. -/
theorem domain_samples (hz : ∀ id, (s id).cells = List.replicate (bufferSize3 mc.buf).toNat 0) :
    ∃ (s' : ℕ → MCState M) (G : ℕ → ℤ → M) (U : ℤ × ℤ × ℤ × Fin 6 → List Vec), (∀ t, U t ∈ mc.unitBufs) ∧
      (∀ id < workers,
        mcInterpolate mc reqVel (domSub mc val) (pick id) xs vs id (segLen mc.segWidth mc.skip) workers (s id) =
          some (s' id) ∧
        Adds (boxLen3 mc.dom) (domAdd (s' id).cells) (G id)) ∧
      ∀ x y z, IsCell mc.dom.width x y z →
        ∑ id ∈ Finset.range workers, G id (x + y * mc.dom.width 0 + z * (mc.dom.width 0 * mc.dom.width 1)) =
          if x < mc.cells ∧ y < mc.cells ∧ z < mc.cells then
            cellImage mc.cellA mc.arith.place mc.cells mc.buf mc.dom mc.points.toNat (mc.segWidth / mc.skip)
              (segCorners mc xs) (segCorners mc vs) val U x y z
          else 0 := by
  have hbw' : ∀ j, 0 ≤ mc.buf.width j := by rw [hbd]; exact hbw
  have hn : 0 ≤ mc.buf.width 0 * mc.buf.width 1 * mc.buf.width 2 :=
    mul_nonneg (mul_nonneg (hbw' 0) (hbw' 1)) (hbw' 2)
  have hz' : ∀ id, Cells (mc.buf.width 0 * mc.buf.width 1 * mc.buf.width 2) (s id).cells (fun _ => 0) := by
    intro id
    have := cells_zero (M := M) (bufferSize3 mc.buf).toNat
    rw [hz id]
    unfold bufferSize3 at this ⊢
    rwa [Int.toNat_of_nonneg hn] at this
  obtain ⟨s', B, U, hU, hrun, hsum⟩ := mc_workersA h (domSub_any mc reqVel val hval) hx hv (by
    intro x y z hc d _ u hu p hp
    exact hrange (x, y, z, d) (mem_tetras.mpr hc) u hu p hp) workers hw s hs _ hz'
  refine ⟨s', B, U, hU, fun id hid => ⟨(hrun id hid).1, ?_⟩, fun x y z hc => ?_⟩
  · have := domAdd_adds (hrun id hid).2.2
    unfold boxLen3
    rw [hbd] at this
    refine adds_congr this fun c _ _ => ?_
    simp only [zero_add]
  rw [hsum]
  have hcp : ∀ (q : IVec) j, 0 ≤ q j % mc.cells ∧ q j % mc.cells < mc.cells := fun q j =>
    ⟨Int.emod_nonneg _ hcells.ne', Int.emod_lt_of_pos _ hcells⟩
  split_ifs with hper
  swap
  · refine Finset.sum_eq_zero fun t _ => ?_
    change mc.depositA _ (segCorners mc xs t) (segCorners mc vs t) (U t) _ = _
    unfold MC.depositA
    split_ifs
    swap
    · rfl
    refine Finset.sum_eq_zero fun i _ => if_neg ?_
    change ¬ ((mc.cellA (segCorners mc xs t) ((U t).getD i 0) 0 % mc.cells < _ ∧
      mc.cellA (segCorners mc xs t) ((U t).getD i 0) 1 % mc.cells < _ ∧
      mc.cellA (segCorners mc xs t) ((U t).getD i 0) 2 % mc.cells < _) ∧ _ =
      mc.cellA (segCorners mc xs t) ((U t).getD i 0) 0 % mc.cells +
      mc.cellA (segCorners mc xs t) ((U t).getD i 0) 1 % mc.cells * _ +
      mc.cellA (segCorners mc xs t) ((U t).getD i 0) 2 % mc.cells * _)
    generalize mc.cellA (segCorners mc xs t) ((U t).getD i 0) = q
    rintro ⟨⟨l0, l1, l2⟩, eq⟩
    rw [hbd] at l0 l1 l2 eq
    rw [flat_inj hc ⟨⟨(hcp q 0).1, l0⟩, ⟨(hcp q 1).1, l1⟩, ⟨(hcp q 2).1, l2⟩⟩] at eq
    refine hper ⟨?_, ?_, ?_⟩
    · rw [eq.1]; exact (hcp q 0).2
    · rw [eq.2.1]; exact (hcp q 1).2
    · rw [eq.2.2]; exact (hcp q 2).2
  unfold cellImage
  refine Finset.sum_congr rfl fun t ht => ?_
  change mc.depositA _ (segCorners mc xs t) (segCorners mc vs t) (U t) _ = _
  by_cases hd : mc.drawnA (segCorners mc xs t) = true
  · unfold MC.depositA
    simp only [if_pos hd]
    refine Finset.sum_congr rfl fun i _ => if_congr ?_ rfl rfl
    change ((mc.cellA (segCorners mc xs t) ((U t).getD i 0) 0 % mc.cells < _ ∧
      mc.cellA (segCorners mc xs t) ((U t).getD i 0) 1 % mc.cells < _ ∧
      mc.cellA (segCorners mc xs t) ((U t).getD i 0) 2 % mc.cells < _) ∧ _ =
      mc.cellA (segCorners mc xs t) ((U t).getD i 0) 0 % mc.cells +
      mc.cellA (segCorners mc xs t) ((U t).getD i 0) 1 % mc.cells * _ +
      mc.cellA (segCorners mc xs t) ((U t).getD i 0) 2 % mc.cells * _) ↔ _
    generalize mc.cellA (segCorners mc xs t) ((U t).getD i 0) = q
    have hem : ∀ j d, 0 ≤ d → d < mc.cells → (q j % mc.cells = d ↔
        mc.cells ∣ q j + mc.dom.origin j - (d + mc.dom.origin j)) := by
      intro j d d0 d1
      rw [emod_eq_iff d0 d1, show q j + mc.dom.origin j - (d + mc.dom.origin j) = q j - d by ring]
    obtain ⟨c0, c1, c2⟩ := hc
    rw [hbd]
    constructor
    · rintro ⟨⟨l0, l1, l2⟩, eq⟩
      rw [flat_inj ⟨c0, c1, c2⟩ ⟨⟨(hcp q 0).1, l0⟩, ⟨(hcp q 1).1, l1⟩, ⟨(hcp q 2).1, l2⟩⟩] at eq
      intro j
      fin_cases j
      · exact (hem 0 x c0.1 hper.1).mp eq.1.symm
      · exact (hem 1 y c1.1 hper.2.1).mp eq.2.1.symm
      · exact (hem 2 z c2.1 hper.2.2).mp eq.2.2.symm
    · intro hh
      rw [(hem 0 x c0.1 hper.1).mpr (hh 0), (hem 1 y c1.1 hper.2.1).mpr (hh 1), (hem 2 z c2.1 hper.2.2).mpr (hh 2)]
      exact ⟨⟨c0.2, c1.2, c2.2⟩, rfl⟩
  · have hd' : mc.drawnA (segCorners mc xs t) = false := by simpa using hd
    unfold MC.depositA
    simp only [if_neg hd]
    refine (Finset.sum_eq_zero fun i hi => if_neg fun hh => ?_).symm
    exact hskip t ht hd' _ (hU t) _ (mem_getD ((h 0).unit _ (hU t)) (Finset.mem_range.mp hi)) ⟨x, y, z, hc, hh⟩

/-- The same for the pixels of a projected image. -/
theorem domain2_samples (proj : ℤ) (hproj : 0 ≤ proj ∧ proj < 3)
    (hz : ∀ id, (s id).cells = List.replicate (bufferSize2 mc.buf proj).toNat 0) :
    ∃ (s' : ℕ → MCState M) (G : ℕ → ℤ → M) (U : ℤ × ℤ × ℤ × Fin 6 → List Vec), (∀ t, U t ∈ mc.unitBufs) ∧
      (∀ id < workers,
        mcInterpolate mc reqVel (dom2Sub mc proj val) (pick id) xs vs id (segLen mc.segWidth mc.skip) workers (s id) =
          some (s' id) ∧
        Adds (boxLen2 mc.dom proj) (domAdd (s' id).cells) (G id)) ∧
      ∀ i j, (0 ≤ i ∧ i < mc.dom.width (projDims proj).1) → (0 ≤ j ∧ j < mc.dom.width (projDims proj).2.1) →
        ∑ id ∈ Finset.range workers, G id (i + j * mc.dom.width (projDims proj).1) =
          if i < mc.cells ∧ j < mc.cells then
            cellColumn mc.cellA mc.arith.place mc.cells mc.buf mc.dom proj mc.points.toNat (mc.segWidth / mc.skip)
              (segCorners mc xs) (segCorners mc vs) val U i j
          else 0 := by
  have hbw' : ∀ j, 0 ≤ mc.buf.width j := by rw [hbd]; exact hbw
  have hn : 0 ≤ mc.buf.width (projDims proj).1 * mc.buf.width (projDims proj).2.1 :=
    mul_nonneg (hbw' _) (hbw' _)
  have hz' : ∀ id, Cells (mc.buf.width (projDims proj).1 * mc.buf.width (projDims proj).2.1) (s id).cells
      (fun _ => 0) := by
    intro id
    have := cells_zero (M := M) (bufferSize2 mc.buf proj).toNat
    rw [hz id]
    rw [bufferSize2_eq _ _ hproj] at this ⊢
    rwa [Int.toNat_of_nonneg hn] at this
  obtain ⟨s', B, U, hU, hrun, hsum⟩ := mc_workersA h (dom2Sub_any mc proj reqVel val hval) hx hv (by
    intro x y z hc d _ u hu p hp
    exact hrange (x, y, z, d) (mem_tetras.mpr hc) u hu p hp) workers hw s hs _ hz'
  refine ⟨s', B, U, hU, fun id hid => ⟨(hrun id hid).1, ?_⟩, fun i j hi hj => ?_⟩
  · have := domAdd_adds (hrun id hid).2.2
    unfold boxLen2
    rw [hbd] at this
    refine adds_congr this fun c _ _ => ?_
    simp only [zero_add]
  rw [hsum]
  have hcp : ∀ (q : IVec) j, 0 ≤ q j % mc.cells ∧ q j % mc.cells < mc.cells := fun q j =>
    ⟨Int.emod_nonneg _ hcells.ne', Int.emod_lt_of_pos _ hcells⟩
  by_cases hperiod : i < mc.cells ∧ j < mc.cells
  swap
  · rw [if_neg hperiod]
    refine Finset.sum_eq_zero fun t ht => ?_
    change mc.depositA _ (segCorners mc xs t) (segCorners mc vs t) (U t) _ = _
    unfold MC.depositA
    split_ifs
    · refine Finset.sum_eq_zero fun a _ => if_neg ?_
      change ¬ ((mc.cellA (segCorners mc xs t) ((U t).getD a 0) (projDims proj).1 % mc.cells < _ ∧
        mc.cellA (segCorners mc xs t) ((U t).getD a 0) (projDims proj).2.1 % mc.cells < _ ∧
        mc.cellA (segCorners mc xs t) ((U t).getD a 0) (projDims proj).2.2 % mc.cells < _) ∧ _ =
        mc.cellA (segCorners mc xs t) ((U t).getD a 0) (projDims proj).1 % mc.cells +
        mc.cellA (segCorners mc xs t) ((U t).getD a 0) (projDims proj).2.1 % mc.cells * _)
      generalize mc.cellA (segCorners mc xs t) ((U t).getD a 0) = q
      rintro ⟨⟨c0, c1, c2⟩, eq⟩
      rw [hbd] at eq c0
      rw [flat2_inj hi hj ⟨(hcp q _).1, c0⟩] at eq
      rw [eq.1, eq.2] at hperiod
      exact hperiod ⟨(hcp q _).2, (hcp q _).2⟩
    · rfl
  rw [if_pos hperiod, cellColumn_eq _ _ hcells]
  refine Finset.sum_congr rfl fun t ht => ?_
  change mc.depositA _ (segCorners mc xs t) (segCorners mc vs t) (U t) _ = _
  by_cases hd : mc.drawnA (segCorners mc xs t) = true
  · unfold MC.depositA
    simp only [if_pos hd]
    refine Finset.sum_congr rfl fun a _ => if_congr ?_ rfl rfl
    change ((mc.cellA (segCorners mc xs t) ((U t).getD a 0) (projDims proj).1 % mc.cells < _ ∧
      mc.cellA (segCorners mc xs t) ((U t).getD a 0) (projDims proj).2.1 % mc.cells < _ ∧
      mc.cellA (segCorners mc xs t) ((U t).getD a 0) (projDims proj).2.2 % mc.cells < _) ∧ _ =
      mc.cellA (segCorners mc xs t) ((U t).getD a 0) (projDims proj).1 % mc.cells +
      mc.cellA (segCorners mc xs t) ((U t).getD a 0) (projDims proj).2.1 % mc.cells * _) ↔ _
    generalize mc.cellA (segCorners mc xs t) ((U t).getD a 0) = q
    have hem : ∀ j d, 0 ≤ d → d < mc.cells → (q j % mc.cells = d ↔
        mc.cells ∣ q j + mc.dom.origin j - (d + mc.dom.origin j)) := by
      intro j d d0 d1
      rw [emod_eq_iff d0 d1, show q j + mc.dom.origin j - (d + mc.dom.origin j) = q j - d by ring]
    rw [hbd]
    unfold InPixel
    rw [← hem _ i hi.1 hperiod.1, ← hem _ j hj.1 hperiod.2, add_sub_cancel_right]
    constructor
    · rintro ⟨⟨c0, c1, c2⟩, eq⟩
      rw [flat2_inj hi hj ⟨(hcp q _).1, c0⟩] at eq
      exact ⟨eq.1.symm, eq.2.symm, c2⟩
    · rintro ⟨a, b, c⟩
      rw [a, b]
      exact ⟨⟨hi.2, hj.2, c⟩, rfl⟩
  · have hd' : mc.drawnA (segCorners mc xs t) = false := by simpa using hd
    unfold MC.depositA
    simp only [if_neg hd]
    refine (Finset.sum_eq_zero fun a ha => if_neg fun hh => ?_).symm
    exact hskip t ht hd' _ (hU t) _ (mem_getD ((h 0).unit _ (hU t)) (Finset.mem_range.mp ha)) (hh.place hcells hi hj)

omit hbw in
/-- The total over an image as wide as the box. -/
theorem domain_samples_total (hwide : ∀ j, mc.cells ≤ mc.dom.width j)
    (hz : ∀ id, (s id).cells = List.replicate (bufferSize3 mc.buf).toNat 0) :
    ∃ (s' : ℕ → MCState M) (G : ℕ → ℤ → M) (U : ℤ × ℤ × ℤ × Fin 6 → List Vec), (∀ t, U t ∈ mc.unitBufs) ∧
      (∀ id < workers,
        mcInterpolate mc reqVel (domSub mc val) (pick id) xs vs id (segLen mc.segWidth mc.skip) workers (s id) =
          some (s' id) ∧
        Adds (boxLen3 mc.dom) (domAdd (s' id).cells) (G id)) ∧
      ∑ c ∈ Finset.Ico 0 (boxLen3 mc.dom), ∑ id ∈ Finset.range workers, G id c =
        placedTotal mc.arith.place mc.points.toNat (mc.segWidth / mc.skip) (segCorners mc vs) val U := by
  obtain ⟨s', G, U, hU, hrun, hsum⟩ := domain_samples mc pick h hcells hbd (fun j => hcells.le.trans (hwide j)) reqVel val hval
    xs vs hx hv hrange hskip workers hw s hs hz
  refine ⟨s', G, U, hU, hrun, ?_⟩
  unfold boxLen3
  rw [sum_boxCells fun j => hcells.le.trans (hwide j)]
  rw [← cellImage_sum mc.cellA mc.arith.place mc.cells hcells mc.buf mc.dom mc.points.toNat (mc.segWidth / mc.skip)
    (segCorners mc xs) (segCorners mc vs) val U, ← sum_period hwide]
  refine Finset.sum_congr rfl fun b hb => ?_
  simp only [boxCells, Finset.mem_product, Finset.mem_Ico] at hb
  exact hsum b.1 b.2.1 b.2.2 hb

omit hbw in
/-- The total over a projection through the whole box. -/
theorem domain2_samples_total (proj : ℤ) (hproj : 0 ≤ proj ∧ proj < 3) (hwide : ∀ j, mc.cells ≤ mc.dom.width j)
    (hz : ∀ id, (s id).cells = List.replicate (bufferSize2 mc.buf proj).toNat 0) :
    ∃ (s' : ℕ → MCState M) (G : ℕ → ℤ → M) (U : ℤ × ℤ × ℤ × Fin 6 → List Vec), (∀ t, U t ∈ mc.unitBufs) ∧
      (∀ id < workers,
        mcInterpolate mc reqVel (dom2Sub mc proj val) (pick id) xs vs id (segLen mc.segWidth mc.skip) workers (s id) =
          some (s' id) ∧
        Adds (boxLen2 mc.dom proj) (domAdd (s' id).cells) (G id)) ∧
      ∑ c ∈ Finset.Ico 0 (boxLen2 mc.dom proj), ∑ id ∈ Finset.range workers, G id c =
        placedTotal mc.arith.place mc.points.toNat (mc.segWidth / mc.skip) (segCorners mc vs) val U := by
  obtain ⟨s', G, U, hU, hrun, hsum⟩ := domain2_samples mc pick h hcells hbd (fun j => hcells.le.trans (hwide j)) reqVel val
    hval xs vs hx hv hrange hskip workers hw s hs proj hproj hz
  refine ⟨s', G, U, hU, hrun, ?_⟩
  unfold boxLen2
  rw [sum_rectCells (hcells.le.trans (hwide _))]
  rw [← cellColumn_sum mc.cellA mc.arith.place hcells mc.buf mc.dom proj (hwide _) mc.points.toNat (mc.segWidth / mc.skip)
    (segCorners mc xs) (segCorners mc vs) val U]
  rw [Finset.sum_congr rfl fun b hb => by
    simp only [rectCells, Finset.mem_product, Finset.mem_Ico] at hb
    exact hsum b.1 b.2 hb.1 hb.2]
  rw [← Finset.sum_filter]
  refine Finset.sum_congr ?_ fun _ _ => rfl
  ext b
  simp only [rectCells, Finset.mem_filter, Finset.mem_product, Finset.mem_Ico]
  have := hwide (projDims proj).1
  have := hwide (projDims proj).2.1
  omega

end Domain

/-! ## Segment buffers of a projected image -/

/-- What the workers together add to the pixels of a projected image, with segment buffers, in any arithmetic that keeps the
samples in the buffer and at a positive depth. -/
theorem segment2_samples (mc : MC) (proj : ℤ) (hproj : 0 ≤ proj ∧ proj < 3) (pick : ℕ → ℕ → ℤ)
    (h : ∀ id, mc.Runs (pick id)) (hcells : 0 < mc.cells)
    (hpl : Near mc.cells mc.buf mc.dom)
    (hrel : ∀ j, -mc.cells < mc.dom.origin j - mc.buf.origin j ∧ mc.dom.origin j - mc.buf.origin j < mc.cells)
    (hbw : ∀ j, 0 ≤ mc.buf.width j) (reqVel : Bool) (val : Vec → M)
    (hval : reqVel = false → ∀ w w', val w = val w') (xs vs : List Vec)
    (hx : (xs.length : ℤ) = (mc.segWidth + 1) * (mc.segWidth + 1) * (mc.segWidth + 1))
    (hv : reqVel = true → (vs.length : ℤ) = (mc.segWidth + 1) * (mc.segWidth + 1) * (mc.segWidth + 1))
    (hpos : ∀ p ∈ xs, ∀ j, 0 ≤ p j)
    (hin : ∀ t ∈ tetras (mc.segWidth / mc.skip), ∀ u ∈ mc.unitBufs, ∀ p ∈ u, ∀ j,
      0 < mc.arith.place (segCorners mc xs t) p j ∧ mc.arith.place (segCorners mc xs t) p j < mc.buf.width j)
    (hskip : ∀ t ∈ tetras (mc.segWidth / mc.skip), mc.drawnA (segCorners mc xs t) = false → ∀ u ∈ mc.unitBufs, ∀ p ∈ u,
      ¬ ∃ x y z, IsCell mc.dom.width x y z ∧ ∀ j, mc.cells ∣
        ⌊mc.arith.place (segCorners mc xs t) p j⌋ + mc.buf.origin j - ((![x, y, z] : IVec) j + mc.dom.origin j))
    (workers : ℕ) (hw : 0 < workers) (s : ℕ → MCState M) (hs : ∀ id, (s id).Ok mc reqVel)
    (hz : ∀ id, (s id).cells = List.replicate (bufferSize2 mc.buf proj).toNat 0) :
    ∃ (s' : ℕ → MCState M) (G : ℕ → ℤ → M) (U : ℤ × ℤ × ℤ × Fin 6 → List Vec), (∀ t, U t ∈ mc.unitBufs) ∧
      (∀ id < workers,
        mcInterpolate mc reqVel (seg2Sub mc proj val) (pick id) xs vs id (segLen mc.segWidth mc.skip) workers (s id) =
          some (s' id) ∧
        Adds (boxLen2 mc.dom proj) (seg2Add mc.buf mc.dom mc.cells proj (s' id).cells) (G id)) ∧
      ∀ i j, (0 ≤ i ∧ i < mc.dom.width (projDims proj).1) → (0 ≤ j ∧ j < mc.dom.width (projDims proj).2.1) →
        ∑ id ∈ Finset.range workers, G id (i + j * mc.dom.width (projDims proj).1) =
          if i < mc.cells ∧ j < mc.cells then
            cellColumn (fun c p j => ⌊mc.arith.place c p j⌋) mc.arith.place mc.cells mc.buf mc.dom proj mc.points.toNat
              (mc.segWidth / mc.skip) (segCorners mc xs) (segCorners mc vs) val U i j
          else 0 := by
  have hsk := (h 0).skip
  have hn : 0 ≤ mc.buf.width (projDims proj).1 * mc.buf.width (projDims proj).2.1 := mul_nonneg (hbw _) (hbw _)
  have hz' : ∀ id, Cells (mc.buf.width (projDims proj).1 * mc.buf.width (projDims proj).2.1) (s id).cells
      (fun _ => 0) := by
    intro id
    have := cells_zero (M := M) (bufferSize2 mc.buf proj).toNat
    rw [hz id]
    rw [bufferSize2_eq _ _ hproj] at this ⊢
    rwa [Int.toNat_of_nonneg hn] at this
  have hcor : ∀ t ∈ tetras (mc.segWidth / mc.skip), ∀ k j, 0 ≤ segCorners mc xs t k j :=
    fun t ht k => hpos _ (corner_mem hsk hx (mem_tetras.mp ht) _ k)
  have hfix : ∀ t ∈ tetras (mc.segWidth / mc.skip), ∀ p, mc.fixA (segCorners mc xs t) p = p :=
    fun t ht p => fixA_of_nonneg (hcor t ht) p
  obtain ⟨s', B, U, hU, hrun, hsum⟩ := mc_workersA h (seg2Sub_any mc (h 0).laws proj hpl reqVel val hval) hx hv (by
    intro x y z hc d _ u hu p hp
    have ht : (x, y, z, d) ∈ tetras (mc.segWidth / mc.skip) := mem_tetras.mpr hc
    have := hfix _ ht (mc.arith.place (segCorners mc xs (x, y, z, d)) p)
    rw [show tetCorners mc.segWidth mc.skip xs x y z d = segCorners mc xs (x, y, z, d) from rfl, this]
    have hi := hin _ ht u hu p hp
    refine ⟨?_, fun j => ⟨(hi j).1.le, (hi j).2⟩⟩
    have h1 := le_intFloor (mc.arith.place (segCorners mc xs (x, y, z, d)) p (projDims proj).2.2)
    rw [← (h 0).laws.floor _ (hi _).1.le] at h1
    have h2 := Int.floor_nonneg.mpr (hi (projDims proj).2.2).1.le
    have h3 := hrel (projDims proj).2.2
    omega) workers hw s hs _ hz'
  have hadd : ∀ id : ℕ, ∃ G, id < workers →
      (Adds (boxLen2 mc.dom proj) (seg2Add mc.buf mc.dom mc.cells proj (s' id).cells) G ∧
      ∀ i j, (0 ≤ i ∧ i < mc.dom.width (projDims proj).1) → (0 ≤ j ∧ j < mc.dom.width (projDims proj).2.1) →
        G (i + j * mc.dom.width (projDims proj).1) =
        ∑ b ∈ rectCells (mc.buf.width (projDims proj).1) (mc.buf.width (projDims proj).2.1)
          with AtPlace mc.cells mc.buf mc.dom (projDims proj).1 b.1 i ∧
            AtPlace mc.cells mc.buf mc.dom (projDims proj).2.1 b.2 j,
          B id (b.1 + b.2 * mc.buf.width (projDims proj).1)) := by
    intro id
    by_cases hid : id < workers
    · obtain ⟨G, hA, hG⟩ := seg2Add_adds_wide (proj := proj) hpl (hrun id hid).2.2
      refine ⟨G, fun _ => ⟨hA, fun i j hi hj => ?_⟩⟩
      rw [hG i j hi hj]
      simp only [zero_add]
    · exact ⟨fun _ => 0, fun h => absurd h hid⟩
  choose G hG using hadd
  refine ⟨s', G, U, hU, fun id hid => ⟨(hrun id hid).1, (hG id hid).1⟩, fun i j hi hj => ?_⟩
  rw [Finset.sum_congr rfl fun id hid => (hG id (Finset.mem_range.mp hid)).2 i j hi hj, Finset.sum_comm]
  by_cases hperiod : i < mc.cells ∧ j < mc.cells
  swap
  · rw [if_neg hperiod, Finset.filter_false_of_mem, Finset.sum_empty]
    rintro b - ⟨h1, h2⟩
    exact hperiod ⟨h1.1, h2.1⟩
  rw [if_pos hperiod, cellColumn_eq _ _ hcells]
  rw [Finset.sum_congr rfl fun b _ => hsum _, Finset.sum_comm]
  refine Finset.sum_congr rfl fun t ht => ?_
  change ∑ b ∈ _, mc.depositA _ (segCorners mc xs t) (segCorners mc vs t) (U t) _ = _
  by_cases hd : mc.drawnA (segCorners mc xs t) = true
  · unfold MC.depositA
    simp only [if_pos hd]
    rw [Finset.sum_comm]
    refine Finset.sum_congr rfl fun a ha => ?_
    have hpin := hin t ht _ (hU t) _ (mem_getD ((h 0).unit _ (hU t)) (Finset.mem_range.mp ha))
    rw [hfix t ht]
    generalize mc.arith.place (segCorners mc xs t) ((U t).getD a 0) = p at *
    have hfl : mc.arith.floor (p (projDims proj).2.2) = ⌊p (projDims proj).2.2⌋ := by
      have hp := (hpin (projDims proj).2.2).1
      rw [(h 0).laws.floor _ hp.le]
      unfold intFloor
      rw [if_pos hp, trunc_of_nonneg hp.le]
    have f : ∀ j, 0 ≤ cellOf p j ∧ cellOf p j < mc.buf.width j := fun j =>
      ⟨Int.floor_nonneg.mpr (hpin j).1.le, Int.floor_lt.mpr (hpin j).2⟩
    have hb : ∀ b ∈ rectCells (mc.buf.width (projDims proj).1) (mc.buf.width (projDims proj).2.1),
        (b.1 + b.2 * mc.buf.width (projDims proj).1 =
          cellOf p (projDims proj).1 + cellOf p (projDims proj).2.1 * mc.buf.width (projDims proj).1) ↔
        b = (cellOf p (projDims proj).1, cellOf p (projDims proj).2.1) := by
      intro b hb
      simp only [rectCells, Finset.mem_product, Finset.mem_Ico] at hb
      rw [flat2_inj hb.1 hb.2 (f _), Prod.ext_iff]
    have hmem : (cellOf p (projDims proj).1, cellOf p (projDims proj).2.1) ∈
        rectCells (mc.buf.width (projDims proj).1) (mc.buf.width (projDims proj).2.1) := by
      simp only [rectCells, Finset.mem_product, Finset.mem_Ico]
      exact ⟨f _, f _⟩
    rw [Finset.sum_filter, Finset.sum_congr rfl fun b hbm => by rw [if_congr (and_congr_right' (hb b hbm)) rfl rfl]]
    rw [Finset.sum_eq_single (cellOf p (projDims proj).1, cellOf p (projDims proj).2.1)]
    · rw [← ite_and]
      refine if_congr ?_ rfl rfl
      rw [hfl]
      unfold InPixel AtPlace SamePlace
      constructor
      · rintro ⟨⟨a, b⟩, c, -⟩; exact ⟨a.2, b.2, c⟩
      · rintro ⟨a, b, c⟩; exact ⟨⟨⟨hperiod.1, a⟩, hperiod.2, b⟩, c, rfl⟩
    · intro b _ hne
      split_ifs with h1 h2
      · exact absurd h2.2 hne
      · rfl
      · rfl
    · intro hne
      exact absurd hmem hne
  · have hd' : mc.drawnA (segCorners mc xs t) = false := by simpa using hd
    unfold MC.depositA
    simp only [if_neg hd]
    rw [Finset.sum_const_zero]
    refine (Finset.sum_eq_zero fun a ha => if_neg fun hh => ?_).symm
    exact hskip t ht hd' _ (hU t) _ (mem_getD ((h 0).unit _ (hU t)) (Finset.mem_range.mp ha)) (hh.place hcells hi hj)

end Verif.Render
