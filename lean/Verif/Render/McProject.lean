import Verif.Render.McImage
import Verif.Render.Project

/-!
# What a segment adds to a projected image: C111
-/

set_option autoImplicit false

namespace Verif.Render

open Verif.Go Verif.Geom

variable {M : Type} [AddCommMonoid M]

/-! ## Specification -/

/-- Value a segment adds to the pixel `(i, j)` of an image projected along axis `proj`: what it adds to the voxels
behind the pixel, from the front to the back of the image. The voxels from depth `cells` on are in the same places as
the first ones and are not counted again. -/
def sampleColumn (cells : ℤ) (buf dom : CellBounds) (proj : ℤ) (points : ℕ) (n : ℤ)
    (c cv : ℤ × ℤ × ℤ × Fin 6 → Fin 4 → Vec) (val : Vec → M) (U : ℤ × ℤ × ℤ × Fin 6 → List Vec) (i j : ℤ) : M :=
  ∑ k ∈ Finset.Ico 0 (min (dom.width (projDims proj).2.2) cells),
    sampleImage cells buf dom points n c cv val U (voxel proj i j k 0) (voxel proj i j k 1) (voxel proj i j k 2)

/-! ## Model -/

/-- The division of the value of a point by the depth of the image, render/box.go 502 and 601. -/
def projPtVal (dom : CellBounds) (proj : ℤ) (ptVal : ℚ) : ℚ := ptVal / dom.width (projDims proj).2.2

/-- `segmentOverlap2D.Interpolate` as called for one tetrahedron: the value of point `i` is `val` of weight `i`.
render/box.go 491-534. -/
def seg2Sub {M : Type} [Add M] (mc : MC) (proj : ℤ) (val : Vec → M) (out w : List Vec) (cells : List M) :
    Option (List M) :=
  seg2InterpolateWith mc.arith.floor mc.buf mc.dom mc.cells proj out (fun idx => val (w.getD idx.toNat 0)) 0 mc.points 1 cells

/-- `domainOverlap2D.Interpolate` as called for one tetrahedron. render/box.go 588-636. -/
def dom2Sub {M : Type} [Add M] (mc : MC) (proj : ℤ) (val : Vec → M) (out w : List Vec) (cells : List M) :
    Option (List M) :=
  dom2InterpolateWith mc.arith.floor mc.buf mc.cells proj out (fun idx => val (w.getD idx.toNat 0)) 0 mc.points 1 cells

/-! ## Proof -/

theorem seg2Sub_ok (mc : MC) (ha : mc.arith = .exact) (proj : ℤ) (hpl : Near mc.cells mc.buf mc.dom) (reqVel : Bool) (val : Vec → M)
    (hval : reqVel = false → ∀ w w', val w = val w') :
    SubOk mc reqVel (seg2Sub mc proj val) (mc.buf.width (projDims proj).1 * mc.buf.width (projDims proj).2.1)
      (fun p => p (projDims proj).2.2 ≠ 0 ∧ ∀ j, 0 ≤ p j ∧ p j < mc.buf.width j)
      (fun p w c => if (cellOf p (projDims proj).2.2 + mc.buf.origin (projDims proj).2.2 -
            mc.dom.origin (projDims proj).2.2) % mc.cells < mc.dom.width (projDims proj).2.2 ∧
          c = cellOf p (projDims proj).1 + cellOf p (projDims proj).2.1 * mc.buf.width (projDims proj).1
        then val w else 0) := by
  have e : seg2Sub mc proj val = fun out w => seg2Interpolate mc.buf mc.dom mc.cells proj out
      (fun idx => val (w.getD idx.toNat 0)) 0 mc.points 1 := by
    unfold seg2Sub; rw [ha]; rfl
  rw [e]
  constructor
  · intro out w hl hQ _
    have := seg2_adds (M := M) (proj := proj) hpl (xs := out) (P := fun idx => out.getD idx.toNat 0) (low := 0)
      (high := mc.points) (jump := 1) one_pos (fun idx h => (visited_rd hl idx h).1)
      (fun idx h => (hQ _ (visited_rd hl idx h).2).1)
      (fun idx h => (hQ _ (visited_rd hl idx h).2).2) (fun idx => val (w.getD idx.toNat 0))
    refine adds_congr this fun c _ _ => ?_
    rw [sum_visited_range]
    simp only [Int.toNat_natCast]
  · intro h p w w'
    funext c
    beta_reduce
    rw [hval h w w']

theorem dom2Sub_ok (mc : MC) (ha : mc.arith = .exact) (proj : ℤ) (reqVel : Bool) (val : Vec → M)
    (hval : reqVel = false → ∀ w w', val w = val w') :
    SubOk mc reqVel (dom2Sub mc proj val) (mc.buf.width (projDims proj).1 * mc.buf.width (projDims proj).2.1)
      (fun p => FloorOk p ∧ ∀ j, -mc.cells ≤ p j ∧ p j < 2 * mc.cells)
      (fun p w c => if (cellOf p (projDims proj).1 % mc.cells < mc.buf.width (projDims proj).1 ∧
            cellOf p (projDims proj).2.1 % mc.cells < mc.buf.width (projDims proj).2.1 ∧
            cellOf p (projDims proj).2.2 % mc.cells < mc.buf.width (projDims proj).2.2) ∧
          c = cellOf p (projDims proj).1 % mc.cells +
            cellOf p (projDims proj).2.1 % mc.cells * mc.buf.width (projDims proj).1 then val w else 0) := by
  have e : dom2Sub mc proj val = fun out w => dom2Interpolate mc.buf mc.cells proj out
      (fun idx => val (w.getD idx.toNat 0)) 0 mc.points 1 := by
    unfold dom2Sub; rw [ha]; rfl
  rw [e]
  constructor
  · intro out w hl hQ _
    have := dom2_adds (M := M) (domCb := mc.buf) (cells := mc.cells) (proj := proj) (xs := out)
      (P := fun idx => out.getD idx.toNat 0) (low := 0)
      (high := mc.points) (jump := 1) one_pos (fun idx h => (visited_rd hl idx h).1)
      (fun idx h => (hQ _ (visited_rd hl idx h).2).1)
      (fun idx h j => by
        have hr := (hQ _ (visited_rd hl idx h).2).2 j
        exact ⟨Int.le_floor.mpr (by push_cast; exact hr.1), Int.floor_lt.mpr (by push_cast; exact hr.2)⟩)
      (fun idx => val (w.getD idx.toNat 0))
    refine adds_congr this fun c _ _ => ?_
    rw [sum_visited_range]
    simp only [Int.toNat_natCast]
  · intro h p w w'
    funext c
    beta_reduce
    rw [hval h w w']

/-- A sample counts for a pixel when it lies in the column of the pixel and in the depth of the image. -/
theorem sampleColumn_eq {cells : ℤ} (hc : 0 < cells) (buf dom : CellBounds) (proj : ℤ) (points : ℕ) (n : ℤ)
    (c cv : ℤ × ℤ × ℤ × Fin 6 → Fin 4 → Vec) (val : Vec → M) (U : ℤ × ℤ × ℤ × Fin 6 → List Vec) (i j : ℤ) :
    sampleColumn cells buf dom proj points n c cv val U i j =
      ∑ t ∈ tetras n, ∑ a ∈ Finset.range points,
        if InPixel cells proj dom (fun b => ⌊mix (c t) ((U t).getD a 0) b⌋ + buf.origin b) i j then
          val (mix (cv t) ((U t).getD a 0)) else 0 := by
  unfold sampleColumn sampleImage
  rw [Finset.sum_comm]
  refine Finset.sum_congr rfl fun t _ => ?_
  rw [Finset.sum_comm]
  refine Finset.sum_congr rfl fun a _ => ?_
  have := sum_depth_wide (M := M) (domCb := dom) (proj := proj) hc {0} (fun _ b => ⌊mix (c t) ((U t).getD a 0) b⌋ + buf.origin b)
    (fun _ => val (mix (cv t) ((U t).getD a 0))) i j
  unfold imageAt at this
  simp only [Finset.sum_filter, Finset.sum_singleton] at this
  exact this

/-- A point in a pixel has its place in a voxel of the image. -/
theorem InPixel.place {cells proj : ℤ} (hc : 0 < cells) {dom : CellBounds} {g : IVec} {i j : ℤ}
    (hi : 0 ≤ i ∧ i < dom.width (projDims proj).1) (hj : 0 ≤ j ∧ j < dom.width (projDims proj).2.1)
    (h : InPixel cells proj dom g i j) :
    ∃ x y z, IsCell dom.width x y z ∧ ∀ a, cells ∣ g a - ((![x, y, z] : IVec) a + dom.origin a) := by
  set k := (g (projDims proj).2.2 - dom.origin (projDims proj).2.2) % cells with hk
  have hv : (![voxel proj i j k 0, voxel proj i j k 1, voxel proj i j k 2] : IVec) = voxel proj i j k := by
    funext j; fin_cases j <;> rfl
  obtain ⟨v1, v2, v3⟩ := voxel_dims proj i j k
  have hk0 : 0 ≤ k := Int.emod_nonneg _ hc.ne'
  have hcell : ∀ a, 0 ≤ voxel proj i j k a ∧ voxel proj i j k a < dom.width a := by
    rw [forall_dims proj, v1, v2, v3]
    exact ⟨hi, hj, hk0, h.2.2⟩
  refine ⟨_, _, _, ⟨hcell 0, hcell 1, hcell 2⟩, ?_⟩
  rw [hv, forall_dims proj, v1, v2, v3]
  refine ⟨h.1, h.2.1, ?_⟩
  rw [show g (projDims proj).2.2 - (k + dom.origin (projDims proj).2.2) =
    g (projDims proj).2.2 - dom.origin (projDims proj).2.2 - k by ring]
  exact Int.dvd_self_sub_emod

/-- **C111**, segment buffer: the workers together add to each pixel, for every tetrahedron of the segment, the samples
in the voxels behind the pixel; nothing to pixels beyond the first period of the box. Missing: samples at depth exactly zero of the segment. -/
theorem C111_segment_partial (mc : MC) (proj : ℤ) (hproj : 0 ≤ proj ∧ proj < 3) (pick : ℕ → ℕ → ℤ)
    (h : ∀ id, mc.Ok (pick id)) (hcells : 0 < mc.cells)
    (hpl : Near mc.cells mc.buf mc.dom)
    (hrel : ∀ j, -mc.cells < mc.dom.origin j - mc.buf.origin j ∧ mc.dom.origin j - mc.buf.origin j < mc.cells)
    (hbw : ∀ j, 0 ≤ mc.buf.width j) (reqVel : Bool) (val : Vec → M)
    (hval : reqVel = false → ∀ w w', val w = val w') (xs vs : List Vec)
    (hx : (xs.length : ℤ) = (mc.segWidth + 1) * (mc.segWidth + 1) * (mc.segWidth + 1))
    (hv : reqVel = true → (vs.length : ℤ) = (mc.segWidth + 1) * (mc.segWidth + 1) * (mc.segWidth + 1))
    (hpos : ∀ p ∈ xs, ∀ j, 0 ≤ p j ∧ p j < mc.buf.width j ∧ p j < mc.cells)
    (hface : ∀ t ∈ tetras (mc.segWidth / mc.skip), ∀ u ∈ mc.unitBufs, ∀ p ∈ u,
      mix (segCorners mc xs t) p (projDims proj).2.2 ≠ 0)
    (workers : ℕ) (hw : 0 < workers) (s : ℕ → MCState M) (hs : ∀ id, (s id).Ok mc reqVel)
    (hz : ∀ id, (s id).cells = List.replicate (bufferSize2 mc.buf proj).toNat 0) :
    ∃ (s' : ℕ → MCState M) (G : ℕ → ℤ → M) (U : ℤ × ℤ × ℤ × Fin 6 → List Vec), (∀ t, U t ∈ mc.unitBufs) ∧
      (∀ id < workers,
        mcInterpolate mc reqVel (seg2Sub mc proj val) (pick id) xs vs id (segLen mc.segWidth mc.skip) workers (s id) =
          some (s' id) ∧
        Adds (boxLen2 mc.dom proj) (seg2Add mc.buf mc.dom mc.cells proj (s' id).cells) (G id)) ∧
      ∀ i j, (0 ≤ i ∧ i < mc.dom.width (projDims proj).1) → (0 ≤ j ∧ j < mc.dom.width (projDims proj).2.1) →
        ∑ id ∈ Finset.range workers, G id (i + j * mc.dom.width (projDims proj).1) =
          if i < mc.cells ∧ j < mc.cells then
            sampleColumn mc.cells mc.buf mc.dom proj mc.points.toNat (mc.segWidth / mc.skip) (segCorners mc xs)
              (segCorners mc vs) val U i j else 0 := by
  have hsk := (h 0).skip
  have hn : 0 ≤ mc.buf.width (projDims proj).1 * mc.buf.width (projDims proj).2.1 := mul_nonneg (hbw _) (hbw _)
  have hz' : ∀ id, Cells (mc.buf.width (projDims proj).1 * mc.buf.width (projDims proj).2.1) (s id).cells
      (fun _ => 0) := by
    intro id
    have := cells_zero (M := M) (bufferSize2 mc.buf proj).toNat
    rw [hz id]
    rw [bufferSize2_eq _ _ hproj] at this ⊢
    rwa [Int.toNat_of_nonneg hn] at this
  have hcor : ∀ t ∈ tetras (mc.segWidth / mc.skip), ∀ k j,
      0 ≤ segCorners mc xs t k j ∧ segCorners mc xs t k j < mc.buf.width j ∧ segCorners mc xs t k j < mc.cells :=
    fun t ht k => hpos _ (corner_mem hsk hx (mem_tetras.mp ht) _ k)
  have hfix : ∀ t ∈ tetras (mc.segWidth / mc.skip), ∀ p, mc.fix (segCorners mc xs t) p = p :=
    fun t ht p => fix_of_nonneg (fun k j => (hcor t ht k j).1) p
  have hin : ∀ t ∈ tetras (mc.segWidth / mc.skip), ∀ p, UnitPoint p → ∀ j,
      0 ≤ mix (segCorners mc xs t) p j ∧ mix (segCorners mc xs t) p j < mc.buf.width j :=
    fun t ht p hp j => inSimplex_bounds (mix_inSimplex hp) fun k => ⟨(hcor t ht k j).1, (hcor t ht k j).2.1⟩
  obtain ⟨s', B, U, hU, hrun, hsum⟩ := mc_workers h (seg2Sub_ok mc (h 0).arith proj hpl reqVel val hval) hx hv (by
    intro x y z hc d _ u hu p hp
    have ht : (x, y, z, d) ∈ tetras (mc.segWidth / mc.skip) := mem_tetras.mpr hc
    have := hfix _ ht (mix (segCorners mc xs (x, y, z, d)) p)
    rw [show tetCorners mc.segWidth mc.skip xs x y z d = segCorners mc xs (x, y, z, d) from rfl, this]
    exact ⟨hface _ ht u hu p hp, hin _ ht p (((h 0).unit u hu).2 p hp)⟩) workers hw s hs _ hz'
  have hadd : ∀ id : ℕ, ∃ G, id < workers →
      (Adds (boxLen2 mc.dom proj) (seg2Add mc.buf mc.dom mc.cells proj (s' id).cells) G ∧
      ∀ i j, (0 ≤ i ∧ i < mc.dom.width (projDims proj).1) → (0 ≤ j ∧ j < mc.dom.width (projDims proj).2.1) →
        G (i + j * mc.dom.width (projDims proj).1) =
        ∑ b ∈ rectCells (mc.buf.width (projDims proj).1) (mc.buf.width (projDims proj).2.1)
          with AtPlace mc.cells mc.buf mc.dom (projDims proj).1 b.1 i ∧
            AtPlace mc.cells mc.buf mc.dom (projDims proj).2.1 b.2 j,
          B id (b.1 + b.2 * mc.buf.width (projDims proj).1)) := by
    intro id
    by_cases hid : id < workers
    · obtain ⟨G, hA, hG⟩ := seg2Add_adds_wide (proj := proj) hpl (hrun id hid).2.2
      refine ⟨G, fun _ => ⟨hA, fun i j hi hj => ?_⟩⟩
      rw [hG i j hi hj]
      simp only [zero_add]
    · exact ⟨fun _ => 0, fun h => absurd h hid⟩
  choose G hG using hadd
  refine ⟨s', G, U, hU, fun id hid => ⟨(hrun id hid).1, (hG id hid).1⟩, fun i j hi hj => ?_⟩
  rw [Finset.sum_congr rfl fun id hid => (hG id (Finset.mem_range.mp hid)).2 i j hi hj, Finset.sum_comm]
  by_cases hperiod : i < mc.cells ∧ j < mc.cells
  swap
  · rw [if_neg hperiod, Finset.filter_false_of_mem, Finset.sum_empty]
    rintro b - ⟨h1, h2⟩
    exact hperiod ⟨h1.1, h2.1⟩
  rw [if_pos hperiod, sampleColumn_eq hcells]
  rw [Finset.sum_congr rfl fun b _ => hsum _, Finset.sum_comm]
  refine Finset.sum_congr rfl fun t ht => ?_
  change ∑ b ∈ _, mc.deposit _ (segCorners mc xs t) (segCorners mc vs t) (U t) _ = _
  by_cases hd : mc.drawn (segCorners mc xs t) = true
  · unfold MC.deposit
    simp only [if_pos hd]
    rw [Finset.sum_comm]
    refine Finset.sum_congr rfl fun a ha => ?_
    have hup := unitPoint_getD (h 0) (hU t) (Finset.mem_range.mp ha)
    rw [hfix t ht]
    set p := mix (segCorners mc xs t) ((U t).getD a 0) with hp
    have hpin : ∀ j, 0 ≤ p j ∧ p j < mc.buf.width j := hin t ht _ hup
    have f : ∀ j, 0 ≤ cellOf p j ∧ cellOf p j < mc.buf.width j := fun j =>
      ⟨Int.floor_nonneg.mpr (hpin j).1, Int.floor_lt.mpr (hpin j).2⟩
    have hb : ∀ b ∈ rectCells (mc.buf.width (projDims proj).1) (mc.buf.width (projDims proj).2.1),
        (b.1 + b.2 * mc.buf.width (projDims proj).1 =
          cellOf p (projDims proj).1 + cellOf p (projDims proj).2.1 * mc.buf.width (projDims proj).1) ↔
        b = (cellOf p (projDims proj).1, cellOf p (projDims proj).2.1) := by
      intro b hb
      simp only [rectCells, Finset.mem_product, Finset.mem_Ico] at hb
      rw [flat2_inj hb.1 hb.2 (f _), Prod.ext_iff]
    have hmem : (cellOf p (projDims proj).1, cellOf p (projDims proj).2.1) ∈
        rectCells (mc.buf.width (projDims proj).1) (mc.buf.width (projDims proj).2.1) := by
      simp only [rectCells, Finset.mem_product, Finset.mem_Ico]
      exact ⟨f _, f _⟩
    rw [Finset.sum_filter, Finset.sum_congr rfl fun b hbm => by rw [if_congr (and_congr_right' (hb b hbm)) rfl rfl]]
    rw [Finset.sum_eq_single (cellOf p (projDims proj).1, cellOf p (projDims proj).2.1)]
    · rw [← ite_and]
      refine if_congr ?_ rfl rfl
      unfold InPixel AtPlace SamePlace
      constructor
      · rintro ⟨⟨a, b⟩, c, -⟩; exact ⟨a.2, b.2, c⟩
      · rintro ⟨a, b, c⟩; exact ⟨⟨⟨hperiod.1, a⟩, hperiod.2, b⟩, c, rfl⟩
    · intro b _ hne
      split_ifs with h1 h2
      · exact absurd h2.2 hne
      · rfl
      · rfl
    · intro hne
      exact absurd hmem hne
  · have hd' : mc.drawn (segCorners mc xs t) = false := by simpa using hd
    unfold MC.deposit
    simp only [if_neg hd]
    rw [Finset.sum_const_zero]
    refine (Finset.sum_eq_zero fun a ha => if_neg fun hh => ?_).symm
    have hup := unitPoint_getD (h 0) (hU t) (Finset.mem_range.mp ha)
    refine C94_skipped mc hcells (segCorners mc xs t) (fun k j => ?_) hd' _ (mix_inSimplex hup)
      (hh.place hcells hi hj)
    obtain ⟨a, _, b⟩ := hcor t ht k j
    obtain ⟨r1, r2⟩ := hrel j
    constructor
    · refine le_trans ?_ a
      exact_mod_cast (by omega : mc.dom.origin j - mc.buf.origin j - mc.cells + 1 ≤ 0)
    · refine lt_of_lt_of_le b ?_
      exact_mod_cast (by omega : mc.cells ≤ mc.dom.origin j - mc.buf.origin j + 2 * mc.cells)

/-- **C111**, domain buffer. Missing: samples with a coordinate that is zero or a negative whole
number of cells (see `C47_domain_counterexample`). -/
theorem C111_domain_partial (mc : MC) (proj : ℤ) (hproj : 0 ≤ proj ∧ proj < 3) (pick : ℕ → ℕ → ℤ)
    (h : ∀ id, mc.Ok (pick id)) (hcells : 0 < mc.cells)
    (hbd : mc.buf = mc.dom) (hbw : ∀ j, 0 ≤ mc.dom.width j)
    (reqVel : Bool) (val : Vec → M)
    (hval : reqVel = false → ∀ w w', val w = val w') (xs vs : List Vec)
    (hx : (xs.length : ℤ) = (mc.segWidth + 1) * (mc.segWidth + 1) * (mc.segWidth + 1))
    (hv : reqVel = true → (vs.length : ℤ) = (mc.segWidth + 1) * (mc.segWidth + 1) * (mc.segWidth + 1))
    (hpos : ∀ p ∈ xs, ∀ j, ((-mc.cells + 1 : ℤ) : ℚ) ≤ p j ∧ p j < ((2 * mc.cells : ℤ) : ℚ))
    (hface : ∀ t ∈ tetras (mc.segWidth / mc.skip), ∀ u ∈ mc.unitBufs, ∀ p ∈ u, ∀ j, ∀ m : ℤ, m ≤ 0 →
      mix (segCorners mc xs t) p j ≠ m)
    (workers : ℕ) (hw : 0 < workers) (s : ℕ → MCState M) (hs : ∀ id, (s id).Ok mc reqVel)
    (hz : ∀ id, (s id).cells = List.replicate (bufferSize2 mc.buf proj).toNat 0) :
    ∃ (s' : ℕ → MCState M) (G : ℕ → ℤ → M) (U : ℤ × ℤ × ℤ × Fin 6 → List Vec), (∀ t, U t ∈ mc.unitBufs) ∧
      (∀ id < workers,
        mcInterpolate mc reqVel (dom2Sub mc proj val) (pick id) xs vs id (segLen mc.segWidth mc.skip) workers (s id) =
          some (s' id) ∧
        Adds (boxLen2 mc.dom proj) (domAdd (s' id).cells) (G id)) ∧
      ∀ i j, (0 ≤ i ∧ i < mc.dom.width (projDims proj).1) → (0 ≤ j ∧ j < mc.dom.width (projDims proj).2.1) →
        ∑ id ∈ Finset.range workers, G id (i + j * mc.dom.width (projDims proj).1) =
          if i < mc.cells ∧ j < mc.cells then
            sampleColumn mc.cells mc.buf mc.dom proj mc.points.toNat (mc.segWidth / mc.skip) (segCorners mc xs)
              (segCorners mc vs) val U i j else 0 := by
  have hsk := (h 0).skip
  have hbw' : ∀ j, 0 ≤ mc.buf.width j := by rw [hbd]; exact hbw
  have hn : 0 ≤ mc.buf.width (projDims proj).1 * mc.buf.width (projDims proj).2.1 :=
    mul_nonneg (hbw' _) (hbw' _)
  have hz' : ∀ id, Cells (mc.buf.width (projDims proj).1 * mc.buf.width (projDims proj).2.1) (s id).cells
      (fun _ => 0) := by
    intro id
    have := cells_zero (M := M) (bufferSize2 mc.buf proj).toNat
    rw [hz id]
    rw [bufferSize2_eq _ _ hproj] at this ⊢
    rwa [Int.toNat_of_nonneg hn] at this
  have hcor : ∀ t ∈ tetras (mc.segWidth / mc.skip), ∀ k j, ((-mc.cells + 1 : ℤ) : ℚ) ≤ segCorners mc xs t k j ∧
      segCorners mc xs t k j < ((2 * mc.cells : ℤ) : ℚ) :=
    fun t ht k => hpos _ (corner_mem hsk hx (mem_tetras.mp ht) _ k)
  have hQ := domain_sample_ok h hcells hcor hface
  obtain ⟨s', B, U, hU, hrun, hsum⟩ := mc_workers h (dom2Sub_ok mc (h 0).arith proj reqVel val hval) hx hv (by
    intro x y z hc d _ u hu p hp
    exact hQ (x, y, z, d) (mem_tetras.mpr hc) u hu p hp) workers hw s hs _ hz'
  refine ⟨s', B, U, hU, fun id hid => ⟨(hrun id hid).1, ?_⟩, fun i j hi hj => ?_⟩
  · have := domAdd_adds (hrun id hid).2.2
    unfold boxLen2
    rw [hbd] at this
    refine adds_congr this fun c _ _ => ?_
    simp only [zero_add]
  rw [hsum]
  by_cases hperiod : i < mc.cells ∧ j < mc.cells
  swap
  · rw [if_neg hperiod]
    refine Finset.sum_eq_zero fun t ht => ?_
    change mc.deposit _ (segCorners mc xs t) (segCorners mc vs t) (U t) _ = _
    unfold MC.deposit
    split_ifs
    · refine Finset.sum_eq_zero fun a _ => if_neg ?_
      generalize mc.fix (segCorners mc xs t) (mix (segCorners mc xs t) ((U t).getD a 0)) = q
      rintro ⟨⟨c0, c1, c2⟩, eq⟩
      have hcp : ∀ j, 0 ≤ cellOf q j % mc.cells ∧ cellOf q j % mc.cells < mc.cells := fun j =>
        ⟨Int.emod_nonneg _ hcells.ne', Int.emod_lt_of_pos _ hcells⟩
      rw [hbd] at eq c0
      rw [flat2_inj hi hj ⟨(hcp _).1, c0⟩] at eq
      rw [eq.1, eq.2] at hperiod
      exact hperiod ⟨(hcp _).2, (hcp _).2⟩
    · rfl
  rw [if_pos hperiod, sampleColumn_eq hcells]
  refine Finset.sum_congr rfl fun t ht => ?_
  change mc.deposit _ (segCorners mc xs t) (segCorners mc vs t) (U t) _ = _
  by_cases hd : mc.drawn (segCorners mc xs t) = true
  · unfold MC.deposit
    simp only [if_pos hd]
    refine Finset.sum_congr rfl fun a _ => if_congr ?_ rfl rfl
    generalize hq : mix (segCorners mc xs t) ((U t).getD a 0) = q
    have hfp : ∀ j, mc.cells ∣ ⌊mc.fix (segCorners mc xs t) q j⌋ - ⌊q j⌋ := fun j =>
      (fix_place (segCorners mc xs t) q j).1
    have hem : ∀ j d, 0 ≤ d → d < mc.cells → (cellOf (mc.fix (segCorners mc xs t) q) j % mc.cells = d ↔
        mc.cells ∣ ⌊q j⌋ + mc.dom.origin j - (d + mc.dom.origin j)) := by
      intro j d d0 d1
      rw [emod_eq_iff d0 d1]
      rw [show ⌊q j⌋ + mc.dom.origin j - (d + mc.dom.origin j) = ⌊q j⌋ - d by ring]
      unfold cellOf
      rw [show ⌊mc.fix (segCorners mc xs t) q j⌋ - d = (⌊mc.fix (segCorners mc xs t) q j⌋ - ⌊q j⌋) + (⌊q j⌋ - d) by
        ring]
      exact Int.dvd_add_right (hfp j)
    have hek : ∀ j, cellOf (mc.fix (segCorners mc xs t) q) j % mc.cells = ⌊q j⌋ % mc.cells := fun j =>
      (Int.modEq_iff_dvd.mpr (hfp j)).symm
    have hcp : ∀ j, 0 ≤ cellOf (mc.fix (segCorners mc xs t) q) j % mc.cells := fun j =>
      Int.emod_nonneg _ hcells.ne'
    rw [hbd]
    unfold InPixel
    rw [← hem _ i hi.1 hperiod.1, ← hem _ j hj.1 hperiod.2, add_sub_cancel_right, ← hek]
    constructor
    · rintro ⟨⟨c0, c1, c2⟩, eq⟩
      rw [flat2_inj hi hj ⟨hcp _, c0⟩] at eq
      exact ⟨eq.1.symm, eq.2.symm, c2⟩
    · rintro ⟨a, b, c⟩
      rw [a, b]
      exact ⟨⟨hi.2, hj.2, c⟩, rfl⟩
  · have hd' : mc.drawn (segCorners mc xs t) = false := by simpa using hd
    unfold MC.deposit
    simp only [if_neg hd]
    refine (Finset.sum_eq_zero fun a ha => if_neg fun hh => ?_).symm
    have hup := unitPoint_getD (h 0) (hU t) (Finset.mem_range.mp ha)
    refine C94_skipped mc hcells (segCorners mc xs t) (fun k j => ?_) hd' _ (mix_inSimplex hup) (hh.place hcells hi hj)
    have := hcor t ht k j
    rw [hbd, sub_self, zero_sub, zero_add]
    exact this

end Verif.Render
