import Verif.Render.McProject

/-!
# No sample is lost from an image of the whole box: C94, C111

An image at least as wide as the box has a place for every sample. The renderer's floor puts samples with certain whole
coordinates one cell too low (C52), but not out of such an image.
-/

set_option autoImplicit false

namespace Verif.Render

open Verif.Go Verif.Geom

variable {M : Type} [AddCommMonoid M]

/-! ## Specification -/

/-- The values of all samples of a segment, when the unit buffers `U` are drawn. -/
def sampleTotal (points : ℕ) (n : ℤ) (cv : ℤ × ℤ × ℤ × Fin 6 → Fin 4 → Vec) (val : Vec → M)
    (U : ℤ × ℤ × ℤ × Fin 6 → List Vec) : M :=
  ∑ t ∈ tetras n, ∑ i ∈ Finset.range points, val (mix (cv t) ((U t).getD i 0))

/-- The same when the point `p` of the unit tetrahedron is put at `f c p` in the tetrahedron with corners `c`. -/
def placedTotal (f : (Fin 4 → Vec) → Vec → Vec) (points : ℕ) (n : ℤ) (cv : ℤ × ℤ × ℤ × Fin 6 → Fin 4 → Vec) (val : Vec → M)
    (U : ℤ × ℤ × ℤ × Fin 6 → List Vec) : M :=
  ∑ t ∈ tetras n, ∑ i ∈ Finset.range points, val (f (cv t) ((U t).getD i 0))

/-! ## Proof -/

/-- Every point has a place in an image as wide as the box. -/
theorem place_of_wide {cells : ℤ} (hc : 0 < cells) (buf : IVec) {dom : CellBounds} (hd : ∀ j, cells ≤ dom.width j)
    (g : IVec) : ∃ x y z, IsCell dom.width x y z ∧
      ∀ j, cells ∣ g j + buf j - ((![x, y, z] : IVec) j + dom.origin j) := by
  have hr : ∀ j, 0 ≤ (g j + buf j - dom.origin j) % cells ∧ (g j + buf j - dom.origin j) % cells < dom.width j :=
    fun j => ⟨Int.emod_nonneg _ hc.ne', (Int.emod_lt_of_pos _ hc).trans_le (hd j)⟩
  refine ⟨_, _, _, ⟨hr 0, hr 1, hr 2⟩, fun j => ?_⟩
  have : (![(g 0 + buf 0 - dom.origin 0) % cells, (g 1 + buf 1 - dom.origin 1) % cells,
      (g 2 + buf 2 - dom.origin 2) % cells] : IVec) j = (g j + buf j - dom.origin j) % cells := by
    fin_cases j <;> rfl
  rw [this, show g j + buf j - ((g j + buf j - dom.origin j) % cells + dom.origin j) =
    g j + buf j - dom.origin j - (g j + buf j - dom.origin j) % cells by ring]
  exact Int.dvd_self_sub_emod

/-- No tetrahedron is skipped then. -/
theorem drawn_of_wide (mc : MC) (hn : 0 < mc.cells) (hd : ∀ j, mc.cells ≤ mc.dom.width j) (c : Fin 4 → Vec)
    (hc : ∀ k j, ((mc.dom.origin j - mc.buf.origin j - mc.cells + 1 : ℤ) : ℚ) ≤ c k j ∧
      c k j < ((mc.dom.origin j - mc.buf.origin j + 2 * mc.cells : ℤ) : ℚ)) (p : Vec) (hp : InSimplex c p) :
    mc.drawn c = true := by
  by_contra h
  exact C94_skipped mc hn c hc (by simpa using h) p hp (place_of_wide hn mc.buf.origin hd fun j => ⌊p j⌋)

theorem domSub_any (mc : MC) (reqVel : Bool) (val : Vec → M) (hval : reqVel = false → ∀ w w', val w = val w') :
    SubOk mc reqVel (domSub mc val) (mc.buf.width 0 * mc.buf.width 1 * mc.buf.width 2)
      (fun p => ∀ j, -mc.cells ≤ mc.arith.floor (p j) ∧ mc.arith.floor (p j) < 2 * mc.cells)
      (fun p w c => if (mc.arith.floor (p 0) % mc.cells < mc.buf.width 0 ∧ mc.arith.floor (p 1) % mc.cells < mc.buf.width 1 ∧
            mc.arith.floor (p 2) % mc.cells < mc.buf.width 2) ∧
          c = mc.arith.floor (p 0) % mc.cells + mc.arith.floor (p 1) % mc.cells * mc.buf.width 0 +
            mc.arith.floor (p 2) % mc.cells * (mc.buf.width 0 * mc.buf.width 1) then val w else 0) := by
  constructor
  · intro out w hl hQ _
    have := dom3_adds_with (M := M) (bufCb := mc.buf) (cells := mc.cells) (xs := out)
      (P := fun idx => out.getD idx.toNat 0) (low := 0)
      (high := mc.points) (jump := 1) one_pos (fun idx h => (visited_rd hl idx h).1)
      (fun idx h => hQ _ (visited_rd hl idx h).2) (fun idx => val (w.getD idx.toNat 0))
    refine adds_congr this fun c _ _ => ?_
    rw [sum_visited_range]
    simp only [Int.toNat_natCast]
  · intro h p w w'
    funext c
    beta_reduce
    rw [hval h w w']

theorem dom2Sub_any (mc : MC) (proj : ℤ) (reqVel : Bool) (val : Vec → M)
    (hval : reqVel = false → ∀ w w', val w = val w') :
    SubOk mc reqVel (dom2Sub mc proj val) (mc.buf.width (projDims proj).1 * mc.buf.width (projDims proj).2.1)
      (fun p => ∀ j, -mc.cells ≤ mc.arith.floor (p j) ∧ mc.arith.floor (p j) < 2 * mc.cells)
      (fun p w c => if (mc.arith.floor (p (projDims proj).1) % mc.cells < mc.buf.width (projDims proj).1 ∧
            mc.arith.floor (p (projDims proj).2.1) % mc.cells < mc.buf.width (projDims proj).2.1 ∧
            mc.arith.floor (p (projDims proj).2.2) % mc.cells < mc.buf.width (projDims proj).2.2) ∧
          c = mc.arith.floor (p (projDims proj).1) % mc.cells +
            mc.arith.floor (p (projDims proj).2.1) % mc.cells * mc.buf.width (projDims proj).1 then val w else 0) := by
  constructor
  · intro out w hl hQ _
    have := dom2_adds_with (M := M) (domCb := mc.buf) (cells := mc.cells) (proj := proj) (xs := out)
      (P := fun idx => out.getD idx.toNat 0) (low := 0)
      (high := mc.points) (jump := 1) one_pos (fun idx h => (visited_rd hl idx h).1)
      (fun idx h => hQ _ (visited_rd hl idx h).2) (fun idx => val (w.getD idx.toNat 0))
    refine adds_congr this fun c _ _ => ?_
    rw [sum_visited_range]
    simp only [Int.toNat_natCast]
  · intro h p w w'
    funext c
    beta_reduce
    rw [hval h w w']

theorem seg2Sub_any (mc : MC) (ha : mc.arith.Laws) (proj : ℤ) (hpl : Near mc.cells mc.buf mc.dom) (reqVel : Bool) (val : Vec → M)
    (hval : reqVel = false → ∀ w w', val w = val w') :
    SubOk mc reqVel (seg2Sub mc proj val) (mc.buf.width (projDims proj).1 * mc.buf.width (projDims proj).2.1)
      (fun p => -mc.cells ≤ mc.arith.floor (p (projDims proj).2.2) + mc.buf.origin (projDims proj).2.2 -
        mc.dom.origin (projDims proj).2.2 ∧ ∀ j, 0 ≤ p j ∧ p j < mc.buf.width j)
      (fun p w c => if (mc.arith.floor (p (projDims proj).2.2) + mc.buf.origin (projDims proj).2.2 -
            mc.dom.origin (projDims proj).2.2) % mc.cells < mc.dom.width (projDims proj).2.2 ∧
          c = cellOf p (projDims proj).1 + cellOf p (projDims proj).2.1 * mc.buf.width (projDims proj).1
        then val w else 0) := by
  constructor
  · intro out w hl hQ _
    have := seg2_adds_with (M := M) (proj := proj) hpl (xs := out) (P := fun idx => out.getD idx.toNat 0) (low := 0)
      (high := mc.points) (jump := 1) one_pos (fun idx h => (visited_rd hl idx h).1)
      (fun idx h => (hQ _ (visited_rd hl idx h).2).1)
      (fun idx h => by
        rw [ha.floor _ ((hQ _ (visited_rd hl idx h).2).2 _).1]
        exact intFloor_le _)
      (fun idx h => (hQ _ (visited_rd hl idx h).2).2) (fun idx => val (w.getD idx.toNat 0))
    refine adds_congr this fun c _ _ => ?_
    rw [sum_visited_range]
    simp only [Int.toNat_natCast]
  · intro h p w w'
    funext c
    beta_reduce
    rw [hval h w w']

/-- The range of the cells of samples in a domain buffer. -/
theorem domain_sample_range {mc : MC} {c : Fin 4 → Vec}
    (hcells : 0 < mc.cells)
    (hcor : ∀ k j, ((-mc.cells + 1 : ℤ) : ℚ) ≤ c k j ∧ c k j < ((2 * mc.cells : ℤ) : ℚ)) {p : Vec} (hp : UnitPoint p) :
    ∀ j, -mc.cells ≤ intFloor (mc.fix c (mix c p) j) ∧ intFloor (mc.fix c (mix c p) j) < 2 * mc.cells := by
  intro j
  have hcq : (0 : ℚ) < mc.cells := by exact_mod_cast hcells
  have hb := inSimplex_bounds (mix_inSimplex (c := c) hp) (fun k => hcor k j)
  have h1 := intFloor_le (mc.fix c (mix c p) j)
  have h2 := le_intFloor (mc.fix c (mix c p) j)
  have h3 : -mc.cells + 1 ≤ ⌊mc.fix c (mix c p) j⌋ ∧ ⌊mc.fix c (mix c p) j⌋ < 2 * mc.cells := by
    rw [Int.le_floor, Int.floor_lt]
    rcases (fix_place (mc := mc) c (mix c p) j).2 with e' | ⟨hneg, e'⟩
    · rw [e']
      exact hb
    · rw [e']
      push_cast at hb ⊢
      exact ⟨by linarith, by linarith⟩
  omega

/-- **C94**, domain buffer of an image at least as wide as the box: whatever the positions, also exactly on the faces of
cells, the workers together add every sample of every tetrahedron once. -/
theorem C94_domain_total (mc : MC) (pick : ℕ → ℕ → ℤ) (h : ∀ id, mc.Ok (pick id)) (hcells : 0 < mc.cells)
    (hbd : mc.buf = mc.dom) (hwide : ∀ j, mc.cells ≤ mc.dom.width j)
    (reqVel : Bool) (val : Vec → M)
    (hval : reqVel = false → ∀ w w', val w = val w') (xs vs : List Vec)
    (hx : (xs.length : ℤ) = (mc.segWidth + 1) * (mc.segWidth + 1) * (mc.segWidth + 1))
    (hv : reqVel = true → (vs.length : ℤ) = (mc.segWidth + 1) * (mc.segWidth + 1) * (mc.segWidth + 1))
    (hpos : ∀ p ∈ xs, ∀ j, ((-mc.cells + 1 : ℤ) : ℚ) ≤ p j ∧ p j < ((2 * mc.cells : ℤ) : ℚ))
    (workers : ℕ) (hw : 0 < workers) (s : ℕ → MCState M) (hs : ∀ id, (s id).Ok mc reqVel)
    (hz : ∀ id, (s id).cells = List.replicate (bufferSize3 mc.buf).toNat 0) :
    ∃ (s' : ℕ → MCState M) (G : ℕ → ℤ → M) (U : ℤ × ℤ × ℤ × Fin 6 → List Vec), (∀ t, U t ∈ mc.unitBufs) ∧
      (∀ id < workers,
        mcInterpolate mc reqVel (domSub mc val) (pick id) xs vs id (segLen mc.segWidth mc.skip) workers (s id) =
          some (s' id) ∧
        Adds (boxLen3 mc.dom) (domAdd (s' id).cells) (G id)) ∧
      ∑ c ∈ Finset.Ico 0 (boxLen3 mc.dom), ∑ id ∈ Finset.range workers, G id c =
        sampleTotal mc.points.toNat (mc.segWidth / mc.skip) (segCorners mc vs) val U := by
  have hsk := (h 0).skip
  have hbw' : ∀ j, 0 ≤ mc.buf.width j := by rw [hbd]; exact fun j => hcells.le.trans (hwide j)
  have hn : 0 ≤ mc.buf.width 0 * mc.buf.width 1 * mc.buf.width 2 :=
    mul_nonneg (mul_nonneg (hbw' 0) (hbw' 1)) (hbw' 2)
  have hz' : ∀ id, Cells (mc.buf.width 0 * mc.buf.width 1 * mc.buf.width 2) (s id).cells (fun _ => 0) := by
    intro id
    have := cells_zero (M := M) (bufferSize3 mc.buf).toNat
    rw [hz id]
    unfold bufferSize3 at this ⊢
    rwa [Int.toNat_of_nonneg hn] at this
  have hcor : ∀ t ∈ tetras (mc.segWidth / mc.skip), ∀ k j, ((-mc.cells + 1 : ℤ) : ℚ) ≤ segCorners mc xs t k j ∧
      segCorners mc xs t k j < ((2 * mc.cells : ℤ) : ℚ) :=
    fun t ht k => hpos _ (corner_mem hsk hx (mem_tetras.mp ht) _ k)
  have ef : mc.arith.floor = intFloor := by rw [(h 0).arith]; rfl
  obtain ⟨s', B, U, hU, hrun, hsum⟩ := mc_workers h (domSub_any mc reqVel val hval) hx hv (by
    intro x y z hc d _ u hu p hp
    rw [ef]
    exact domain_sample_range hcells (hcor (x, y, z, d) (mem_tetras.mpr hc)) (((h 0).unit u hu).2 p hp))
    workers hw s hs _ hz'
  refine ⟨s', B, U, hU, fun id hid => ⟨(hrun id hid).1, ?_⟩, ?_⟩
  · have := domAdd_adds (hrun id hid).2.2
    unfold boxLen3
    rw [hbd] at this
    refine adds_congr this fun c _ _ => ?_
    simp only [zero_add]
  rw [Finset.sum_congr rfl fun c _ => hsum c, Finset.sum_comm]
  unfold sampleTotal
  refine Finset.sum_congr rfl fun t ht => ?_
  change ∑ c ∈ _, mc.deposit _ (segCorners mc xs t) (segCorners mc vs t) (U t) c = _
  unfold MC.deposit
  by_cases hp : mc.points.toNat = 0
  · simp [hp]
  have hup := fun i (hi : i ∈ Finset.range mc.points.toNat) => unitPoint_getD (h 0) (hU t) (Finset.mem_range.mp hi)
  have hd : mc.drawn (segCorners mc xs t) = true := by
    refine drawn_of_wide mc hcells hwide _ (fun k j => ?_) _
      (mix_inSimplex (hup 0 (Finset.mem_range.mpr (Nat.pos_of_ne_zero hp))))
    rw [hbd, sub_self, zero_sub, zero_add]
    exact hcor t ht k j
  simp only [if_pos hd]
  rw [Finset.sum_comm]
  refine Finset.sum_congr rfl fun i _ => ?_
  generalize mc.fix (segCorners mc xs t) (mix (segCorners mc xs t) ((U t).getD i 0)) = q
  have hcp : ∀ j, 0 ≤ intFloor (q j) % mc.cells ∧ intFloor (q j) % mc.cells < mc.buf.width j := fun j =>
    ⟨Int.emod_nonneg _ hcells.ne', (Int.emod_lt_of_pos _ hcells).trans_le (by rw [hbd]; exact hwide j)⟩
  simp only [ef, (hcp 0).2, (hcp 1).2, (hcp 2).2, true_and]
  rw [Finset.sum_ite_eq', if_pos]
  rw [Finset.mem_Ico]
  have := flat_range (w := mc.buf.width) ⟨hcp 0, hcp 1, hcp 2⟩
  unfold boxLen3
  rw [hbd] at this ⊢
  exact this

/-- **C111**, domain buffer of a projected image at least as wide and as deep as the box. -/
theorem C111_domain_total (mc : MC) (proj : ℤ) (hproj : 0 ≤ proj ∧ proj < 3) (pick : ℕ → ℕ → ℤ)
    (h : ∀ id, mc.Ok (pick id)) (hcells : 0 < mc.cells)
    (hbd : mc.buf = mc.dom) (hwide : ∀ j, mc.cells ≤ mc.dom.width j)
    (reqVel : Bool) (val : Vec → M)
    (hval : reqVel = false → ∀ w w', val w = val w') (xs vs : List Vec)
    (hx : (xs.length : ℤ) = (mc.segWidth + 1) * (mc.segWidth + 1) * (mc.segWidth + 1))
    (hv : reqVel = true → (vs.length : ℤ) = (mc.segWidth + 1) * (mc.segWidth + 1) * (mc.segWidth + 1))
    (hpos : ∀ p ∈ xs, ∀ j, ((-mc.cells + 1 : ℤ) : ℚ) ≤ p j ∧ p j < ((2 * mc.cells : ℤ) : ℚ))
    (workers : ℕ) (hw : 0 < workers) (s : ℕ → MCState M) (hs : ∀ id, (s id).Ok mc reqVel)
    (hz : ∀ id, (s id).cells = List.replicate (bufferSize2 mc.buf proj).toNat 0) :
    ∃ (s' : ℕ → MCState M) (G : ℕ → ℤ → M) (U : ℤ × ℤ × ℤ × Fin 6 → List Vec), (∀ t, U t ∈ mc.unitBufs) ∧
      (∀ id < workers,
        mcInterpolate mc reqVel (dom2Sub mc proj val) (pick id) xs vs id (segLen mc.segWidth mc.skip) workers (s id) =
          some (s' id) ∧
        Adds (boxLen2 mc.dom proj) (domAdd (s' id).cells) (G id)) ∧
      ∑ c ∈ Finset.Ico 0 (boxLen2 mc.dom proj), ∑ id ∈ Finset.range workers, G id c =
        sampleTotal mc.points.toNat (mc.segWidth / mc.skip) (segCorners mc vs) val U := by
  have hsk := (h 0).skip
  have hbw' : ∀ j, 0 ≤ mc.buf.width j := by rw [hbd]; exact fun j => hcells.le.trans (hwide j)
  have hn : 0 ≤ mc.buf.width (projDims proj).1 * mc.buf.width (projDims proj).2.1 :=
    mul_nonneg (hbw' _) (hbw' _)
  have hz' : ∀ id, Cells (mc.buf.width (projDims proj).1 * mc.buf.width (projDims proj).2.1) (s id).cells
      (fun _ => 0) := by
    intro id
    have := cells_zero (M := M) (bufferSize2 mc.buf proj).toNat
    rw [hz id]
    rw [bufferSize2_eq _ _ hproj] at this ⊢
    rwa [Int.toNat_of_nonneg hn] at this
  have hcor : ∀ t ∈ tetras (mc.segWidth / mc.skip), ∀ k j, ((-mc.cells + 1 : ℤ) : ℚ) ≤ segCorners mc xs t k j ∧
      segCorners mc xs t k j < ((2 * mc.cells : ℤ) : ℚ) :=
    fun t ht k => hpos _ (corner_mem hsk hx (mem_tetras.mp ht) _ k)
  have ef : mc.arith.floor = intFloor := by rw [(h 0).arith]; rfl
  obtain ⟨s', B, U, hU, hrun, hsum⟩ := mc_workers h (dom2Sub_any mc proj reqVel val hval) hx hv (by
    intro x y z hc d _ u hu p hp
    rw [ef]
    exact domain_sample_range hcells (hcor (x, y, z, d) (mem_tetras.mpr hc)) (((h 0).unit u hu).2 p hp))
    workers hw s hs _ hz'
  refine ⟨s', B, U, hU, fun id hid => ⟨(hrun id hid).1, ?_⟩, ?_⟩
  · have := domAdd_adds (hrun id hid).2.2
    unfold boxLen2
    rw [hbd] at this
    refine adds_congr this fun c _ _ => ?_
    simp only [zero_add]
  rw [Finset.sum_congr rfl fun c _ => hsum c, Finset.sum_comm]
  unfold sampleTotal
  refine Finset.sum_congr rfl fun t ht => ?_
  change ∑ c ∈ _, mc.deposit _ (segCorners mc xs t) (segCorners mc vs t) (U t) c = _
  unfold MC.deposit
  by_cases hp : mc.points.toNat = 0
  · simp [hp]
  have hup := fun i (hi : i ∈ Finset.range mc.points.toNat) => unitPoint_getD (h 0) (hU t) (Finset.mem_range.mp hi)
  have hd : mc.drawn (segCorners mc xs t) = true := by
    refine drawn_of_wide mc hcells hwide _ (fun k j => ?_) _
      (mix_inSimplex (hup 0 (Finset.mem_range.mpr (Nat.pos_of_ne_zero hp))))
    rw [hbd, sub_self, zero_sub, zero_add]
    exact hcor t ht k j
  simp only [if_pos hd]
  rw [Finset.sum_comm]
  refine Finset.sum_congr rfl fun i _ => ?_
  generalize mc.fix (segCorners mc xs t) (mix (segCorners mc xs t) ((U t).getD i 0)) = q
  have hcp : ∀ j, 0 ≤ intFloor (q j) % mc.cells ∧ intFloor (q j) % mc.cells < mc.buf.width j := fun j =>
    ⟨Int.emod_nonneg _ hcells.ne', (Int.emod_lt_of_pos _ hcells).trans_le (by rw [hbd]; exact hwide j)⟩
  simp only [ef, (hcp _).2, true_and]
  rw [Finset.sum_ite_eq', if_pos]
  rw [Finset.mem_Ico]
  have := flat2_range (hcp (projDims proj).1) (hcp (projDims proj).2.1)
  unfold boxLen2
  rw [hbd] at this ⊢
  exact this

theorem sum_boxCells {w : IVec} (hw : ∀ j, 0 ≤ w j) (f : ℤ → M) :
    ∑ i ∈ Finset.Ico 0 (w 0 * w 1 * w 2), f i = ∑ b ∈ boxCells w, f (b.1 + b.2.1 * w 0 + b.2.2 * (w 0 * w 1)) := by
  have hm : ∀ b ∈ boxCells w, IsCell w b.1 b.2.1 b.2.2 := by
    intro b hb
    simp only [boxCells, Finset.mem_product, Finset.mem_Ico] at hb
    exact hb
  have : Finset.Ico 0 (w 0 * w 1 * w 2) =
      (boxCells w).image fun b => b.1 + b.2.1 * w 0 + b.2.2 * (w 0 * w 1) := by
    ext i
    rw [Finset.mem_Ico, Finset.mem_image]
    constructor
    · rintro ⟨h0, h1⟩
      obtain ⟨x, y, z, hc, e⟩ := exists_cell hw h0 h1
      refine ⟨(x, y, z), ?_, e.symm⟩
      simp only [boxCells, Finset.mem_product, Finset.mem_Ico]
      exact hc
    · rintro ⟨b, hb, rfl⟩
      exact flat_range (hm b hb)
  rw [this, Finset.sum_image]
  intro b hb b' hb' e
  obtain ⟨a1, a2, a3⟩ := (flat_inj (hm b hb) (hm b' hb')).mp e
  exact Prod.ext a1 (Prod.ext a2 a3)

/-- Sums over an image at least as wide as the box, with nothing beyond the first period. -/
theorem sum_period {cells : ℤ} {w : IVec} (hw : ∀ j, cells ≤ w j) (F : ℤ → ℤ → ℤ → M) :
    ∑ b ∈ boxCells w, (if b.1 < cells ∧ b.2.1 < cells ∧ b.2.2 < cells then F b.1 b.2.1 b.2.2 else 0) =
      ∑ b ∈ boxCells (fun _ => cells), F b.1 b.2.1 b.2.2 := by
  rw [← Finset.sum_filter]
  refine Finset.sum_congr ?_ fun _ _ => rfl
  ext b
  simp only [boxCells, Finset.mem_filter, Finset.mem_product, Finset.mem_Ico]
  have := hw 0
  have := hw 1
  have := hw 2
  omega

/-- In an image of the whole box every sample has exactly one place. -/
theorem placedImage_sum (f : (Fin 4 → Vec) → Vec → Vec) (cells : ℤ) (hc : 0 < cells) (buf dom : CellBounds) (points : ℕ)
    (n : ℤ) (c cv : ℤ × ℤ × ℤ × Fin 6 → Fin 4 → Vec) (val : Vec → M) (U : ℤ × ℤ × ℤ × Fin 6 → List Vec) :
    ∑ b ∈ boxCells (fun _ => cells), placedImage f cells buf dom points n c cv val U b.1 b.2.1 b.2.2 =
      placedTotal f points n cv val U := by
  unfold placedImage placedTotal
  rw [Finset.sum_comm]
  refine Finset.sum_congr rfl fun t _ => ?_
  rw [Finset.sum_comm]
  refine Finset.sum_congr rfl fun i _ => ?_
  generalize f (c t) ((U t).getD i 0) = p
  have key : ∀ (j : Fin 3) (d : ℤ), 0 ≤ d → d < cells →
      (cells ∣ ⌊p j⌋ + buf.origin j - (d + dom.origin j) ↔ d = (⌊p j⌋ + buf.origin j - dom.origin j) % cells) := by
    intro j d d0 d1
    rw [eq_comm, emod_eq_iff d0 d1]
    rw [show ⌊p j⌋ + buf.origin j - (d + dom.origin j) = ⌊p j⌋ + buf.origin j - dom.origin j - d by ring]
  have hb : ∀ b ∈ boxCells (fun _ => cells),
      ((∀ j, cells ∣ ⌊p j⌋ + buf.origin j - ((![b.1, b.2.1, b.2.2] : IVec) j + dom.origin j)) ↔
      b = ((⌊p 0⌋ + buf.origin 0 - dom.origin 0) % cells, (⌊p 1⌋ + buf.origin 1 - dom.origin 1) % cells,
        (⌊p 2⌋ + buf.origin 2 - dom.origin 2) % cells)) := by
    intro b hb
    simp only [boxCells, Finset.mem_product, Finset.mem_Ico] at hb
    obtain ⟨b0, b1, b2⟩ := b
    obtain ⟨⟨x0, x1⟩, ⟨y0, y1⟩, z0, z1⟩ := hb
    rw [Prod.mk.injEq, Prod.mk.injEq, ← key 0 b0 x0 x1, ← key 1 b1 y0 y1, ← key 2 b2 z0 z1]
    constructor
    · intro hh; exact ⟨hh 0, hh 1, hh 2⟩
    · rintro ⟨h0, h1, h2⟩ j
      fin_cases j
      · exact h0
      · exact h1
      · exact h2
  rw [Finset.sum_congr rfl fun b hbm => if_congr (hb b hbm) rfl rfl, Finset.sum_ite_eq', if_pos]
  simp only [boxCells, Finset.mem_product, Finset.mem_Ico]
  exact ⟨⟨Int.emod_nonneg _ hc.ne', Int.emod_lt_of_pos _ hc⟩, ⟨Int.emod_nonneg _ hc.ne', Int.emod_lt_of_pos _ hc⟩,
    ⟨Int.emod_nonneg _ hc.ne', Int.emod_lt_of_pos _ hc⟩⟩

theorem exists_pixel {wi wj n : ℤ} (hi : 0 ≤ wi) (h0 : 0 ≤ n) (h1 : n < wi * wj) :
    ∃ i j, (0 ≤ i ∧ i < wi) ∧ (0 ≤ j ∧ j < wj) ∧ n = i + j * wi := by
  have hpos : 0 < wi := by
    rcases hi.lt_or_eq with h | h
    · exact h
    · rw [← h, zero_mul] at h1; omega
  refine ⟨n % wi, n / wi, ⟨Int.emod_nonneg _ hpos.ne', Int.emod_lt_of_pos _ hpos⟩,
    ⟨Int.ediv_nonneg h0 hi, Int.ediv_lt_of_lt_mul hpos (by rwa [mul_comm])⟩, ?_⟩
  rw [mul_comm]
  exact (Int.emod_add_mul_ediv n wi).symm

theorem sum_rectCells {wi wj : ℤ} (hi : 0 ≤ wi) (f : ℤ → M) :
    ∑ a ∈ Finset.Ico 0 (wi * wj), f a = ∑ b ∈ rectCells wi wj, f (b.1 + b.2 * wi) := by
  have hm : ∀ b ∈ rectCells wi wj, (0 ≤ b.1 ∧ b.1 < wi) ∧ (0 ≤ b.2 ∧ b.2 < wj) := by
    intro b hb
    simpa only [rectCells, Finset.mem_product, Finset.mem_Ico] using hb
  have : Finset.Ico 0 (wi * wj) = (rectCells wi wj).image fun b => b.1 + b.2 * wi := by
    ext a
    rw [Finset.mem_Ico, Finset.mem_image]
    constructor
    · rintro ⟨h0, h1⟩
      obtain ⟨i, j, a, b, e⟩ := exists_pixel hi h0 h1
      refine ⟨(i, j), ?_, e.symm⟩
      simp only [rectCells, Finset.mem_product, Finset.mem_Ico]
      exact ⟨a, b⟩
    · rintro ⟨b, hb, rfl⟩
      exact flat2_range (hm b hb).1 (hm b hb).2
  rw [this, Finset.sum_image]
  intro b hb b' hb' e
  obtain ⟨a1, a2⟩ := (flat2_inj (hm b hb).1 (hm b hb).2 (hm b' hb').1).mp e
  exact Prod.ext a1 a2

/-- Every cell of a segment buffer is added to exactly one pixel of an image at least as wide as the box. -/
theorem sum_places2 {cells : ℤ} (hc : 0 < cells) {buf dom : CellBounds} (hd : ∀ j, cells ≤ dom.width j) (proj : ℤ)
    (S : Finset (ℤ × ℤ)) (B : ℤ × ℤ → M) :
    ∑ d ∈ rectCells (dom.width (projDims proj).1) (dom.width (projDims proj).2.1),
      ∑ b ∈ S with AtPlace cells buf dom (projDims proj).1 b.1 d.1 ∧ AtPlace cells buf dom (projDims proj).2.1 b.2 d.2,
        B b = ∑ b ∈ S, B b := by
  simp only [Finset.sum_filter]
  rw [Finset.sum_comm]
  refine Finset.sum_congr rfl fun b _ => ?_
  have key : ∀ (j : Fin 3) (b d : ℤ), 0 ≤ d → (AtPlace cells buf dom j b d ↔
      d = (b + buf.origin j - dom.origin j) % cells) := by
    intro j b d d0
    unfold AtPlace SamePlace
    constructor
    · rintro ⟨d1, hdv⟩
      rw [eq_comm, emod_eq_iff d0 d1]
      rwa [show b + buf.origin j - dom.origin j - d = b + buf.origin j - (d + dom.origin j) by ring]
    · intro e
      have d1 : d < cells := by rw [e]; exact Int.emod_lt_of_pos _ hc
      refine ⟨d1, ?_⟩
      rw [eq_comm, emod_eq_iff d0 d1] at e
      rwa [show b + buf.origin j - dom.origin j - d = b + buf.origin j - (d + dom.origin j) by ring] at e
  have hiff : ∀ d ∈ rectCells (dom.width (projDims proj).1) (dom.width (projDims proj).2.1),
      (AtPlace cells buf dom (projDims proj).1 b.1 d.1 ∧ AtPlace cells buf dom (projDims proj).2.1 b.2 d.2 ↔
      d = ((b.1 + buf.origin (projDims proj).1 - dom.origin (projDims proj).1) % cells,
        (b.2 + buf.origin (projDims proj).2.1 - dom.origin (projDims proj).2.1) % cells)) := by
    intro d hdm
    simp only [rectCells, Finset.mem_product, Finset.mem_Ico] at hdm
    rw [key _ _ _ hdm.1.1, key _ _ _ hdm.2.1, Prod.ext_iff]
  rw [Finset.sum_congr rfl fun d hdm => if_congr (hiff d hdm) rfl rfl, Finset.sum_ite_eq', if_pos]
  simp only [rectCells, Finset.mem_product, Finset.mem_Ico]
  exact ⟨⟨Int.emod_nonneg _ hc.ne', (Int.emod_lt_of_pos _ hc).trans_le (hd _)⟩,
    Int.emod_nonneg _ hc.ne', (Int.emod_lt_of_pos _ hc).trans_le (hd _)⟩

/-- What the workers together add to a projected image at least as wide and as deep as the box, in any arithmetic. -/
theorem segment2_samples_total (mc : MC) (proj : ℤ) (hproj : 0 ≤ proj ∧ proj < 3) (pick : ℕ → ℕ → ℤ)
    (h : ∀ id, mc.Runs (pick id)) (hcells : 0 < mc.cells)
    (hpl : Near mc.cells mc.buf mc.dom) (hwide : ∀ j, mc.cells ≤ mc.dom.width j)
    (hrel : ∀ j, -mc.cells < mc.dom.origin j - mc.buf.origin j ∧ mc.dom.origin j - mc.buf.origin j < mc.cells)
    (hbw : ∀ j, 0 ≤ mc.buf.width j) (reqVel : Bool) (val : Vec → M)
    (hval : reqVel = false → ∀ w w', val w = val w') (xs vs : List Vec)
    (hx : (xs.length : ℤ) = (mc.segWidth + 1) * (mc.segWidth + 1) * (mc.segWidth + 1))
    (hv : reqVel = true → (vs.length : ℤ) = (mc.segWidth + 1) * (mc.segWidth + 1) * (mc.segWidth + 1))
    (hpos : ∀ p ∈ xs, ∀ j, 0 ≤ p j)
    (hin : ∀ t ∈ tetras (mc.segWidth / mc.skip), ∀ u ∈ mc.unitBufs, ∀ p ∈ u, ∀ j,
      0 ≤ mc.arith.place (segCorners mc xs t) p j ∧ mc.arith.place (segCorners mc xs t) p j < mc.buf.width j)
    (hskip : ∀ t ∈ tetras (mc.segWidth / mc.skip), mc.drawnA (segCorners mc xs t) = false → ∀ u ∈ mc.unitBufs, ∀ p ∈ u,
      ¬ ∃ x y z, IsCell mc.dom.width x y z ∧ ∀ j, mc.cells ∣
        ⌊mc.arith.place (segCorners mc xs t) p j⌋ + mc.buf.origin j - ((![x, y, z] : IVec) j + mc.dom.origin j))
    (workers : ℕ) (hw : 0 < workers) (s : ℕ → MCState M) (hs : ∀ id, (s id).Ok mc reqVel)
    (hz : ∀ id, (s id).cells = List.replicate (bufferSize2 mc.buf proj).toNat 0) :
    ∃ (s' : ℕ → MCState M) (G : ℕ → ℤ → M) (U : ℤ × ℤ × ℤ × Fin 6 → List Vec), (∀ t, U t ∈ mc.unitBufs) ∧
      (∀ id < workers,
        mcInterpolate mc reqVel (seg2Sub mc proj val) (pick id) xs vs id (segLen mc.segWidth mc.skip) workers (s id) =
          some (s' id) ∧
        Adds (boxLen2 mc.dom proj) (seg2Add mc.buf mc.dom mc.cells proj (s' id).cells) (G id)) ∧
      ∑ c ∈ Finset.Ico 0 (boxLen2 mc.dom proj), ∑ id ∈ Finset.range workers, G id c =
        placedTotal mc.arith.place mc.points.toNat (mc.segWidth / mc.skip) (segCorners mc vs) val U := by
  have hsk := (h 0).skip
  have hn : 0 ≤ mc.buf.width (projDims proj).1 * mc.buf.width (projDims proj).2.1 := mul_nonneg (hbw _) (hbw _)
  have hz' : ∀ id, Cells (mc.buf.width (projDims proj).1 * mc.buf.width (projDims proj).2.1) (s id).cells
      (fun _ => 0) := by
    intro id
    have := cells_zero (M := M) (bufferSize2 mc.buf proj).toNat
    rw [hz id]
    rw [bufferSize2_eq _ _ hproj] at this ⊢
    rwa [Int.toNat_of_nonneg hn] at this
  have hcor : ∀ t ∈ tetras (mc.segWidth / mc.skip), ∀ k j, 0 ≤ segCorners mc xs t k j :=
    fun t ht k => hpos _ (corner_mem hsk hx (mem_tetras.mp ht) _ k)
  have hfix : ∀ t ∈ tetras (mc.segWidth / mc.skip), ∀ p, mc.fixA (segCorners mc xs t) p = p :=
    fun t ht p => fixA_of_nonneg (hcor t ht) p
  obtain ⟨s', B, U, hU, hrun, hsum⟩ := mc_workersA h (seg2Sub_any mc (h 0).laws proj hpl reqVel val hval) hx hv (by
    intro x y z hc d _ u hu p hp
    have ht : (x, y, z, d) ∈ tetras (mc.segWidth / mc.skip) := mem_tetras.mpr hc
    have := hfix _ ht (mc.arith.place (segCorners mc xs (x, y, z, d)) p)
    rw [show tetCorners mc.segWidth mc.skip xs x y z d = segCorners mc xs (x, y, z, d) from rfl, this]
    have hi := hin _ ht u hu p hp
    refine ⟨?_, hi⟩
    have h1 := le_intFloor (mc.arith.place (segCorners mc xs (x, y, z, d)) p (projDims proj).2.2)
    rw [← (h 0).laws.floor _ (hi _).1] at h1
    have h2 := Int.floor_nonneg.mpr (hi (projDims proj).2.2).1
    have h3 := hrel (projDims proj).2.2
    omega) workers hw s hs _ hz'
  have hadd : ∀ id : ℕ, ∃ G, id < workers →
      (Adds (boxLen2 mc.dom proj) (seg2Add mc.buf mc.dom mc.cells proj (s' id).cells) G ∧
      ∀ i j, (0 ≤ i ∧ i < mc.dom.width (projDims proj).1) → (0 ≤ j ∧ j < mc.dom.width (projDims proj).2.1) →
        G (i + j * mc.dom.width (projDims proj).1) =
        ∑ b ∈ rectCells (mc.buf.width (projDims proj).1) (mc.buf.width (projDims proj).2.1)
          with AtPlace mc.cells mc.buf mc.dom (projDims proj).1 b.1 i ∧
            AtPlace mc.cells mc.buf mc.dom (projDims proj).2.1 b.2 j,
          B id (b.1 + b.2 * mc.buf.width (projDims proj).1)) := by
    intro id
    by_cases hid : id < workers
    · obtain ⟨G, hA, hG⟩ := seg2Add_adds_wide (proj := proj) hpl (hrun id hid).2.2
      refine ⟨G, fun _ => ⟨hA, fun i j hi hj => ?_⟩⟩
      rw [hG i j hi hj]
      simp only [zero_add]
    · exact ⟨fun _ => 0, fun h => absurd h hid⟩
  choose G hG using hadd
  refine ⟨s', G, U, hU, fun id hid => ⟨(hrun id hid).1, (hG id hid).1⟩, ?_⟩
  rw [Finset.sum_comm]
  have hone : ∀ id ∈ Finset.range workers, ∑ c ∈ Finset.Ico 0 (boxLen2 mc.dom proj), G id c =
      ∑ b ∈ rectCells (mc.buf.width (projDims proj).1) (mc.buf.width (projDims proj).2.1),
        B id (b.1 + b.2 * mc.buf.width (projDims proj).1) := by
    intro id hid
    unfold boxLen2
    rw [sum_rectCells (hcells.le.trans (hwide _))]
    refine Eq.trans ?_ (sum_places2 (buf := mc.buf) hcells hwide proj _ _)
    refine Finset.sum_congr rfl fun d hd => ?_
    simp only [rectCells, Finset.mem_product, Finset.mem_Ico] at hd
    exact (hG id (Finset.mem_range.mp hid)).2 d.1 d.2 hd.1 hd.2
  rw [Finset.sum_congr rfl hone, Finset.sum_comm, Finset.sum_congr rfl fun b _ => hsum _, Finset.sum_comm]
  unfold placedTotal
  refine Finset.sum_congr rfl fun t ht => ?_
  change ∑ b ∈ _, mc.depositA _ (segCorners mc xs t) (segCorners mc vs t) (U t) _ = _
  unfold MC.depositA
  by_cases hp : mc.points.toNat = 0
  · simp [hp]
  have hup := fun i (hi : i ∈ Finset.range mc.points.toNat) => mem_getD ((h 0).unit _ (hU t)) (Finset.mem_range.mp hi)
  have hd : mc.drawnA (segCorners mc xs t) = true := by
    by_contra hn
    exact hskip t ht (by simpa using hn) _ (hU t) _ (hup 0 (Finset.mem_range.mpr (Nat.pos_of_ne_zero hp)))
      (place_of_wide hcells mc.buf.origin hwide fun j => ⌊mc.arith.place (segCorners mc xs t) _ j⌋)
  simp only [if_pos hd]
  rw [Finset.sum_comm]
  refine Finset.sum_congr rfl fun i hi => ?_
  rw [hfix t ht]
  have hq := hin t ht _ (hU t) _ (hup i hi)
  generalize mc.arith.place (segCorners mc xs t) ((U t).getD i 0) = q at hq
  have f : ∀ j, 0 ≤ cellOf q j ∧ cellOf q j < mc.buf.width j := fun j =>
    ⟨Int.floor_nonneg.mpr (hq j).1, Int.floor_lt.mpr (hq j).2⟩
  have hdepth : (mc.arith.floor (q (projDims proj).2.2) + mc.buf.origin (projDims proj).2.2 -
      mc.dom.origin (projDims proj).2.2) % mc.cells < mc.dom.width (projDims proj).2.2 :=
    (Int.emod_lt_of_pos _ hcells).trans_le (hwide _)
  simp only [hdepth, true_and]
  have hb : ∀ b ∈ rectCells (mc.buf.width (projDims proj).1) (mc.buf.width (projDims proj).2.1),
      (b.1 + b.2 * mc.buf.width (projDims proj).1 =
        cellOf q (projDims proj).1 + cellOf q (projDims proj).2.1 * mc.buf.width (projDims proj).1) ↔
      b = (cellOf q (projDims proj).1, cellOf q (projDims proj).2.1) := by
    intro b hb
    simp only [rectCells, Finset.mem_product, Finset.mem_Ico] at hb
    rw [flat2_inj hb.1 hb.2 (f _), Prod.ext_iff]
  rw [Finset.sum_congr rfl fun b hbm => if_congr (hb b hbm) rfl rfl, Finset.sum_ite_eq', if_pos]
  simp only [rectCells, Finset.mem_product, Finset.mem_Ico]
  exact ⟨f _, f _⟩

/-- **C111**, segment buffer of a projected image at least as wide and as deep as the box: whatever the positions, also
at depth zero, the workers together add every sample of every tetrahedron once. -/
theorem C111_segment_total (mc : MC) (proj : ℤ) (hproj : 0 ≤ proj ∧ proj < 3) (pick : ℕ → ℕ → ℤ)
    (h : ∀ id, mc.Ok (pick id)) (hcells : 0 < mc.cells)
    (hpl : Near mc.cells mc.buf mc.dom) (hwide : ∀ j, mc.cells ≤ mc.dom.width j)
    (hrel : ∀ j, -mc.cells < mc.dom.origin j - mc.buf.origin j ∧ mc.dom.origin j - mc.buf.origin j < mc.cells)
    (hbw : ∀ j, 0 ≤ mc.buf.width j) (reqVel : Bool) (val : Vec → M)
    (hval : reqVel = false → ∀ w w', val w = val w') (xs vs : List Vec)
    (hx : (xs.length : ℤ) = (mc.segWidth + 1) * (mc.segWidth + 1) * (mc.segWidth + 1))
    (hv : reqVel = true → (vs.length : ℤ) = (mc.segWidth + 1) * (mc.segWidth + 1) * (mc.segWidth + 1))
    (hpos : ∀ p ∈ xs, ∀ j, 0 ≤ p j ∧ p j < mc.buf.width j ∧ p j < mc.cells)
    (workers : ℕ) (hw : 0 < workers) (s : ℕ → MCState M) (hs : ∀ id, (s id).Ok mc reqVel)
    (hz : ∀ id, (s id).cells = List.replicate (bufferSize2 mc.buf proj).toNat 0) :
    ∃ (s' : ℕ → MCState M) (G : ℕ → ℤ → M) (U : ℤ × ℤ × ℤ × Fin 6 → List Vec), (∀ t, U t ∈ mc.unitBufs) ∧
      (∀ id < workers,
        mcInterpolate mc reqVel (seg2Sub mc proj val) (pick id) xs vs id (segLen mc.segWidth mc.skip) workers (s id) =
          some (s' id) ∧
        Adds (boxLen2 mc.dom proj) (seg2Add mc.buf mc.dom mc.cells proj (s' id).cells) (G id)) ∧
      ∑ c ∈ Finset.Ico 0 (boxLen2 mc.dom proj), ∑ id ∈ Finset.range workers, G id c =
        sampleTotal mc.points.toNat (mc.segWidth / mc.skip) (segCorners mc vs) val U := by
  have hsk := (h 0).skip
  have hcor : ∀ t ∈ tetras (mc.segWidth / mc.skip), ∀ k j,
      0 ≤ segCorners mc xs t k j ∧ segCorners mc xs t k j < mc.buf.width j ∧ segCorners mc xs t k j < mc.cells :=
    fun t ht k => hpos _ (corner_mem hsk hx (mem_tetras.mp ht) _ k)
  have hpe : mc.arith.place = mix := by rw [(h 0).arith, place_exact]
  have key := segment2_samples_total mc proj hproj pick (fun id => (h id).runs) hcells hpl hwide hrel hbw reqVel val hval
    xs vs hx hv (fun p hp j => (hpos p hp j).1)
    (fun t ht u hu p hp j => by
      rw [hpe]
      exact inSimplex_bounds (mix_inSimplex (((h 0).unit u hu).2 p hp)) fun k => ⟨(hcor t ht k j).1, (hcor t ht k j).2.1⟩)
    (fun t ht hd u hu p hp => by
      rw [(h 0).drawnA] at hd
      rw [hpe]
      refine C94_skipped mc hcells (segCorners mc xs t) (fun k j => ?_) hd _ (mix_inSimplex (((h 0).unit u hu).2 p hp))
      obtain ⟨a, _, b⟩ := hcor t ht k j
      obtain ⟨r1, r2⟩ := hrel j
      constructor
      · refine le_trans ?_ a
        exact_mod_cast (by omega : mc.dom.origin j - mc.buf.origin j - mc.cells + 1 ≤ 0)
      · refine lt_of_lt_of_le b ?_
        exact_mod_cast (by omega : mc.cells ≤ mc.dom.origin j - mc.buf.origin j + 2 * mc.cells)) workers hw s hs hz
  rw [hpe] at key
  exact key

/-- What the workers together add to an image as wide as the box, in any arithmetic. -/
theorem segment_samples_total (mc : MC) (pick : ℕ → ℕ → ℤ) (h : ∀ id, mc.Runs (pick id)) (hcells : 0 < mc.cells)
    (hpl : Near mc.cells mc.buf mc.dom) (hwide : ∀ j, mc.cells ≤ mc.dom.width j)
    (hbw : ∀ j, 0 ≤ mc.buf.width j) (reqVel : Bool) (val : Vec → M)
    (hval : reqVel = false → ∀ w w', val w = val w') (xs vs : List Vec)
    (hx : (xs.length : ℤ) = (mc.segWidth + 1) * (mc.segWidth + 1) * (mc.segWidth + 1))
    (hv : reqVel = true → (vs.length : ℤ) = (mc.segWidth + 1) * (mc.segWidth + 1) * (mc.segWidth + 1))
    (hpos : ∀ p ∈ xs, ∀ j, 0 ≤ p j)
    (hin : ∀ t ∈ tetras (mc.segWidth / mc.skip), ∀ u ∈ mc.unitBufs, ∀ p ∈ u, ∀ j,
      0 ≤ mc.arith.place (segCorners mc xs t) p j ∧ mc.arith.place (segCorners mc xs t) p j < mc.buf.width j)
    (hskip : ∀ t ∈ tetras (mc.segWidth / mc.skip), mc.drawnA (segCorners mc xs t) = false → ∀ u ∈ mc.unitBufs, ∀ p ∈ u,
      ¬ ∃ x y z, IsCell mc.dom.width x y z ∧ ∀ j, mc.cells ∣
        ⌊mc.arith.place (segCorners mc xs t) p j⌋ + mc.buf.origin j - ((![x, y, z] : IVec) j + mc.dom.origin j))
    (workers : ℕ) (hw : 0 < workers) (s : ℕ → MCState M) (hs : ∀ id, (s id).Ok mc reqVel)
    (hz : ∀ id, (s id).cells = List.replicate (bufferSize3 mc.buf).toNat 0) :
    ∃ (s' : ℕ → MCState M) (G : ℕ → ℤ → M) (U : ℤ × ℤ × ℤ × Fin 6 → List Vec), (∀ t, U t ∈ mc.unitBufs) ∧
      (∀ id < workers,
        mcInterpolate mc reqVel (segSub mc val) (pick id) xs vs id (segLen mc.segWidth mc.skip) workers (s id) =
          some (s' id) ∧
        Adds (boxLen3 mc.dom) (seg3Add mc.buf mc.dom mc.cells (s' id).cells) (G id)) ∧
      ∑ c ∈ Finset.Ico 0 (boxLen3 mc.dom), ∑ id ∈ Finset.range workers, G id c =
        placedTotal mc.arith.place mc.points.toNat (mc.segWidth / mc.skip) (segCorners mc vs) val U := by
  obtain ⟨s', G, U, hU, hrun, hsum⟩ := segment_samples mc pick h hpl hbw reqVel val hval xs vs hx hv hpos hin hskip
    workers hw s hs hz
  refine ⟨s', G, U, hU, hrun, ?_⟩
  unfold boxLen3
  rw [sum_boxCells fun j => hcells.le.trans (hwide j)]
  rw [← placedImage_sum mc.arith.place mc.cells hcells mc.buf mc.dom mc.points.toNat (mc.segWidth / mc.skip)
    (segCorners mc xs) (segCorners mc vs) val U, ← sum_period hwide]
  refine Finset.sum_congr rfl fun b hb => ?_
  simp only [boxCells, Finset.mem_product, Finset.mem_Ico] at hb
  exact hsum b.1 b.2.1 b.2.2 hb

/-- **C94**, segment buffer of an image at least as wide as the box. -/
theorem C94_segment_total (mc : MC) (pick : ℕ → ℕ → ℤ) (h : ∀ id, mc.Ok (pick id)) (hcells : 0 < mc.cells)
    (hpl : Near mc.cells mc.buf mc.dom) (hwide : ∀ j, mc.cells ≤ mc.dom.width j)
    (hrel : ∀ j, -mc.cells < mc.dom.origin j - mc.buf.origin j ∧ mc.dom.origin j - mc.buf.origin j < mc.cells)
    (hbw : ∀ j, 0 ≤ mc.buf.width j) (reqVel : Bool) (val : Vec → M)
    (hval : reqVel = false → ∀ w w', val w = val w') (xs vs : List Vec)
    (hx : (xs.length : ℤ) = (mc.segWidth + 1) * (mc.segWidth + 1) * (mc.segWidth + 1))
    (hv : reqVel = true → (vs.length : ℤ) = (mc.segWidth + 1) * (mc.segWidth + 1) * (mc.segWidth + 1))
    (hpos : ∀ p ∈ xs, ∀ j, 0 ≤ p j ∧ p j < mc.buf.width j ∧ p j < mc.cells)
    (workers : ℕ) (hw : 0 < workers) (s : ℕ → MCState M) (hs : ∀ id, (s id).Ok mc reqVel)
    (hz : ∀ id, (s id).cells = List.replicate (bufferSize3 mc.buf).toNat 0) :
    ∃ (s' : ℕ → MCState M) (G : ℕ → ℤ → M) (U : ℤ × ℤ × ℤ × Fin 6 → List Vec), (∀ t, U t ∈ mc.unitBufs) ∧
      (∀ id < workers,
        mcInterpolate mc reqVel (segSub mc val) (pick id) xs vs id (segLen mc.segWidth mc.skip) workers (s id) =
          some (s' id) ∧
        Adds (boxLen3 mc.dom) (seg3Add mc.buf mc.dom mc.cells (s' id).cells) (G id)) ∧
      ∑ c ∈ Finset.Ico 0 (boxLen3 mc.dom), ∑ id ∈ Finset.range workers, G id c =
        sampleTotal mc.points.toNat (mc.segWidth / mc.skip) (segCorners mc vs) val U := by
  obtain ⟨s', G, U, hU, hrun, hsum⟩ := C94_segment mc pick h hcells hpl hrel hbw reqVel val hval xs vs hx hv hpos
    workers hw s hs hz
  refine ⟨s', G, U, hU, hrun, ?_⟩
  unfold boxLen3
  rw [sum_boxCells fun j => hcells.le.trans (hwide j)]
  change _ = placedTotal mix _ _ _ _ _
  rw [← placedImage_sum mix mc.cells hcells mc.buf mc.dom mc.points.toNat (mc.segWidth / mc.skip) (segCorners mc xs)
    (segCorners mc vs) val U, ← sum_period hwide]
  refine Finset.sum_congr rfl fun b hb => ?_
  simp only [boxCells, Finset.mem_product, Finset.mem_Ico] at hb
  exact hsum b.1 b.2.1 b.2.2 hb

end Verif.Render
