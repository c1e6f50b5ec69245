import Verif.Render.MonteCarlo
import Verif.Render.Image
import Verif.Render.Boxes

/-!
# What a segment adds to the image: C94
-/

set_option autoImplicit false

namespace Verif.Render

open Verif.Go Verif.Geom

variable {M : Type} [AddCommMonoid M]

/-! ## Specification -/

/-- Value a segment adds to the image cell `(x, y, z)`: tetrahedron `t` of the segment has corners `c t` in cells
relative to the buffer `buf`, and `cv t` at its corners; it is sampled at the points `U t` of the unit tetrahedron, and
each sample counts for the image cell at its place of the periodic box, with the value of `cv t` interpolated to the
sample. -/
def sampleImage (cells : ℤ) (buf dom : CellBounds) (points : ℕ) (n : ℤ) (c cv : ℤ × ℤ × ℤ × Fin 6 → Fin 4 → Vec)
    (val : Vec → M) (U : ℤ × ℤ × ℤ × Fin 6 → List Vec) (x y z : ℤ) : M :=
  ∑ t ∈ tetras n, ∑ i ∈ Finset.range points,
    if (∀ j, cells ∣ ⌊mix (c t) ((U t).getD i 0) j⌋ + buf.origin j - ((![x, y, z] : IVec) j + dom.origin j)) then
      val (mix (cv t) ((U t).getD i 0))
    else 0

/-- The same when the point `p` of the unit tetrahedron is put at `f c p` in the tetrahedron with corners `c`. -/
def placedImage (f : (Fin 4 → Vec) → Vec → Vec) (cells : ℤ) (buf dom : CellBounds) (points : ℕ) (n : ℤ)
    (c cv : ℤ × ℤ × ℤ × Fin 6 → Fin 4 → Vec) (val : Vec → M) (U : ℤ × ℤ × ℤ × Fin 6 → List Vec) (x y z : ℤ) : M :=
  ∑ t ∈ tetras n, ∑ i ∈ Finset.range points,
    if (∀ j, cells ∣ ⌊f (c t) ((U t).getD i 0) j⌋ + buf.origin j - ((![x, y, z] : IVec) j + dom.origin j)) then
      val (f (cv t) ((U t).getD i 0))
    else 0

/-- Corners of all tetrahedra of a segment. -/
def segCorners (mc : MC) (xs : List Vec) (t : ℤ × ℤ × ℤ × Fin 6) : Fin 4 → Vec :=
  tetCorners mc.segWidth mc.skip xs t.1 t.2.1 t.2.2.1 t.2.2.2

/-! ## Skipped tetrahedra -/

theorem intersectAxis_complete {o1 w1 o2 w2 n : ℤ} (hn : 0 < n) (h1 : -n < o1 - o2) (h2 : o1 + w1 - o2 ≤ 2 * n)
    {a b : ℤ} (ha : o1 ≤ a ∧ a < o1 + w1) (hb : o2 ≤ b ∧ b < o2 + w2) (hs : SameCell n a b) :
    intersectAxis o1 w1 o2 w2 n = true := by
  unfold intersectAxis
  by_cases hlt : o1 - o2 < n
  · split
    · exact intersectSB_complete hn (by omega) h1 hlt ha hb hs
    · refine intersectSB_complete hn (by omega) (by omega) (by omega) hb ha ?_
      obtain ⟨k, e⟩ := hs
      exact ⟨-k, by rw [e]; ring⟩
  · split
    · unfold intersectSB Verif.Geom.bound
      simp only [Bool.or_eq_true, decide_eq_true_eq]
      by_contra hc
      push Not at hc
      obtain ⟨c1, c2⟩ := hc
      rw [if_neg (by omega), if_pos (by omega)] at c1 c2
      obtain ⟨l, el⟩ := hs
      have hl : l = -1 ∨ l ≤ -2 ∨ 0 ≤ l := by omega
      rcases hl with hl | hl | hl
      · subst hl; omega
      · have := mul_le_mul_of_nonneg_right hl hn.le
        omega
      · have := mul_nonneg hl hn.le
        omega
    · unfold intersectSB Verif.Geom.bound
      simp only [Bool.or_eq_true, decide_eq_true_eq]
      right
      rw [if_pos (by omega)]
      omega

/-- A tetrahedron is only skipped if none of the cells in its bounds has its place in the image. -/
theorem skipped_cells (mc : MC) (hn : 0 < mc.cells) (c : Fin 4 → Vec)
    (hc : ∀ k j, ((mc.dom.origin j - mc.buf.origin j - mc.cells + 1 : ℤ) : ℚ) ≤ c k j ∧
      c k j < ((mc.dom.origin j - mc.buf.origin j + 2 * mc.cells : ℤ) : ℚ))
    (hd : mc.drawn c = false) (g : IVec)
    (hg : ∀ j, ((newTetra (c 0) (c 1) (c 2) (c 3)).cellBounds 1).origin j ≤ g j ∧
      g j < ((newTetra (c 0) (c 1) (c 2) (c 3)).cellBounds 1).origin j +
        ((newTetra (c 0) (c 1) (c 2) (c 3)).cellBounds 1).width j) :
    ¬ ∃ x y z, IsCell mc.dom.width x y z ∧
      ∀ j, mc.cells ∣ g j + mc.buf.origin j - ((![x, y, z] : IVec) j + mc.dom.origin j) := by
  rintro ⟨x, y, z, hcell, hpl⟩
  have hcorn : (newTetra (c 0) (c 1) (c 2) (c 3)).corners = c := by funext k; fin_cases k <;> rfl
  have hb : ∀ j, -mc.cells < ((newTetra (c 0) (c 1) (c 2) (c 3)).cellBounds 1).origin j - mc.relCb.origin j ∧
      ((newTetra (c 0) (c 1) (c 2) (c 3)).cellBounds 1).origin j +
        ((newTetra (c 0) (c 1) (c 2) (c 3)).cellBounds 1).width j - mc.relCb.origin j ≤ 2 * mc.cells := by
    intro j
    obtain ⟨_, ⟨k1, e1⟩, ⟨k2, e2⟩⟩ := cornerMinMax_spec c j
    simp only [Tetra.cellBounds, hcorn, MC.relCb, div_one, sub_add_cancel, e1, e2]
    have f1 := Int.le_floor.mpr (hc k1 j).1
    have f2 := Int.floor_lt.mpr (hc k2 j).2
    omega
  have hw : ∀ j, mc.relCb.width j = mc.dom.width j := fun _ => rfl
  have hin : ∀ j, 0 ≤ (![x, y, z] : IVec) j ∧ (![x, y, z] : IVec) j < mc.dom.width j := by
    obtain ⟨c0, c1, c2⟩ := hcell
    intro j; fin_cases j
    · exact c0
    · exact c1
    · exact c2
  have ax : ∀ j, intersectAxis (((newTetra (c 0) (c 1) (c 2) (c 3)).cellBounds 1).origin j)
      (((newTetra (c 0) (c 1) (c 2) (c 3)).cellBounds 1).width j) (mc.relCb.origin j) (mc.relCb.width j) mc.cells =
      true := by
    intro j
    refine intersectAxis_complete hn (hb j).1 (hb j).2 (a := g j)
      (b := (![x, y, z] : IVec) j + mc.relCb.origin j) (hg j) ?_ ?_
    · have := hin j
      rw [hw]
      omega
    · obtain ⟨k, ek⟩ := hpl j
      refine ⟨-k, ?_⟩
      show _ + (mc.dom.origin j - mc.buf.origin j) = _
      linarith
  have : mc.drawn c = true := by
    unfold MC.drawn CellBounds.intersect
    rw [ax 0, ax 1, ax 2]
    rfl
  rw [this] at hd
  exact absurd hd (by simp)

/-- **C94**: a tetrahedron is only skipped if none of its points has its place in the image. -/
theorem C94_skipped (mc : MC) (hn : 0 < mc.cells) (c : Fin 4 → Vec)
    (hc : ∀ k j, ((mc.dom.origin j - mc.buf.origin j - mc.cells + 1 : ℤ) : ℚ) ≤ c k j ∧
      c k j < ((mc.dom.origin j - mc.buf.origin j + 2 * mc.cells : ℤ) : ℚ))
    (hd : mc.drawn c = false) (p : Vec) (hp : InSimplex c p) :
    ¬ ∃ x y z, IsCell mc.dom.width x y z ∧
      ∀ j, mc.cells ∣ ⌊p j⌋ + mc.buf.origin j - ((![x, y, z] : IVec) j + mc.dom.origin j) := by
  refine skipped_cells mc hn c hc hd (fun j => ⌊p j⌋) fun j => ?_
  have hcorn : (newTetra (c 0) (c 1) (c 2) (c 3)).corners = c := by funext k; fin_cases k <;> rfl
  have := C41_covers (newTetra (c 0) (c 1) (c 2) (c 3)) 1 one_pos p (by rw [hcorn]; exact hp) j
  unfold Verif.Geom.cellOf at this
  rwa [div_one] at this

/-! ## Depositing samples -/

/-- A sum over the points of the slice as a sum over positions in it. -/
theorem sum_visited_range (n : ℤ) (f : ℤ → M) :
    ∑ idx ∈ visited 0 n 1, f idx = ∑ i ∈ Finset.range n.toNat, f i := by
  refine Finset.sum_nbij' Int.toNat (fun i : ℕ => (i : ℤ)) ?_ ?_ ?_ ?_ ?_
  · intro a ha
    rw [mem_visited] at ha
    rw [Finset.mem_range]
    omega
  · intro i hi
    rw [Finset.mem_range] at hi
    rw [mem_visited]
    exact ⟨by omega, one_dvd _⟩
  · intro a ha
    rw [mem_visited] at ha
    omega
  · intro i _
    rfl
  · intro a ha
    rw [mem_visited] at ha
    rw [Int.toNat_of_nonneg ha.1.1]

theorem visited_rd {xs : List Vec} {n : ℤ} (hn : (xs.length : ℤ) = n) (idx : ℤ) (h : idx ∈ visited 0 n 1) :
    rd xs idx = some (xs.getD idx.toNat 0) ∧ xs.getD idx.toNat 0 ∈ xs := by
  rw [mem_visited] at h
  have hk : idx.toNat < xs.length := by omega
  refine ⟨rd_getD h.1.1 (by omega), ?_⟩
  rw [List.getD_eq_getElem?_getD, List.getElem?_eq_getElem hk]
  exact List.getElem_mem hk

/-- `segmentOverlap3D.Interpolate` as called for one tetrahedron: the value of point `i` is `val` of weight `i`.
render/box.go 540-582. -/
def segSub {M : Type} [Add M] (mc : MC) (val : Vec → M) (out w : List Vec) (cells : List M) : Option (List M) :=
  seg3Interpolate mc.buf out (fun idx => val (w.getD idx.toNat 0)) 0 mc.points 1 cells

/-- `domainOverlap3D.Interpolate` as called for one tetrahedron. render/box.go 642-683. -/
def domSub {M : Type} [Add M] (mc : MC) (val : Vec → M) (out w : List Vec) (cells : List M) : Option (List M) :=
  dom3InterpolateWith mc.arith.floor mc.buf mc.cells out (fun idx => val (w.getD idx.toNat 0)) 0 mc.points 1 cells

theorem segSub_ok (mc : MC) (reqVel : Bool) (val : Vec → M) (hval : reqVel = false → ∀ w w', val w = val w') :
    SubOk mc reqVel (segSub mc val) (mc.buf.width 0 * mc.buf.width 1 * mc.buf.width 2)
      (fun p => ∀ j, 0 ≤ p j ∧ p j < mc.buf.width j)
      (fun p w c => if c = cellOf p 0 + cellOf p 1 * mc.buf.width 0 +
          cellOf p 2 * (mc.buf.width 0 * mc.buf.width 1) then val w else 0) := by
  constructor
  · intro out w hl hQ _
    have := seg3_adds (M := M) (bufCb := mc.buf) (xs := out) (P := fun idx => out.getD idx.toNat 0) (low := 0)
      (high := mc.points) (jump := 1) one_pos (fun idx h => (visited_rd hl idx h).1)
      (fun idx h => hQ _ (visited_rd hl idx h).2) (fun idx => val (w.getD idx.toNat 0))
    refine adds_congr this fun c _ _ => ?_
    rw [sum_visited_range]
    simp only [Int.toNat_natCast]
  · intro h p w w'
    funext c
    beta_reduce
    rw [hval h w w']

theorem domSub_ok (mc : MC) (ha : mc.arith = .exact) (reqVel : Bool) (val : Vec → M) (hval : reqVel = false → ∀ w w', val w = val w') :
    SubOk mc reqVel (domSub mc val) (mc.buf.width 0 * mc.buf.width 1 * mc.buf.width 2)
      (fun p => FloorOk p ∧ ∀ j, -mc.cells ≤ p j ∧ p j < 2 * mc.cells)
      (fun p w c => if (cellOf p 0 % mc.cells < mc.buf.width 0 ∧ cellOf p 1 % mc.cells < mc.buf.width 1 ∧
            cellOf p 2 % mc.cells < mc.buf.width 2) ∧
          c = cellOf p 0 % mc.cells + cellOf p 1 % mc.cells * mc.buf.width 0 +
            cellOf p 2 % mc.cells * (mc.buf.width 0 * mc.buf.width 1) then val w else 0) := by
  have e : domSub mc val = fun out w => dom3Interpolate mc.buf mc.cells out (fun idx => val (w.getD idx.toNat 0)) 0
      mc.points 1 := by
    unfold domSub; rw [ha]; rfl
  rw [e]
  constructor
  · intro out w hl hQ _
    have hfl : ∀ idx ∈ visited 0 mc.points 1, ∀ j,
        intFloor ((out.getD idx.toNat 0 : Vec) j) = cellOf (out.getD idx.toNat 0) j := fun idx h j =>
      (hQ _ (visited_rd hl idx h).2).1 j
    have := dom3_adds (M := M) (bufCb := mc.buf) (cells := mc.cells) (xs := out)
      (P := fun idx => out.getD idx.toNat 0) (low := 0)
      (high := mc.points) (jump := 1) one_pos (fun idx h => (visited_rd hl idx h).1)
      (fun idx h j => by
        have hr := (hQ _ (visited_rd hl idx h).2).2 j
        rw [hfl idx h j]
        exact ⟨Int.le_floor.mpr (by push_cast; exact hr.1), Int.floor_lt.mpr (by push_cast; exact hr.2)⟩)
      (fun idx => val (w.getD idx.toNat 0))
    refine adds_congr this fun c _ _ => ?_
    rw [Finset.sum_congr rfl fun idx h => by rw [hfl idx h 0, hfl idx h 1, hfl idx h 2], sum_visited_range]
    simp only [Int.toNat_natCast]
  · intro h p w w'
    funext c
    beta_reduce
    rw [hval h w w']

/-! ## The image -/

theorem corner_mem {mc : MC} {xs : List Vec} (hs : 0 < mc.skip)
    (hx : (xs.length : ℤ) = (mc.segWidth + 1) * (mc.segWidth + 1) * (mc.segWidth + 1)) {x y z : ℤ}
    (hc : IsCube (mc.segWidth / mc.skip) x y z) (d : Fin 6) (k : Fin 4) :
    tetCorners mc.segWidth mc.skip xs x y z d k ∈ xs := by
  have hr := (visit_idxs hs hc d).2 k
  rw [← hx] at hr
  unfold tetCorners
  have hk : (particle (mc.segWidth + 1) (fun i => mc.skip * ((![x, y, z] : IVec) i + unitCorner d k i))).toNat <
      xs.length := by omega
  rw [List.getD_eq_getElem?_getD, List.getElem?_eq_getElem hk]
  exact List.getElem_mem hk

/-- Bounds on the corners are bounds on the points of the tetrahedron. -/
theorem inSimplex_bounds {c : Fin 4 → Vec} {p : Vec} (hp : InSimplex c p) {j : Fin 3} {a b : ℚ}
    (h : ∀ k, a ≤ c k j ∧ c k j < b) : a ≤ p j ∧ p j < b := by
  obtain ⟨l, ⟨hs, hq⟩, hl⟩ := hp
  rw [hq j]
  constructor
  · calc a = ∑ k, l k * a := by rw [← Finset.sum_mul, hs, one_mul]
      _ ≤ _ := Finset.sum_le_sum fun k _ => mul_le_mul_of_nonneg_left (h k).1 (hl k)
  · have : ∃ k, 0 < l k := by
      by_contra hn
      push Not at hn
      have : ∑ k, l k ≤ 0 := Finset.sum_nonpos fun k _ => hn k
      linarith
    obtain ⟨k, hk⟩ := this
    calc _ < ∑ k, l k * b := Finset.sum_lt_sum (fun k _ => mul_le_mul_of_nonneg_left (h k).2.le (hl k))
          ⟨k, Finset.mem_univ _, mul_lt_mul_of_pos_left (h k).2 hk⟩
      _ = b := by rw [← Finset.sum_mul, hs, one_mul]

theorem fix_of_nonneg {mc : MC} {c : Fin 4 → Vec} (h : ∀ k j, 0 ≤ c k j) (p : Vec) : mc.fix c p = p := by
  unfold MC.fix
  split
  · rfl
  · funext j
    have : coordNeg c j = false := by
      simp only [coordNeg, Bool.or_eq_false_iff, decide_eq_false_iff_not, not_lt]
      exact ⟨⟨⟨h 0 j, h 1 j⟩, h 2 j⟩, h 3 j⟩
    rw [this]
    rfl

theorem fixA_of_nonneg {mc : MC} {c : Fin 4 → Vec} (h : ∀ k j, 0 ≤ c k j) (p : Vec) : mc.fixA c p = p := by
  unfold MC.fixA
  split
  · rfl
  · funext j
    have : coordNeg c j = false := by
      simp only [coordNeg, Bool.or_eq_false_iff, decide_eq_false_iff_not, not_lt]
      exact ⟨⟨⟨h 0 j, h 1 j⟩, h 2 j⟩, h 3 j⟩
    rw [this]
    rfl

theorem mem_getD {u : List Vec} {n : ℤ} (hl : (u.length : ℤ) = n) {i : ℕ} (hi : i < n.toNat) : u.getD i 0 ∈ u := by
  have hk : i < u.length := by omega
  rw [List.getD_eq_getElem?_getD, List.getElem?_eq_getElem hk]
  exact List.getElem_mem hk

theorem unitPoint_getD {mc : MC} {pick : ℕ → ℤ} (h : mc.Ok pick) {u : List Vec} (hu : u ∈ mc.unitBufs) {i : ℕ}
    (hi : i < mc.points.toNat) : UnitPoint (u.getD i 0) := by
  obtain ⟨hl, hp⟩ := h.unit u hu
  have hk : i < u.length := by omega
  rw [List.getD_eq_getElem?_getD, List.getElem?_eq_getElem hk]
  exact hp _ (List.getElem_mem hk)

/-- What the workers together add, in any arithmetic that keeps the samples in the buffer and skips only tetrahedra without
samples in the image. -/
theorem segment_samples (mc : MC) (pick : ℕ → ℕ → ℤ) (h : ∀ id, mc.Runs (pick id))
    (hpl : Near mc.cells mc.buf mc.dom)
    (hbw : ∀ j, 0 ≤ mc.buf.width j) (reqVel : Bool) (val : Vec → M)
    (hval : reqVel = false → ∀ w w', val w = val w') (xs vs : List Vec)
    (hx : (xs.length : ℤ) = (mc.segWidth + 1) * (mc.segWidth + 1) * (mc.segWidth + 1))
    (hv : reqVel = true → (vs.length : ℤ) = (mc.segWidth + 1) * (mc.segWidth + 1) * (mc.segWidth + 1))
    (hpos : ∀ p ∈ xs, ∀ j, 0 ≤ p j)
    (hin : ∀ t ∈ tetras (mc.segWidth / mc.skip), ∀ u ∈ mc.unitBufs, ∀ p ∈ u, ∀ j,
      0 ≤ mc.arith.place (segCorners mc xs t) p j ∧ mc.arith.place (segCorners mc xs t) p j < mc.buf.width j)
    (hskip : ∀ t ∈ tetras (mc.segWidth / mc.skip), mc.drawnA (segCorners mc xs t) = false → ∀ u ∈ mc.unitBufs, ∀ p ∈ u,
      ¬ ∃ x y z, IsCell mc.dom.width x y z ∧ ∀ j, mc.cells ∣
        ⌊mc.arith.place (segCorners mc xs t) p j⌋ + mc.buf.origin j - ((![x, y, z] : IVec) j + mc.dom.origin j))
    (workers : ℕ) (hw : 0 < workers) (s : ℕ → MCState M) (hs : ∀ id, (s id).Ok mc reqVel)
    (hz : ∀ id, (s id).cells = List.replicate (bufferSize3 mc.buf).toNat 0) :
    ∃ (s' : ℕ → MCState M) (G : ℕ → ℤ → M) (U : ℤ × ℤ × ℤ × Fin 6 → List Vec), (∀ t, U t ∈ mc.unitBufs) ∧
      (∀ id < workers,
        mcInterpolate mc reqVel (segSub mc val) (pick id) xs vs id (segLen mc.segWidth mc.skip) workers (s id) =
          some (s' id) ∧
        Adds (boxLen3 mc.dom) (seg3Add mc.buf mc.dom mc.cells (s' id).cells) (G id)) ∧
      ∀ x y z, IsCell mc.dom.width x y z →
        ∑ id ∈ Finset.range workers, G id (x + y * mc.dom.width 0 + z * (mc.dom.width 0 * mc.dom.width 1)) =
          if x < mc.cells ∧ y < mc.cells ∧ z < mc.cells then
            placedImage mc.arith.place mc.cells mc.buf mc.dom mc.points.toNat (mc.segWidth / mc.skip) (segCorners mc xs)
              (segCorners mc vs) val U x y z
          else 0 := by
  have hsk := (h 0).skip
  have hn : 0 ≤ mc.buf.width 0 * mc.buf.width 1 * mc.buf.width 2 := mul_nonneg (mul_nonneg (hbw 0) (hbw 1)) (hbw 2)
  have hz' : ∀ id, Cells (mc.buf.width 0 * mc.buf.width 1 * mc.buf.width 2) (s id).cells (fun _ => 0) := by
    intro id
    have := cells_zero (M := M) (bufferSize3 mc.buf).toNat
    rw [hz id]
    unfold bufferSize3 at this ⊢
    rwa [Int.toNat_of_nonneg hn] at this
  have hcor : ∀ t ∈ tetras (mc.segWidth / mc.skip), ∀ k j, 0 ≤ segCorners mc xs t k j :=
    fun t ht k => hpos _ (corner_mem hsk hx (mem_tetras.mp ht) _ k)
  have hfix : ∀ t ∈ tetras (mc.segWidth / mc.skip), ∀ p, mc.fixA (segCorners mc xs t) p = p :=
    fun t ht p => fixA_of_nonneg (hcor t ht) p
  obtain ⟨s', B, U, hU, hrun, hsum⟩ := mc_workersA h (segSub_ok mc reqVel val hval) hx hv (by
    intro x y z hc d _ u hu p hp
    have ht : (x, y, z, d) ∈ tetras (mc.segWidth / mc.skip) := mem_tetras.mpr hc
    have := hfix _ ht (mc.arith.place (segCorners mc xs (x, y, z, d)) p)
    rw [show tetCorners mc.segWidth mc.skip xs x y z d = segCorners mc xs (x, y, z, d) from rfl, this]
    exact hin _ ht u hu p hp) workers hw s hs _ hz'
  have hadd : ∀ id : ℕ, ∃ G, id < workers → (Adds (boxLen3 mc.dom) (seg3Add mc.buf mc.dom mc.cells (s' id).cells) G ∧
      ∀ x y z, IsCell mc.dom.width x y z → G (x + y * mc.dom.width 0 + z * (mc.dom.width 0 * mc.dom.width 1)) =
        ∑ b ∈ boxCells mc.buf.width with AtPlace mc.cells mc.buf mc.dom 0 b.1 x ∧
          AtPlace mc.cells mc.buf mc.dom 1 b.2.1 y ∧ AtPlace mc.cells mc.buf mc.dom 2 b.2.2 z,
          B id (b.1 + b.2.1 * mc.buf.width 0 + b.2.2 * (mc.buf.width 0 * mc.buf.width 1))) := by
    intro id
    by_cases hid : id < workers
    · obtain ⟨G, hA, hG⟩ := seg3Add_adds_wide hpl (hrun id hid).2.2
      refine ⟨G, fun _ => ⟨hA, fun x y z hc => ?_⟩⟩
      rw [hG x y z hc]
      simp only [zero_add]
    · exact ⟨fun _ => 0, fun h => absurd h hid⟩
  choose G hG using hadd
  refine ⟨s', G, U, hU, fun id hid => ⟨(hrun id hid).1, (hG id hid).1⟩, fun x y z hc => ?_⟩
  rw [Finset.sum_congr rfl fun id hid => (hG id (Finset.mem_range.mp hid)).2 x y z hc, Finset.sum_comm]
  split_ifs with hper
  swap
  · rw [Finset.filter_false_of_mem, Finset.sum_empty]
    exact fun b _ hh => hper ⟨hh.1.1, hh.2.1.1, hh.2.2.1⟩
  have hat : ∀ j (b d : ℤ), d < mc.cells →
      (AtPlace mc.cells mc.buf mc.dom j b d ↔ SamePlace mc.cells mc.buf mc.dom j b d) := fun j b d hd => and_iff_right hd
  simp only [hat _ _ _ hper.1, hat _ _ _ hper.2.1, hat _ _ _ hper.2.2]
  rw [Finset.sum_congr rfl fun b _ => hsum _, Finset.sum_comm]
  unfold placedImage
  refine Finset.sum_congr rfl fun t ht => ?_
  change ∑ b ∈ _, mc.depositA _ (segCorners mc xs t) (segCorners mc vs t) (U t) _ = _
  have hplace : ∀ p : Vec,
      ((∀ j, mc.cells ∣ ⌊mc.arith.place (segCorners mc xs t) p j⌋ + mc.buf.origin j - ((![x, y, z] : IVec) j + mc.dom.origin j)) ↔
      (SamePlace mc.cells mc.buf mc.dom 0 ⌊mc.arith.place (segCorners mc xs t) p 0⌋ x ∧
        SamePlace mc.cells mc.buf mc.dom 1 ⌊mc.arith.place (segCorners mc xs t) p 1⌋ y ∧
        SamePlace mc.cells mc.buf mc.dom 2 ⌊mc.arith.place (segCorners mc xs t) p 2⌋ z)) := by
    intro p
    constructor
    · intro hh; exact ⟨hh 0, hh 1, hh 2⟩
    · rintro ⟨h0, h1, h2⟩ j
      fin_cases j
      · exact h0
      · exact h1
      · exact h2
  by_cases hd : mc.drawnA (segCorners mc xs t) = true
  · unfold MC.depositA
    simp only [if_pos hd]
    rw [Finset.sum_comm]
    refine Finset.sum_congr rfl fun i hi => ?_
    have hup := mem_getD ((h 0).unit _ (hU t)) (Finset.mem_range.mp hi)
    rw [hfix t ht]
    set p := mc.arith.place (segCorners mc xs t) ((U t).getD i 0) with hp
    have hpin : ∀ j, 0 ≤ p j ∧ p j < mc.buf.width j := hin t ht _ (hU t) _ hup
    have hcell : IsCell mc.buf.width (cellOf p 0) (cellOf p 1) (cellOf p 2) := by
      have f : ∀ j, 0 ≤ cellOf p j ∧ cellOf p j < mc.buf.width j := fun j =>
        ⟨Int.floor_nonneg.mpr (hpin j).1, Int.floor_lt.mpr (hpin j).2⟩
      exact ⟨f 0, f 1, f 2⟩
    have hb : ∀ b ∈ boxCells mc.buf.width, (b.1 + b.2.1 * mc.buf.width 0 + b.2.2 * (mc.buf.width 0 * mc.buf.width 1) =
        cellOf p 0 + cellOf p 1 * mc.buf.width 0 + cellOf p 2 * (mc.buf.width 0 * mc.buf.width 1)) ↔
        b = (cellOf p 0, cellOf p 1, cellOf p 2) := by
      intro b hb
      simp only [boxCells, Finset.mem_product, Finset.mem_Ico] at hb
      rw [flat_inj hb hcell]
      obtain ⟨b0, b1, b2⟩ := b
      simp
    rw [Finset.sum_filter, Finset.sum_congr rfl fun b hbm => by rw [if_congr (hb b hbm) rfl rfl]]
    rw [if_congr (hplace _) rfl rfl]
    have hmem : (cellOf p 0, cellOf p 1, cellOf p 2) ∈ boxCells mc.buf.width := by
      simp only [boxCells, Finset.mem_product, Finset.mem_Ico]
      exact hcell
    rw [Finset.sum_eq_single (cellOf p 0, cellOf p 1, cellOf p 2)]
    · rw [if_pos rfl]
      rfl
    · intro b _ hne
      rw [if_neg hne, ite_self]
    · intro hne
      exact absurd hmem hne
  · have hd' : mc.drawnA (segCorners mc xs t) = false := by simpa using hd
    unfold MC.depositA
    simp only [if_neg hd]
    rw [Finset.sum_const_zero]
    refine (Finset.sum_eq_zero fun i hi => if_neg fun hh => ?_).symm
    have hup := mem_getD ((h 0).unit _ (hU t)) (Finset.mem_range.mp hi)
    exact hskip t ht hd' _ (hU t) _ hup ⟨x, y, z, hc, hh⟩

/-- **C94**, segment buffer: the workers together add to the image, for every tetrahedron of the segment, the samples
of that tetrahedron that have their place in the image; skipping tetrahedra, and how they are shared among the workers,
makes no difference. Of an image wider than the box only the first period is filled. -/
theorem C94_segment (mc : MC) (pick : ℕ → ℕ → ℤ) (h : ∀ id, mc.Ok (pick id)) (hcells : 0 < mc.cells)
    (hpl : Near mc.cells mc.buf mc.dom)
    (hrel : ∀ j, -mc.cells < mc.dom.origin j - mc.buf.origin j ∧ mc.dom.origin j - mc.buf.origin j < mc.cells)
    (hbw : ∀ j, 0 ≤ mc.buf.width j) (reqVel : Bool) (val : Vec → M)
    (hval : reqVel = false → ∀ w w', val w = val w') (xs vs : List Vec)
    (hx : (xs.length : ℤ) = (mc.segWidth + 1) * (mc.segWidth + 1) * (mc.segWidth + 1))
    (hv : reqVel = true → (vs.length : ℤ) = (mc.segWidth + 1) * (mc.segWidth + 1) * (mc.segWidth + 1))
    (hpos : ∀ p ∈ xs, ∀ j, 0 ≤ p j ∧ p j < mc.buf.width j ∧ p j < mc.cells)
    (workers : ℕ) (hw : 0 < workers) (s : ℕ → MCState M) (hs : ∀ id, (s id).Ok mc reqVel)
    (hz : ∀ id, (s id).cells = List.replicate (bufferSize3 mc.buf).toNat 0) :
    ∃ (s' : ℕ → MCState M) (G : ℕ → ℤ → M) (U : ℤ × ℤ × ℤ × Fin 6 → List Vec), (∀ t, U t ∈ mc.unitBufs) ∧
      (∀ id < workers,
        mcInterpolate mc reqVel (segSub mc val) (pick id) xs vs id (segLen mc.segWidth mc.skip) workers (s id) =
          some (s' id) ∧
        Adds (boxLen3 mc.dom) (seg3Add mc.buf mc.dom mc.cells (s' id).cells) (G id)) ∧
      ∀ x y z, IsCell mc.dom.width x y z →
        ∑ id ∈ Finset.range workers, G id (x + y * mc.dom.width 0 + z * (mc.dom.width 0 * mc.dom.width 1)) =
          if x < mc.cells ∧ y < mc.cells ∧ z < mc.cells then
            sampleImage mc.cells mc.buf mc.dom mc.points.toNat (mc.segWidth / mc.skip) (segCorners mc xs)
              (segCorners mc vs) val U x y z
          else 0 := by
  have hsk := (h 0).skip
  have hcor : ∀ t ∈ tetras (mc.segWidth / mc.skip), ∀ k j,
      0 ≤ segCorners mc xs t k j ∧ segCorners mc xs t k j < mc.buf.width j ∧ segCorners mc xs t k j < mc.cells :=
    fun t ht k => hpos _ (corner_mem hsk hx (mem_tetras.mp ht) _ k)
  have hpe : mc.arith.place = mix := by rw [(h 0).arith, place_exact]
  have key := segment_samples mc pick (fun id => (h id).runs) hpl hbw reqVel val hval xs vs hx hv
    (fun p hp j => (hpos p hp j).1)
    (fun t ht u hu p hp j => by
      rw [hpe]
      exact inSimplex_bounds (mix_inSimplex (((h 0).unit u hu).2 p hp)) fun k => ⟨(hcor t ht k j).1, (hcor t ht k j).2.1⟩)
    (fun t ht hd u hu p hp => by
      rw [(h 0).drawnA] at hd
      rw [hpe]
      refine C94_skipped mc hcells (segCorners mc xs t) (fun k j => ?_) hd _ (mix_inSimplex (((h 0).unit u hu).2 p hp))
      obtain ⟨a, _, b⟩ := hcor t ht k j
      obtain ⟨r1, r2⟩ := hrel j
      constructor
      · refine le_trans ?_ a
        exact_mod_cast (by omega : mc.dom.origin j - mc.buf.origin j - mc.cells + 1 ≤ 0)
      · refine lt_of_lt_of_le b ?_
        exact_mod_cast (by omega : mc.cells ≤ mc.dom.origin j - mc.buf.origin j + 2 * mc.cells)) workers hw s hs hz
  rw [hpe] at key
  exact key

theorem fix_place {mc : MC} (c : Fin 4 → Vec) (p : Vec) (j : Fin 3) :
    mc.cells ∣ ⌊mc.fix c p j⌋ - ⌊p j⌋ ∧ (mc.fix c p j = p j ∨ p j < 0 ∧ mc.fix c p j = p j + mc.cells) := by
  unfold MC.fix
  split
  · simp
  · dsimp only
    split
    next hh =>
      simp only [Bool.and_eq_true, decide_eq_true_eq] at hh
      rw [Int.floor_add_intCast]
      exact ⟨⟨1, by ring⟩, Or.inr ⟨hh.2, rfl⟩⟩
    next => simp

theorem floorOk_of_not_int {p : Vec} (h : ∀ j (m : ℤ), m ≤ 0 → p j ≠ m) : FloorOk p := by
  intro j
  refine (C52_intFloor_partial (p j)).1.mpr ?_
  rintro ⟨h0, m, hm⟩
  exact h j m (by rw [hm] at h0; exact_mod_cast h0) hm

/-- Samples have a cell that the domain buffer finds. -/
theorem domain_sample_ok {mc : MC} {pick : ℕ → ℕ → ℤ} (h : ∀ id, mc.Ok (pick id)) (hcells : 0 < mc.cells)
    {xs : List Vec}
    (hcor : ∀ t ∈ tetras (mc.segWidth / mc.skip), ∀ k j, ((-mc.cells + 1 : ℤ) : ℚ) ≤ segCorners mc xs t k j ∧
      segCorners mc xs t k j < ((2 * mc.cells : ℤ) : ℚ))
    (hface : ∀ t ∈ tetras (mc.segWidth / mc.skip), ∀ u ∈ mc.unitBufs, ∀ p ∈ u, ∀ j, ∀ m : ℤ, m ≤ 0 →
      mix (segCorners mc xs t) p j ≠ m) :
    ∀ t ∈ tetras (mc.segWidth / mc.skip), ∀ u ∈ mc.unitBufs, ∀ p ∈ u,
      FloorOk (mc.fix (segCorners mc xs t) (mix (segCorners mc xs t) p)) ∧
      ∀ j, -(mc.cells : ℚ) ≤ mc.fix (segCorners mc xs t) (mix (segCorners mc xs t) p) j ∧
        mc.fix (segCorners mc xs t) (mix (segCorners mc xs t) p) j < 2 * (mc.cells : ℚ) := by
  have hcq : (0 : ℚ) < mc.cells := by exact_mod_cast hcells

  intro t ht u hu p hp
  have hup := ((h 0).unit u hu).2 p hp
  constructor
  · refine floorOk_of_not_int fun j m hm e => ?_
    rcases (fix_place (mc := mc) (segCorners mc xs t) (mix (segCorners mc xs t) p) j).2 with e' | ⟨_, e'⟩
    · exact hface t ht u hu p hp j m hm (e'.symm.trans e)
    · refine hface t ht u hu p hp j (m - mc.cells) (by omega) ?_
      rw [e'] at e
      push_cast
      linarith
  · intro j
    have hb := inSimplex_bounds (mix_inSimplex (c := segCorners mc xs t) hup) (fun k => hcor t ht k j)
    push_cast at hb
    rcases (fix_place (mc := mc) (segCorners mc xs t) (mix (segCorners mc xs t) p) j).2 with e' | ⟨hneg, e'⟩
    · rw [e']
      exact ⟨by linarith, hb.2⟩
    · rw [e']
      exact ⟨by linarith, by linarith⟩

/-- **C94**, domain buffer. Missing: samples with a coordinate that is zero or a negative whole
number of cells (see `C47_domain_counterexample`). -/
theorem C94_domain_partial (mc : MC) (pick : ℕ → ℕ → ℤ) (h : ∀ id, mc.Ok (pick id)) (hcells : 0 < mc.cells)
    (hbd : mc.buf = mc.dom) (hbw : ∀ j, 0 ≤ mc.dom.width j)
    (reqVel : Bool) (val : Vec → M)
    (hval : reqVel = false → ∀ w w', val w = val w') (xs vs : List Vec)
    (hx : (xs.length : ℤ) = (mc.segWidth + 1) * (mc.segWidth + 1) * (mc.segWidth + 1))
    (hv : reqVel = true → (vs.length : ℤ) = (mc.segWidth + 1) * (mc.segWidth + 1) * (mc.segWidth + 1))
    (hpos : ∀ p ∈ xs, ∀ j, ((-mc.cells + 1 : ℤ) : ℚ) ≤ p j ∧ p j < ((2 * mc.cells : ℤ) : ℚ))
    (hface : ∀ t ∈ tetras (mc.segWidth / mc.skip), ∀ u ∈ mc.unitBufs, ∀ p ∈ u, ∀ j, ∀ m : ℤ, m ≤ 0 →
      mix (segCorners mc xs t) p j ≠ m)
    (workers : ℕ) (hw : 0 < workers) (s : ℕ → MCState M) (hs : ∀ id, (s id).Ok mc reqVel)
    (hz : ∀ id, (s id).cells = List.replicate (bufferSize3 mc.buf).toNat 0) :
    ∃ (s' : ℕ → MCState M) (G : ℕ → ℤ → M) (U : ℤ × ℤ × ℤ × Fin 6 → List Vec), (∀ t, U t ∈ mc.unitBufs) ∧
      (∀ id < workers,
        mcInterpolate mc reqVel (domSub mc val) (pick id) xs vs id (segLen mc.segWidth mc.skip) workers (s id) =
          some (s' id) ∧
        Adds (boxLen3 mc.dom) (domAdd (s' id).cells) (G id)) ∧
      ∀ x y z, IsCell mc.dom.width x y z →
        ∑ id ∈ Finset.range workers, G id (x + y * mc.dom.width 0 + z * (mc.dom.width 0 * mc.dom.width 1)) =
          if x < mc.cells ∧ y < mc.cells ∧ z < mc.cells then
            sampleImage mc.cells mc.buf mc.dom mc.points.toNat (mc.segWidth / mc.skip) (segCorners mc xs)
              (segCorners mc vs) val U x y z
          else 0 := by
  have hsk := (h 0).skip
  have hbw' : ∀ j, 0 ≤ mc.buf.width j := by rw [hbd]; exact hbw
  have hn : 0 ≤ mc.buf.width 0 * mc.buf.width 1 * mc.buf.width 2 :=
    mul_nonneg (mul_nonneg (hbw' 0) (hbw' 1)) (hbw' 2)
  have hz' : ∀ id, Cells (mc.buf.width 0 * mc.buf.width 1 * mc.buf.width 2) (s id).cells (fun _ => 0) := by
    intro id
    have := cells_zero (M := M) (bufferSize3 mc.buf).toNat
    rw [hz id]
    unfold bufferSize3 at this ⊢
    rwa [Int.toNat_of_nonneg hn] at this
  have hcor : ∀ t ∈ tetras (mc.segWidth / mc.skip), ∀ k j, ((-mc.cells + 1 : ℤ) : ℚ) ≤ segCorners mc xs t k j ∧
      segCorners mc xs t k j < ((2 * mc.cells : ℤ) : ℚ) :=
    fun t ht k => hpos _ (corner_mem hsk hx (mem_tetras.mp ht) _ k)
  have hQ := domain_sample_ok h hcells hcor hface
  obtain ⟨s', B, U, hU, hrun, hsum⟩ := mc_workers h (domSub_ok mc (h 0).arith reqVel val hval) hx hv (by
    intro x y z hc d _ u hu p hp
    exact hQ (x, y, z, d) (mem_tetras.mpr hc) u hu p hp) workers hw s hs _ hz'
  refine ⟨s', B, U, hU, fun id hid => ⟨(hrun id hid).1, ?_⟩, fun x y z hc => ?_⟩
  · have := domAdd_adds (hrun id hid).2.2
    unfold boxLen3
    rw [hbd] at this
    refine adds_congr this fun c _ _ => ?_
    simp only [zero_add]
  rw [hsum]
  split_ifs with hper
  swap
  · refine Finset.sum_eq_zero fun t _ => ?_
    change mc.deposit _ (segCorners mc xs t) (segCorners mc vs t) (U t) _ = _
    unfold MC.deposit
    split_ifs
    swap
    · rfl
    refine Finset.sum_eq_zero fun i _ => if_neg ?_
    rintro ⟨⟨l0, l1, l2⟩, eq⟩
    have hcp : ∀ j, 0 ≤ cellOf (mc.fix (segCorners mc xs t) (mix (segCorners mc xs t) ((U t).getD i 0))) j % mc.cells ∧
        cellOf (mc.fix (segCorners mc xs t) (mix (segCorners mc xs t) ((U t).getD i 0))) j % mc.cells < mc.cells := fun j =>
      ⟨Int.emod_nonneg _ hcells.ne', Int.emod_lt_of_pos _ hcells⟩
    rw [hbd] at l0 l1 l2 eq
    rw [flat_inj hc ⟨⟨(hcp 0).1, l0⟩, ⟨(hcp 1).1, l1⟩, ⟨(hcp 2).1, l2⟩⟩] at eq
    refine hper ⟨?_, ?_, ?_⟩
    · rw [eq.1]; exact (hcp 0).2
    · rw [eq.2.1]; exact (hcp 1).2
    · rw [eq.2.2]; exact (hcp 2).2
  unfold sampleImage
  refine Finset.sum_congr rfl fun t ht => ?_
  change mc.deposit _ (segCorners mc xs t) (segCorners mc vs t) (U t) _ = _
  by_cases hd : mc.drawn (segCorners mc xs t) = true
  · unfold MC.deposit
    simp only [if_pos hd]
    refine Finset.sum_congr rfl fun i hi => if_congr ?_ rfl rfl
    rw [Finset.mem_range] at hi
    have hum : (U t).getD i 0 ∈ U t := by
      have hl := ((h 0).unit (U t) (hU t)).1
      have hk : i < (U t).length := by omega
      rw [List.getD_eq_getElem?_getD, List.getElem?_eq_getElem hk]
      exact List.getElem_mem hk
    generalize hq : mix (segCorners mc xs t) ((U t).getD i 0) = q
    have hfp : ∀ j, mc.cells ∣ ⌊mc.fix (segCorners mc xs t) q j⌋ - ⌊q j⌋ := fun j =>
      (fix_place (segCorners mc xs t) q j).1
    have hem : ∀ j d, 0 ≤ d → d < mc.cells → (cellOf (mc.fix (segCorners mc xs t) q) j % mc.cells = d ↔
        mc.cells ∣ ⌊q j⌋ + mc.buf.origin j - (d + mc.dom.origin j)) := by
      intro j d d0 d1
      rw [emod_eq_iff d0 d1, hbd]
      rw [show ⌊q j⌋ + mc.dom.origin j - (d + mc.dom.origin j) = ⌊q j⌋ - d by ring]
      unfold cellOf
      rw [show ⌊mc.fix (segCorners mc xs t) q j⌋ - d = (⌊mc.fix (segCorners mc xs t) q j⌋ - ⌊q j⌋) + (⌊q j⌋ - d) by
        ring]
      exact Int.dvd_add_right (hfp j)
    have hcp : ∀ j, 0 ≤ cellOf (mc.fix (segCorners mc xs t) q) j % mc.cells := fun j =>
      Int.emod_nonneg _ hcells.ne'
    obtain ⟨c0, c1, c2⟩ := hc
    rw [hbd] at hem ⊢
    constructor
    · rintro ⟨⟨l0, l1, l2⟩, eq⟩
      rw [flat_inj ⟨c0, c1, c2⟩ ⟨⟨hcp 0, l0⟩, ⟨hcp 1, l1⟩, ⟨hcp 2, l2⟩⟩] at eq
      intro j
      fin_cases j
      · exact (hem 0 x c0.1 hper.1).mp eq.1.symm
      · exact (hem 1 y c1.1 hper.2.1).mp eq.2.1.symm
      · exact (hem 2 z c2.1 hper.2.2).mp eq.2.2.symm
    · intro hh
      rw [(hem 0 x c0.1 hper.1).mpr (hh 0), (hem 1 y c1.1 hper.2.1).mpr (hh 1), (hem 2 z c2.1 hper.2.2).mpr (hh 2)]
      exact ⟨⟨c0.2, c1.2, c2.2⟩, rfl⟩
  · have hd' : mc.drawn (segCorners mc xs t) = false := by simpa using hd
    unfold MC.deposit
    simp only [if_neg hd]
    refine (Finset.sum_eq_zero fun i hi => if_neg fun hh => ?_).symm
    have hup := unitPoint_getD (h 0) (hU t) (Finset.mem_range.mp hi)
    refine C94_skipped mc hcells (segCorners mc xs t) (fun k j => ?_) hd' _ (mix_inSimplex hup) ⟨x, y, z, hc, hh⟩
    have := hcor t ht k j
    rw [hbd, sub_self, zero_sub, zero_add]
    exact this

end Verif.Render
