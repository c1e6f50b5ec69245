import Verif.Main.EndToEnd
import Verif.Io.Config
import Verif.Render.Whole
import Mathlib.Data.List.GetD

/-!
C108: from the files written by the conversion program to the finished image of the renderer.
-/

set_option autoImplicit false

namespace Verif.Main
open Verif.Go Verif.Geom Verif.Render

variable {M : Type} [AddCommMonoid M]

/-! Specification. -/

/-- The positions of a segment in cells, from the cell of the segment's origin on, in one period of `cells` cells. -/
def relCells (cells : ℤ) (f : SheetFile) : List Vec :=
  f.xs.map fun x j =>
    let cw := f.header.totalWidth / cells
    cells * Int.fract ((x j / cw - ⌊f.header.origin j / cw⌋) / cells)

/-- The low cell of a segment. -/
def originCell (cells : ℤ) (f : SheetFile) : IVec := fun j => ⌊f.header.origin j / (f.header.totalWidth / cells)⌋

/-- The value which a segment adds to image cell `(x, y, z)`: each tetrahedron `t` of its cubes (`skip` particles on a
side) is sampled at the first `points` points `U t` of the unit tetrahedron, and a sample counts when its cell is the
image cell, modulo the period. -/
def fileImage (cells : ℤ) (dom : CellBounds) (points : ℕ) (skip : ℤ) (val : Vec → M) (f : SheetFile)
    (U : ℤ × ℤ × ℤ × Fin 6 → List Vec) (x y z : ℤ) : M :=
  let sw := f.header.segmentWidth
  ∑ t ∈ tetras (sw / skip), ∑ i ∈ Finset.range points,
    if (∀ j, cells ∣ ⌊mix (tetCorners sw skip (relCells cells f) t.1 t.2.1 t.2.2.1 t.2.2.2) ((U t).getD i 0) j⌋ +
        originCell cells f j - ((![x, y, z] : IVec) j + dom.origin j)) then
      val (mix (tetCorners sw skip f.vs t.1 t.2.1 t.2.2.1 t.2.2.2) ((U t).getD i 0))
    else 0

/-- The values of all samples of a segment, wherever they lie. -/
def fileTotal (points : ℕ) (skip : ℤ) (val : Vec → M) (f : SheetFile) (U : ℤ × ℤ × ℤ × Fin 6 → List Vec) : M :=
  let sw := f.header.segmentWidth
  ∑ t ∈ tetras (sw / skip), ∑ i ∈ Finset.range points,
    val (mix (tetCorners sw skip f.vs t.1 t.2.1 t.2.2.1 t.2.2.2) ((U t).getD i 0))

/-- What the renderer relies on in a file. -/
structure GoodFile (L : ℚ) (f : SheetFile) : Prop where
  total : f.header.totalWidth = L
  seg : 0 ≤ f.header.segmentWidth
  xlen : (f.xs.length : ℤ) = (f.header.segmentWidth + 1) * (f.header.segmentWidth + 1) * (f.header.segmentWidth + 1)
  vlen : (f.vs.length : ℤ) = (f.header.segmentWidth + 1) * (f.header.segmentWidth + 1) * (f.header.segmentWidth + 1)
  inside : ∀ x ∈ f.xs, ∀ j, 0 ≤ x j ∧ x j < L
  bound : ∀ j, ∀ x ∈ f.xs, InPeriodic L (f.header.origin j) (f.header.width j) (x j)
  origin : ∀ j, 0 ≤ f.header.origin j ∧ f.header.origin j < L
  width : ∀ j, 0 ≤ f.header.width j ∧ f.header.width j ≤ L

/-! Model. -/

/-- `box3D` (`proj = none`) and `box2D`, render/box.go 50-68 and 98-100, without the values. -/
structure RBox where
  cb : CellBounds
  pts : ℕ
  cells : ℤ
  cellWidth : ℚ
  proj : Option ℤ

/-- `man.hd.CellBounds(cells)`, render/io/io.go 390-406. -/
def sheetBounds (f : SheetFile) (cells : ℤ) : CellBounds :=
  let b := Verif.Io.cellBounds f.header.totalWidth f.header.origin f.header.width cells
  ⟨b.1, b.2⟩

/-- `requiresFile`, render/render.go 173-175, looks up what `NewManager` found, lines 94-115: the file is needed when the
cells of its segment meet those of the box. -/
def RBox.requires (b : RBox) (f : SheetFile) : Bool := (sheetBounds f b.cells).intersect b.cb b.cells

/-- `Overlap` chooses the domain overlap, render/box.go 70-94 and 102-122. -/
def RBox.direct (b : RBox) (f : SheetFile) : Bool :=
  match b.proj with
  | none => !chooseSegment3 (sheetBounds f b.cells) b.cb
  | some a => !chooseSegment2 (sheetBounds f b.cells) b.cb a b.cells

/-- `BufferSize` of the overlap, render/box.go 237-247 and 305-307. -/
def RBox.bufferSize (b : RBox) (buf : CellBounds) : ℤ :=
  match b.proj with
  | none => bufferSize3 buf
  | some a => bufferSize2 buf a

/-- `scaleXs`, render/render.go 177-180 with render/box.go 249-251, 276-278, 309-311 and 390-392. -/
def RBox.scaleXs (b : RBox) (f : SheetFile) : List Vec :=
  if b.direct f then (sheetBounds f b.cells).scaleVecsDomain b.cb f.xs b.cells (b.cellWidth * b.cells)
  else (sheetBounds f b.cells).scaleVecsSegment f.xs b.cells (b.cellWidth * b.cells)

/-- The interpolator made by `initWorkspaces`, render/render.go 191-213. The unit buffers are sliced to the number of
points of the box; slicing again within the capacity gives the original points back. -/
def RBox.mc (b : RBox) (skip : ℤ) (unitBufs : List (List Vec)) (f : SheetFile) : MC where
  segWidth := f.header.segmentWidth
  points := b.pts
  cells := b.cells
  skip := skip
  unitBufs := unitBufs.map (·.take b.pts)
  dom := b.cb
  buf := if b.direct f then b.cb else sheetBounds f b.cells

/-- One pass of `RenderDensityFromFile` for this box, render/render.go 258-278. `pick id n` is draw `n` of worker `id`,
`wbuf id` what earlier passes left in the vector buffer of the weights, `val` the value of a sample with a given
velocity. -/
def RBox.pass (b : RBox) (skip : ℤ) (unitBufs : List (List Vec)) (val : Vec → M) (f : SheetFile)
    (pick : ℕ → ℕ → ℤ) (wbuf : ℕ → List Vec) : SegRun M where
  mc := b.mc skip unitBufs f
  direct := b.direct f
  xs := b.scaleXs f
  vs := f.vs
  pick := pick
  init id := ⟨newTetra 0 0 0 0, newTetra 0 0 0 0, List.replicate b.pts 0, wbuf id, 0,
    List.replicate (b.bufferSize (b.mc skip unitBufs f).buf).toNat 0⟩
  val := val

/-- A file together with the draws of the workers during its pass, and with what the weights hold before it. The
arguments of one turn of the loop of render/render.go 231-234. -/
structure Pass where
  file : SheetFile
  pick : ℕ → ℕ → ℤ
  wbuf : ℕ → List Vec

/-- The passes of `RenderDensity` for one box, render/render.go 230-237 and 258-261. Passes for other boxes in between
do not touch this box; they leave traces only in `wbuf` and in the (cleared) buffers, see C53. -/
def RBox.passes (b : RBox) (skip : ℤ) (unitBufs : List (List Vec)) (val : SheetFile → Vec → M) (ps : List Pass) :
    List (SegRun M) :=
  (ps.filter fun p => b.requires p.file).map fun p => b.pass skip unitBufs (val p.file) p.file p.pick p.wbuf

/-- `newBox3D` and `newBox2D` without the values, render/box.go 139-213. -/
def RBox.new (boxWidth : ℚ) (pts : ℕ) (cells : ℤ) (origin width : Vec) (proj : Option ℤ) : RBox :=
  ⟨newBoxBounds boxWidth cells origin width, pts, cells, boxWidth / cells, proj⟩

/-! Proof. -/

/-- A number in one period, with the same place as `y`. -/
theorem fract_of_same {cells : ℤ} (hc : 0 < cells) {y u : ℚ} (h0 : 0 ≤ u) (h1 : u < cells) (h : SamePos cells y u) :
    u = cells * Int.fract (y / cells) := by
  obtain ⟨k, e⟩ := h
  have hq : (0 : ℚ) < cells := by exact_mod_cast hc
  have e1 : y / cells = u / cells - k := by rw [e]; field_simp; ring
  have e2 : Int.fract (u / (cells : ℚ)) = u / cells := by
    rw [Int.fract_eq_self]
    exact ⟨by positivity, by rw [div_lt_one hq]; exact h1⟩
  rw [e1, Int.fract_sub_intCast, e2]
  field_simp

theorem GoodFile.origin_cell {L : ℚ} {f : SheetFile} (h : GoodFile L f) {cells : ℤ} (hc : 0 < cells) (j : Fin 3) :
    0 ≤ originCell cells f j ∧ originCell cells f j < cells := by
  have hL : 0 < L := lt_of_le_of_lt (h.origin j).1 (h.origin j).2
  have hq : (0 : ℚ) < cells := by exact_mod_cast hc
  have hcw : 0 < L / cells := div_pos hL hq
  unfold originCell
  rw [h.total]
  refine ⟨Int.floor_nonneg.mpr (div_nonneg (h.origin j).1 hcw.le), Int.floor_lt.mpr ?_⟩
  rw [div_lt_iff₀ hcw, mul_div_cancel₀ _ hq.ne']
  exact (h.origin j).2

theorem sheetBounds_origin (f : SheetFile) (cells : ℤ) : (sheetBounds f cells).origin = originCell cells f := rfl

theorem sheetBounds_end (f : SheetFile) (cells : ℤ) (j : Fin 3) :
    (sheetBounds f cells).origin j + (sheetBounds f cells).width j =
      1 + ⌊(f.header.origin j + f.header.width j) / (f.header.totalWidth / cells)⌋ := by
  show ⌊_⌋ + (1 + ⌊_⌋ - ⌊_⌋) = _
  ring

theorem GoodFile.scaled {L : ℚ} {f : SheetFile} (h : GoodFile L f) {cells : ℤ} (hc : 0 < cells) :
    (sheetBounds f cells).scaleVecsSegment f.xs cells L = relCells cells f := by
  unfold CellBounds.scaleVecsSegment relCells
  refine List.map_congr_left fun x hx => ?_
  funext j
  have ho := h.origin_cell hc j
  have hin := h.inside x hx j
  have hr := scaleSegC_range cells L (originCell cells f j) (x j) hc hin.1 hin.2 ⟨ho.1, ho.2.le⟩
  have hs := scaleSegC_same cells L (originCell cells f j) (x j)
  have := fract_of_same hc hr.1 hr.2 hs
  rw [sheetBounds_origin, this]
  dsimp only
  rw [h.total, div_div_eq_mul_div, mul_div_assoc]
  unfold originCell
  rw [h.total]

/-- Scaled positions lie in one period and in the cells of the segment. -/
theorem GoodFile.rel_bounds {L : ℚ} {f : SheetFile} (h : GoodFile L f) {cells : ℤ} (hc : 0 < cells) :
    ∀ u ∈ relCells cells f, ∀ j, 0 ≤ u j ∧ u j < (sheetBounds f cells).width j ∧ u j < cells := by
  intro u hu j
  rw [← h.scaled hc] at hu
  unfold CellBounds.scaleVecsSegment at hu
  obtain ⟨x, hx, rfl⟩ := List.mem_map.mp hu
  have hq : (0 : ℚ) < cells := by exact_mod_cast hc
  have ho := h.origin_cell hc j
  have hin := h.inside x hx j
  have hL : 0 < L := lt_of_le_of_lt hin.1 hin.2
  have hr := scaleSegC_range cells L (originCell cells f j) (x j) hc hin.1 hin.2 ⟨ho.1, ho.2.le⟩
  refine ⟨hr.1, ?_, hr.2⟩
  have hw : (((sheetBounds f cells).width j : ℤ) : ℚ) =
      1 + ⌊(f.header.origin j + f.header.width j) / (L / cells)⌋ - originCell cells f j := by
    have := sheetBounds_end f cells j
    rw [sheetBounds_origin, h.total] at this
    rw [eq_sub_iff_add_eq, add_comm]
    exact_mod_cast this
  have hcw : 0 < L / cells := div_pos hL hq
  have hfl := Int.lt_floor_add_one ((f.header.origin j + f.header.width j) / (L / cells))
  obtain ⟨n, hn1, hn2⟩ := h.bound j x hx
  have hn0 : (0 : ℤ) ≤ n := by
    by_contra hneg
    have : (n : ℚ) ≤ -1 := by exact_mod_cast (by omega : n ≤ -1)
    nlinarith [(h.origin j).1, hin.2]
  have hy : ∀ a : ℚ, a ≤ f.header.origin j + f.header.width j →
      a * (cells / L) < ⌊(f.header.origin j + f.header.width j) / (L / cells)⌋ + 1 := by
    intro a ha
    have e : a * (cells / L) = a / (L / cells) := by rw [div_div_eq_mul_div, mul_div_assoc]
    rw [e]
    exact lt_of_le_of_lt (div_le_div_of_nonneg_right ha hcw.le) hfl
  rw [hw]
  rw [sheetBounds_origin]
  unfold scaleSegC
  dsimp only
  have hx1 : x j ≤ x j + n * L := by
    have : (0 : ℚ) ≤ n := by exact_mod_cast hn0
    nlinarith
  split_ifs with hneg
  · have hnp : 1 ≤ n := by
      by_contra hlt
      have hn' : n = 0 := by omega
      subst hn'
      rw [Int.cast_zero, zero_mul, add_zero] at hn1
      have h1 := div_le_div_of_nonneg_right hn1 hcw.le
      have h2 := Int.floor_le (f.header.origin j / (L / cells))
      have e : x j * (cells / L) = x j / (L / cells) := by rw [div_div_eq_mul_div, mul_div_assoc]
      have h3 : (originCell cells f j : ℚ) = ⌊f.header.origin j / (L / cells)⌋ := by unfold originCell; rw [h.total]
      rw [e, h3] at hneg
      linarith
    have h1 : x j + L ≤ f.header.origin j + f.header.width j := by
      have : (1 : ℚ) ≤ n := by exact_mod_cast hnp
      nlinarith
    have h2 := hy _ h1
    rw [add_mul, mul_div_cancel₀ _ hL.ne'] at h2
    linarith
  · have := hy _ (hx1.trans hn2)
    linarith

/-- The whole shift of `ScaleVecsDomain`. -/
theorem GoodFile.scaled_domain {L : ℚ} {f : SheetFile} (h : GoodFile L f) {cells : ℤ} (hc : 0 < cells) (dom : CellBounds)
    (ho : ∀ j, 0 ≤ dom.origin j ∧ dom.origin j < cells) :
    ∃ d : IVec, (∀ j, -cells < d j ∧ 2 * d j ≤ cells ∧ cells ∣ d j + dom.origin j - originCell cells f j) ∧
      (∀ j, domainDiff cells (originCell cells f j) (dom.origin j) = d j) ∧
      (sheetBounds f cells).scaleVecsDomain dom f.xs cells L = (relCells cells f).map fun u => (fun j => u j + (d j : ℚ) : Vec) := by
  have hd : ∀ j, ∃ d : ℤ, (-cells < d ∧ 2 * d ≤ cells ∧ cells ∣ d + dom.origin j - originCell cells f j) ∧
      domainDiff cells (originCell cells f j) (dom.origin j) = d := by
    intro j
    have h1 := h.origin_cell hc j
    have h2 := ho j
    set a := originCell cells f j
    unfold domainDiff
    dsimp only
    split_ifs with b1 b2
    · refine ⟨a - dom.origin j + cells, ⟨by omega, ?_, ⟨1, by ring⟩⟩, by push_cast; ring⟩
      rw [lt_div_iff₀ two_pos] at b1
      have : (a - dom.origin j) * 2 < -cells := by exact_mod_cast b1
      omega
    · refine ⟨a - dom.origin j - cells, ⟨?_, by omega, ⟨-1, by ring⟩⟩, by push_cast; ring⟩
      rw [gt_iff_lt, div_lt_iff₀ two_pos] at b2
      have : cells < (a - dom.origin j) * 2 := by exact_mod_cast b2
      omega
    · refine ⟨a - dom.origin j, ⟨?_, ?_, ⟨0, by ring⟩⟩, rfl⟩
      · omega
      · rw [gt_iff_lt, not_lt, le_div_iff₀ two_pos] at b2
        have : (a - dom.origin j) * 2 ≤ cells := by exact_mod_cast b2
        omega
  choose d hd1 hd2 using hd
  refine ⟨d, hd1, hd2, ?_⟩
  rw [← h.scaled hc]
  unfold CellBounds.scaleVecsSegment CellBounds.scaleVecsDomain
  rw [List.map_map]
  refine List.map_congr_left fun x _ => ?_
  funext j
  show _ + domainDiff _ _ _ = _ + _
  rw [← hd2 j, sheetBounds_origin]

theorem mix_add (c : Fin 4 → Vec) (d : Vec) (p : Vec) (j : Fin 3) :
    mix (fun k i => c k i + d i) p j = mix c p j + d j := by
  simp only [mix, bary, Fin.sum_univ_four, Matrix.cons_val_zero, Matrix.cons_val_one, Matrix.cons_val]
  ring

theorem tetCorners_map {sw skip : ℤ} {xs : List Vec} (hs : 0 < skip) (hx : (xs.length : ℤ) = (sw + 1) * (sw + 1) * (sw + 1))
    (g : Vec → Vec) {x y z : ℤ} (hc : IsCube (sw / skip) x y z) (d : Fin 6) :
    tetCorners sw skip (xs.map g) x y z d = fun k => g (tetCorners sw skip xs x y z d k) := by
  funext k
  have hr := (visit_idxs hs hc d).2 k
  rw [← hx] at hr
  unfold tetCorners
  have hk : (particle (sw + 1) (fun i => skip * ((![x, y, z] : IVec) i + unitCorner d k i))).toNat < xs.length := by
    omega
  rw [List.getD_eq_getElem _ _ (by simpa using hk), List.getD_eq_getElem _ _ hk, List.getElem_map]

theorem relCells_length (cells : ℤ) (f : SheetFile) : (relCells cells f).length = f.xs.length := List.length_map _

/-- What a pass adds is what the specification says. -/
theorem pass_image {L : ℚ} {f : SheetFile} (h : GoodFile L f) (b : RBox) (hc : 0 < b.cells)
    (hw : b.cellWidth * b.cells = L) (ho : ∀ j, 0 ≤ b.cb.origin j ∧ b.cb.origin j < b.cells) {skip : ℤ} (hs : 0 < skip)
    (unitBufs : List (List Vec)) (val : Vec → M) (pick : ℕ → ℕ → ℤ) (wbuf : ℕ → List Vec)
    (U : ℤ × ℤ × ℤ × Fin 6 → List Vec) (x y z : ℤ) :
    (b.pass skip unitBufs val f pick wbuf).image U x y z = fileImage b.cells b.cb b.pts skip val f U x y z := by
  unfold SegRun.image RBox.pass RBox.mc sampleImage fileImage segCorners RBox.scaleXs
  simp only [Int.toNat_natCast]
  refine Finset.sum_congr rfl fun t ht => Finset.sum_congr rfl fun i _ => ?_
  have hcube := mem_tetras.mp ht
  cases hd : b.direct f with
  | false =>
    simp only [Bool.false_eq_true, if_false]
    rw [hw, h.scaled hc, sheetBounds_origin]
  | true =>
    simp only [if_true]
    obtain ⟨d, hd1, -, hd2⟩ := h.scaled_domain hc b.cb ho
    have hxl : ((relCells b.cells f).length : ℤ) =
        (f.header.segmentWidth + 1) * (f.header.segmentWidth + 1) * (f.header.segmentWidth + 1) := by
      rw [relCells_length]; exact h.xlen
    rw [hw, hd2, tetCorners_map hs hxl (fun u j => u j + (d j : ℚ)) hcube]
    refine if_congr (forall_congr' fun j => ?_) rfl rfl
    rw [mix_add _ (fun j => (d j : ℚ)), Int.floor_add_intCast]
    obtain ⟨k, ek⟩ := (hd1 j).2.2
    generalize ⌊mix (tetCorners f.header.segmentWidth skip (relCells b.cells f) t.1 t.2.1 t.2.2.1 t.2.2.2)
      ((U t).getD i 0) j⌋ = a
    constructor
    · rintro ⟨q, hq⟩
      exact ⟨q - k, by rw [mul_sub, ← ek, ← hq]; ring⟩
    · rintro ⟨q, hq⟩
      exact ⟨q + k, by rw [mul_add, ← ek, ← hq]; ring⟩

/-- What is assumed of box and buffers. -/
structure Setup (L : ℚ) (b : RBox) (skip : ℤ) (unitBufs : List (List Vec)) : Prop where
  cells : 0 < b.cells
  width : b.cellWidth * b.cells = L
  origin : ∀ j, 0 ≤ b.cb.origin j ∧ b.cb.origin j < b.cells
  extent : ∀ j, 0 ≤ b.cb.width j
  skip : 0 < skip
  some : 0 < unitBufs.length
  unit : ∀ u ∈ unitBufs, b.pts ≤ u.length ∧ ∀ p ∈ u, UnitPoint p

/-- A pass that meets these conditions: the file is as written, the draws are in range and the weights large enough. -/
structure Pass.Ok (p : Pass) (L : ℚ) (b : RBox) (skip : ℤ) (unitBufs : List (List Vec)) (reqVel : Bool) : Prop where
  file : GoodFile L p.file
  pick : ∀ id n, 0 ≤ p.pick id n ∧ p.pick id n < unitBufs.length
  wbuf : reqVel = true → ∀ id, b.pts ≤ (p.wbuf id).length

/-- When the buffer has the extent of the image, no sample lies exactly on a face of a cell at or below the low end of the
image. In a projection with the buffer of a segment, no sample lies at depth exactly zero of the segment. -/
structure Pass.OffFaces (p : Pass) (b : RBox) (skip : ℤ) (unitBufs : List (List Vec)) : Prop where
  face : b.direct p.file = true → ∀ t ∈ tetras (p.file.header.segmentWidth / skip), ∀ u ∈ unitBufs, ∀ q ∈ u, ∀ j,
    ∀ k : ℤ, k + domainDiff b.cells (originCell b.cells p.file j) (b.cb.origin j) ≤ 0 →
    mix (tetCorners p.file.header.segmentWidth skip (relCells b.cells p.file) t.1 t.2.1 t.2.2.1 t.2.2.2) q j ≠ k
  depth : ∀ a, b.proj = some a → b.direct p.file = false → ∀ t ∈ tetras (p.file.header.segmentWidth / skip),
    ∀ u ∈ unitBufs, ∀ q ∈ u,
    mix (tetCorners p.file.header.segmentWidth skip (relCells b.cells p.file) t.1 t.2.1 t.2.2.1 t.2.2.2) q
      (projDims a).2.2 ≠ 0

/-- The positions after scaling with the buffer of a segment. -/
theorem pass_xs {L : ℚ} {b : RBox} {skip : ℤ} {unitBufs : List (List Vec)} (hb : Setup L b skip unitBufs) {p : Pass}
    (hf : GoodFile L p.file) (val : Vec → M) (hd : b.direct p.file = false) :
    (b.pass skip unitBufs val p.file p.pick p.wbuf).xs = relCells b.cells p.file := by
  show (if b.direct p.file = true then _ else _) = _
  rw [hd, hb.width, hf.scaled hb.cells]; rfl

/-- The conditions on a pass, whatever the state at its start. -/
theorem pass_ok_of {L : ℚ} {b : RBox} {skip : ℤ} {unitBufs : List (List Vec)}
    (hb : Setup L b skip unitBufs) {p : Pass}
    {reqVel : Bool} (hp : p.Ok L b skip unitBufs reqVel) (val : Vec → M)
    (hval : reqVel = false → ∀ w w', val w = val w') (init : ℕ → MCState M)
    (hi : ∀ id, (init id).Ok (b.mc skip unitBufs p.file) reqVel)
    (hz : ∀ id, (init id).cells = List.replicate (bufferSize3 (b.mc skip unitBufs p.file).buf).toNat 0) :
    ({ b.pass skip unitBufs val p.file p.pick p.wbuf with init := init } : SegRun M).Ok reqVel b.cells b.cb := by
  have hf := hp.file
  have hL : 0 < L := lt_of_le_of_lt (hf.origin 0).1 (hf.origin 0).2
  have hq : (0 : ℚ) < b.cells := by exact_mod_cast hb.cells
  have hlen : ((b.scaleXs p.file).length : ℤ) = (p.file.header.segmentWidth + 1) * (p.file.header.segmentWidth + 1) *
      (p.file.header.segmentWidth + 1) := by
    rw [← hf.xlen]
    unfold RBox.scaleXs CellBounds.scaleVecsDomain CellBounds.scaleVecsSegment
    split_ifs <;> rw [List.length_map]
  refine ⟨fun id => ⟨hf.seg, hb.skip, ?_, ?_, rfl⟩, rfl, rfl, hval, hlen, fun _ => hf.vlen,
    hi, hz, ?_, ?_⟩
  · intro u hu
    obtain ⟨u', hu', rfl⟩ := List.mem_map.mp hu
    refine ⟨?_, fun q hq' => (hb.unit u' hu').2 q (List.mem_of_mem_take hq')⟩
    show ((u'.take b.pts).length : ℤ) = b.pts
    rw [List.length_take, min_eq_left (hb.unit u' hu').1]
  · intro n
    refine ⟨(hp.pick id n).1, ?_⟩
    show p.pick id n < ((unitBufs.map _).length : ℤ)
    rw [List.length_map]
    exact (hp.pick id n).2
  · intro hd
    have hd' : b.direct p.file = false := hd
    have hbuf : (b.pass skip unitBufs val p.file p.pick p.wbuf).mc.buf = sheetBounds p.file b.cells := by
      show (if b.direct p.file = true then _ else _) = _
      rw [hd']; rfl
    have hxs : (b.pass skip unitBufs val p.file p.pick p.wbuf).xs = relCells b.cells p.file := by
      show (if b.direct p.file = true then _ else _) = _
      rw [hd', hb.width, hf.scaled hb.cells]; rfl
    have hend : ∀ j, (sheetBounds p.file b.cells).origin j ≤
          (sheetBounds p.file b.cells).origin j + (sheetBounds p.file b.cells).width j - 1 ∧
        (sheetBounds p.file b.cells).origin j + (sheetBounds p.file b.cells).width j ≤ 2 * b.cells := by
      intro j
      have hcw : 0 < L / b.cells := div_pos hL hq
      rw [sheetBounds_end, hf.total]
      have h1 : ⌊(p.file.header.origin j + p.file.header.width j) / (L / b.cells)⌋ < 2 * b.cells := by
        rw [Int.floor_lt, div_lt_iff₀ hcw]
        push_cast
        rw [mul_assoc, mul_div_cancel₀ _ hq.ne']
        linarith [(hf.origin j).2, (hf.width j).2]
      have h2 : originCell b.cells p.file j ≤ ⌊(p.file.header.origin j + p.file.header.width j) / (L / b.cells)⌋ := by
        unfold originCell
        rw [hf.total]
        exact Int.floor_le_floor (div_le_div_of_nonneg_right (by linarith [(hf.width j).1]) hcw.le)
      rw [sheetBounds_origin]
      omega
    rw [hbuf, hxs]
    refine ⟨fun j => ⟨?_, ?_⟩, fun j => ?_, fun j => ?_, hf.rel_bounds hb.cells⟩
    · have := hf.origin_cell hb.cells j
      have := hb.origin j
      rw [sheetBounds_origin]
      omega
    · have := hend j
      have := hb.origin j
      omega
    · have := hf.origin_cell hb.cells j
      have := hb.origin j
      rw [sheetBounds_origin]
      omega
    · have := hend j
      omega
  · intro hd
    have hd' : b.direct p.file = true := hd
    obtain ⟨d, hd1, hdd, hd2⟩ := hf.scaled_domain hb.cells b.cb hb.origin
    have hxs : (b.pass skip unitBufs val p.file p.pick p.wbuf).xs =
        (relCells b.cells p.file).map fun u => (fun j => u j + (d j : ℚ) : Vec) := by
      show (if b.direct p.file = true then _ else _) = _
      rw [hd', hb.width, hd2]; rfl
    refine ⟨?_, hb.extent, ?_⟩
    · show (if b.direct p.file = true then _ else _) = _
      rw [hd']; rfl
    · rw [hxs]
      intro u hu j
      obtain ⟨u', hu', rfl⟩ := List.mem_map.mp hu
      have h1 := hf.rel_bounds hb.cells u' hu' j
      have h2 : ((-b.cells + 1 : ℤ) : ℚ) ≤ d j := by exact_mod_cast (by have := (hd1 j).1; omega : -b.cells + 1 ≤ d j)
      have h3 : (d j : ℚ) ≤ b.cells := by
        have := (hd1 j).2.1
        exact_mod_cast (by have := hb.cells; omega : d j ≤ b.cells)
      refine ⟨by linarith [h1.1], ?_⟩
      push_cast
      linarith [h1.2.2]

/-- The condition on the faces of the cells, for the scaled positions. -/
theorem pass_off {L : ℚ} {b : RBox} {skip : ℤ} {unitBufs : List (List Vec)} (hb : Setup L b skip unitBufs) {p : Pass}
    (hf : GoodFile L p.file) (ho : p.OffFaces b skip unitBufs) (val : Vec → M) :
    (b.pass skip unitBufs val p.file p.pick p.wbuf).OffFaces := by
  intro hd
  have hd' : b.direct p.file = true := hd
  obtain ⟨d, hd1, hdd, hd2⟩ := hf.scaled_domain hb.cells b.cb hb.origin
  have hxs : (b.pass skip unitBufs val p.file p.pick p.wbuf).xs =
      (relCells b.cells p.file).map fun u => (fun j => u j + (d j : ℚ) : Vec) := by
    show (if b.direct p.file = true then _ else _) = _
    rw [hd', hb.width, hd2]; rfl
  intro t ht u hu q hq' j k hk e
  obtain ⟨u', hu', rfl⟩ := List.mem_map.mp hu
  refine ho.face hd' t ht u' hu' q (List.mem_of_mem_take hq') j (k - d j) ?_ ?_
  · rw [hdd j]
    push_cast
    rw [sub_add_cancel]
    exact_mod_cast hk
  have hxl : ((relCells b.cells p.file).length : ℤ) = (p.file.header.segmentWidth + 1) *
      (p.file.header.segmentWidth + 1) * (p.file.header.segmentWidth + 1) := by
    rw [relCells_length]; exact hf.xlen
  unfold segCorners at e
  rw [hxs] at e
  have e2 : mix (fun k j => tetCorners p.file.header.segmentWidth skip (relCells b.cells p.file) t.1 t.2.1 t.2.2.1
      t.2.2.2 k j + d j) q j = k := by
    rw [← e]
    exact congrArg (fun c => mix c q j)
      (tetCorners_map hb.skip hxl (fun u j => u j + (d j : ℚ)) (mem_tetras.mp ht) t.2.2.2).symm
  rw [mix_add _ (fun j => (d j : ℚ))] at e2
  push_cast
  linarith

omit [AddCommMonoid M] in
/-- The state at the start of a pass. -/
theorem pass_init {L : ℚ} {b : RBox} {skip : ℤ} {unitBufs : List (List Vec)} {p : Pass}
    {reqVel : Bool} (hp : p.Ok L b skip unitBufs reqVel) (cells : List M) (id : ℕ) :
    (⟨newTetra 0 0 0 0, newTetra 0 0 0 0, List.replicate b.pts 0, p.wbuf id, 0, cells⟩ : MCState M).Ok
      (b.mc skip unitBufs p.file) reqVel := by
  refine ⟨?_, fun hv => ?_⟩
  · show ((List.replicate b.pts (0 : Vec)).length : ℤ) = b.pts
    rw [List.length_replicate]
  · show (b.pts : ℤ) ≤ (p.wbuf id).length
    exact_mod_cast hp.wbuf hv id

theorem pass_ok {L : ℚ} {b : RBox} (h3 : b.proj = none) {skip : ℤ} {unitBufs : List (List Vec)}
    (hb : Setup L b skip unitBufs) {p : Pass}
    {reqVel : Bool} (hp : p.Ok L b skip unitBufs reqVel) (val : Vec → M)
    (hval : reqVel = false → ∀ w w', val w = val w') :
    (b.pass skip unitBufs val p.file p.pick p.wbuf).Ok reqVel b.cells b.cb :=
  pass_ok_of hb hp val hval _ (fun id => pass_init hp _ id) fun id => by simp only [RBox.bufferSize, h3]

/-- A segment that is passed over has no sample in the image. -/
theorem skipped_image {L : ℚ} {b : RBox} {skip : ℤ} {unitBufs : List (List Vec)} (hb : Setup L b skip unitBufs)
    {f : SheetFile} (hf : GoodFile L f) (hr : b.requires f = false) (val : Vec → M) (U : ℤ × ℤ × ℤ × Fin 6 → List Vec)
    (hU : ∀ t, b.pts ≤ (U t).length ∧ ∀ p ∈ U t, UnitPoint p) (x y z : ℤ) (hcell : IsCell b.cb.width x y z) :
    fileImage b.cells b.cb b.pts skip val f U x y z = 0 := by
  unfold fileImage
  dsimp only
  refine Finset.sum_eq_zero fun t ht => Finset.sum_eq_zero fun i hi => ?_
  rw [if_neg]
  intro hpl
  have hcube := mem_tetras.mp ht
  rw [Finset.mem_range] at hi
  have hp : UnitPoint ((U t).getD i 0) := by
    have hl : i < (U t).length := lt_of_lt_of_le hi (hU t).1
    rw [List.getD_eq_getElem _ _ hl]
    exact (hU t).2 _ (List.getElem_mem hl)
  have hxl : ((relCells b.cells f).length : ℤ) = (f.header.segmentWidth + 1) * (f.header.segmentWidth + 1) *
      (f.header.segmentWidth + 1) := by
    rw [relCells_length]; exact hf.xlen
  have hin : ∀ j, 0 ≤ (![x, y, z] : IVec) j ∧ (![x, y, z] : IVec) j < b.cb.width j := by
    obtain ⟨c0, c1, c2⟩ := hcell
    intro j; fin_cases j
    · exact c0
    · exact c1
    · exact c2
  set q := mix (tetCorners f.header.segmentWidth skip (relCells b.cells f) t.1 t.2.1 t.2.2.1 t.2.2.2) ((U t).getD i 0)
    with hq
  have hqb : ∀ j, 0 ≤ q j ∧ q j < (sheetBounds f b.cells).width j := by
    intro j
    refine inSimplex_bounds (mix_inSimplex hp) fun k => ?_
    have := hf.rel_bounds hb.cells _ (corner_mem (mc := { b.mc skip unitBufs f with skip := skip }) hb.skip hxl hcube
      t.2.2.2 k) j
    exact ⟨this.1, this.2.1⟩
  have : b.requires f = true := by
    refine C34_intersect_complete _ _ _ hb.cells (fun j => ?_) (fun j => ⌊q j⌋ + originCell b.cells f j)
      (fun j => (![x, y, z] : IVec) j + b.cb.origin j) ?_ ?_ ?_
    · have := hf.origin_cell hb.cells j
      have := hb.origin j
      rw [sheetBounds_origin]
      omega
    · intro j
      have h0 := Int.floor_nonneg.mpr (hqb j).1
      have h1 := Int.floor_lt.mpr (hqb j).2
      rw [sheetBounds_origin]
      dsimp only
      omega
    · intro j
      have := hin j
      dsimp only
      omega
    · intro j
      obtain ⟨k, ek⟩ := hpl j
      refine ⟨-k, ?_⟩
      linarith
  rw [hr] at this
  exact Bool.false_ne_true this

/-- What the passes add together is what the specification says, with the files that are passed over. -/
theorem passes_images {L : ℚ} {b : RBox} {skip : ℤ} {unitBufs : List (List Vec)} (hb : Setup L b skip unitBufs)
    {reqVel : Bool} (val : SheetFile → Vec → M) {ps : List Pass} (hps : ∀ p ∈ ps, p.Ok L b skip unitBufs reqVel) :
    ∀ V : List (ℤ × ℤ × ℤ × Fin 6 → List Vec),
      List.Forall₂ (fun (r : SegRun M) u => ∀ t, u t ∈ r.mc.unitBufs) (b.passes skip unitBufs val ps) V →
      ∃ U : List (ℤ × ℤ × ℤ × Fin 6 → List Vec),
        List.Forall₂ (fun _ u => ∀ t, ∃ v ∈ unitBufs, u t = v.take b.pts) ps U ∧
        ∀ x y z, IsCell b.cb.width x y z →
          (List.zipWith (fun r u => SegRun.image r u x y z) (b.passes skip unitBufs val ps) V).sum =
          (List.zipWith (fun p u => fileImage b.cells b.cb b.pts skip (val p.file) p.file u x y z) ps U).sum := by

  induction ps with
  | nil =>
    intro V hV
    have : V = [] := by
      cases hV
      rfl
    exact ⟨[], .nil, fun x y z _ => by rw [this]; rfl⟩
  | cons p ps ih =>
    intro V hV
    have hp := hps p (by simp)
    have ih := ih fun q hq => hps q (by simp [hq])
    cases hr : b.requires p.file with
    | true =>
      have e : b.passes skip unitBufs val (p :: ps) =
          b.pass skip unitBufs (val p.file) p.file p.pick p.wbuf :: b.passes skip unitBufs val ps := by
        unfold RBox.passes
        rw [List.filter_cons_of_pos (by simpa using hr), List.map_cons]
      rw [e] at hV ⊢
      cases hV with
      | cons h1 h2 =>
        rename_i u V
        obtain ⟨U, hU, hsum⟩ := ih V h2
        refine ⟨u :: U, .cons (fun t => ?_) hU, fun x y z hcell => ?_⟩
        · obtain ⟨v, hv, ev⟩ := List.mem_map.mp (h1 t)
          exact ⟨v, hv, ev.symm⟩
        · rw [List.zipWith_cons_cons, List.sum_cons, List.zipWith_cons_cons, List.sum_cons, hsum x y z hcell,
            pass_image hp.file b hb.cells hb.width hb.origin hb.skip]
    | false =>
      have e : b.passes skip unitBufs val (p :: ps) = b.passes skip unitBufs val ps := by
        unfold RBox.passes
        rw [List.filter_cons_of_neg (by simp [hr])]
      rw [e] at hV ⊢
      obtain ⟨U, hU, hsum⟩ := ih V hV
      obtain ⟨v, hv⟩ := List.exists_mem_of_length_pos hb.some
      refine ⟨(fun _ => v.take b.pts) :: U, .cons (fun t => ⟨v, hv, rfl⟩) hU, fun x y z hcell => ?_⟩
      rw [List.zipWith_cons_cons, List.sum_cons, hsum x y z hcell,
        skipped_image hb hp.file hr (val p.file) _ (fun t => ⟨?_, fun q hq => ?_⟩) x y z hcell, zero_add]
      · rw [List.length_take, min_eq_left (hb.unit v hv).1]
      · exact (hb.unit v hv).2 q (List.mem_of_mem_take hq)

/-- **C108** (partial): for every list of files and every box, under every schedule of the workers and all random draws,
`RenderDensity` runs to the end, and the finished image is the image at the start plus, for every file in the list, also
the ones that are passed over, the value of every sample of every tetrahedron at its place of the periodic box. Of an
image wider than the box only the first period is filled. Missing: samples exactly on the face of a cell at or below the low end of the image, when the buffer has the extent of the
image (`Pass.OffFaces`). -/
theorem C108_image_partial {L : ℚ} {b : RBox} {skip : ℤ} {unitBufs : List (List Vec)} (hb : Setup L b skip unitBufs)
    (h3 : b.proj = none) (reqVel : Bool) (m : ℕ) (val : SheetFile → Vec → M) (hval : reqVel = false → ∀ f w w', val f w = val f w')
    (ps : List Pass) (hps : ∀ p ∈ ps, p.Ok L b skip unitBufs reqVel) (hoff : ∀ p ∈ ps, p.OffFaces b skip unitBufs) :
    ∃ U : List (ℤ × ℤ × ℤ × Fin 6 → List Vec),
      List.Forall₂ (fun _ u => ∀ t, ∃ v ∈ unitBufs, u t = v.take b.pts) ps U ∧
      ∀ grid : List M, (grid.length : ℤ) = boxLen3 b.cb →
        (∃ out, Rendered reqVel m (b.passes skip unitBufs val ps) grid out) ∧
        ∀ out, Rendered reqVel m (b.passes skip unitBufs val ps) grid out →
          Grew3 b.cb.width grid out (fun x y z => if x < b.cells ∧ y < b.cells ∧ z < b.cells then
            (List.zipWith (fun p u => fileImage b.cells b.cb b.pts skip (val p.file) p.file u x y z) ps U).sum
            else 0) := by
  obtain ⟨Us, hUs, hall⟩ := C107_image_partial reqVel m b.cells hb.cells b.cb (b.passes skip unitBufs val ps) (by
    intro r hr
    obtain ⟨p, hp, rfl⟩ := List.mem_map.mp hr
    have := List.mem_filter.mp hp
    exact pass_ok h3 hb (hps p this.1) (val p.file) fun h w w' => hval h p.file w w') (by
    intro r hr
    obtain ⟨p, hp, rfl⟩ := List.mem_map.mp hr
    have := List.mem_filter.mp hp
    exact pass_off hb (hps p this.1).file (hoff p this.1) (val p.file))
  obtain ⟨U, hU, hsum⟩ := passes_images hb val hps Us hUs
  refine ⟨U, hU, fun grid hg => ⟨(hall grid hg).1, fun out hout => ?_⟩⟩
  have hgr := (hall grid hg).2 out hout
  refine ⟨hgr.1, fun x y z hcell => ?_⟩
  obtain ⟨v, hv, hv'⟩ := hgr.2 x y z hcell
  refine ⟨v, hv, ?_⟩
  rw [hv']
  beta_reduce
  rw [hsum x y z hcell]

/-! ## Totals -/

/-- The cells of every file meet an image at least as wide as the box. -/
theorem required_of_wide {L : ℚ} {b : RBox} {skip : ℤ} {unitBufs : List (List Vec)} (hb : Setup L b skip unitBufs)
    (hwide : ∀ j, b.cells ≤ b.cb.width j) {f : SheetFile} (hf : GoodFile L f) : b.requires f = true := by
  have hL : 0 < L := lt_of_le_of_lt (hf.origin 0).1 (hf.origin 0).2
  have hq : (0 : ℚ) < b.cells := by exact_mod_cast hb.cells
  have hcw : 0 < L / b.cells := div_pos hL hq
  refine C34_intersect_complete _ _ _ hb.cells (fun j => ?_) (originCell b.cells f)
    (fun j => (originCell b.cells f j - b.cb.origin j) % b.cells + b.cb.origin j) ?_ ?_ ?_
  · have := hf.origin_cell hb.cells j
    have := hb.origin j
    rw [sheetBounds_origin]
    omega
  · intro j
    have h1 := sheetBounds_end f b.cells j
    rw [hf.total] at h1
    have h2 : originCell b.cells f j ≤ ⌊(f.header.origin j + f.header.width j) / (L / b.cells)⌋ := by
      unfold originCell
      rw [hf.total]
      exact Int.floor_le_floor (div_le_div_of_nonneg_right (by linarith [(hf.width j).1]) hcw.le)
    rw [sheetBounds_origin] at h1 ⊢
    omega
  · intro j
    have h1 := Int.emod_nonneg (originCell b.cells f j - b.cb.origin j) hb.cells.ne'
    have h2 := Int.emod_lt_of_pos (originCell b.cells f j - b.cb.origin j) hb.cells
    have h3 := hwide j
    dsimp only
    omega
  · intro j
    have h1 := Int.emod_add_mul_ediv (originCell b.cells f j - b.cb.origin j) b.cells
    refine ⟨-((originCell b.cells f j - b.cb.origin j) / b.cells), ?_⟩
    linarith

theorem passes_of_wide {L : ℚ} {b : RBox} {skip : ℤ} {unitBufs : List (List Vec)} (hb : Setup L b skip unitBufs)
    (hwide : ∀ j, b.cells ≤ b.cb.width j) (val : SheetFile → Vec → M) {ps : List Pass}
    (hps : ∀ p ∈ ps, GoodFile L p.file) :
    b.passes skip unitBufs val ps = ps.map fun p => b.pass skip unitBufs (val p.file) p.file p.pick p.wbuf := by
  unfold RBox.passes
  rw [List.filter_eq_self.mpr fun p hp => required_of_wide hb hwide (hps p hp)]

/-- The totals of the passes are those of the files. -/
theorem passes_total {L : ℚ} {b : RBox} {skip : ℤ} {unitBufs : List (List Vec)} (hb : Setup L b skip unitBufs)
    (hwide : ∀ j, b.cells ≤ b.cb.width j) (val : SheetFile → Vec → M) {ps : List Pass}
    (hps : ∀ p ∈ ps, GoodFile L p.file) {U : List (ℤ × ℤ × ℤ × Fin 6 → List Vec)}
    (hU : List.Forall₂ (fun (r : SegRun M) u => ∀ t, u t ∈ r.mc.unitBufs) (b.passes skip unitBufs val ps) U) :
    List.Forall₂ (fun _ u => ∀ t, ∃ v ∈ unitBufs, u t = v.take b.pts) ps U ∧
      (List.zipWith SegRun.total (b.passes skip unitBufs val ps) U).sum =
        (List.zipWith (fun p u => fileTotal b.pts skip (val p.file) p.file u) ps U).sum := by
  rw [passes_of_wide hb hwide val hps] at hU ⊢
  rw [List.forall₂_map_left_iff] at hU
  refine ⟨hU.imp fun p u h t => ?_, by rw [List.zipWith_map_left]; rfl⟩
  obtain ⟨v, hv, ev⟩ := List.mem_map.mp (h t)
  exact ⟨v, hv, ev.symm⟩

/-- **C108**: nothing is lost from an image at least as wide as the box. For every list of files, under every schedule of
the workers and all random draws, `RenderDensity` runs to the end, and the sum over the image grows by the values of all
samples of all tetrahedra of all files. -/
theorem C108_total {L : ℚ} {b : RBox} {skip : ℤ} {unitBufs : List (List Vec)} (hb : Setup L b skip unitBufs)
    (h3 : b.proj = none) (hwide : ∀ j, b.cells ≤ b.cb.width j) (reqVel : Bool) (m : ℕ) (val : SheetFile → Vec → M)
    (hval : reqVel = false → ∀ f w w', val f w = val f w')
    (ps : List Pass) (hps : ∀ p ∈ ps, p.Ok L b skip unitBufs reqVel) :
    ∃ U : List (ℤ × ℤ × ℤ × Fin 6 → List Vec),
      List.Forall₂ (fun _ u => ∀ t, ∃ v ∈ unitBufs, u t = v.take b.pts) ps U ∧
      ∀ grid : List M, (grid.length : ℤ) = boxLen3 b.cb →
        (∃ out, Rendered reqVel m (b.passes skip unitBufs val ps) grid out) ∧
        ∀ out, Rendered reqVel m (b.passes skip unitBufs val ps) grid out → out.length = grid.length ∧
          out.sum = grid.sum + (List.zipWith (fun p u => fileTotal b.pts skip (val p.file) p.file u) ps U).sum := by
  obtain ⟨U, hU, hall⟩ := C107_total reqVel m b.cells hb.cells b.cb hwide (b.passes skip unitBufs val ps) (by
    intro r hr
    obtain ⟨p, hp, rfl⟩ := List.mem_map.mp hr
    have := List.mem_filter.mp hp
    exact pass_ok h3 hb (hps p this.1) (val p.file) fun h w w' => hval h p.file w w')
  obtain ⟨h1, h2⟩ := passes_total hb hwide val (fun p hp => (hps p hp).file) hU
  refine ⟨U, h1, fun grid hg => ?_⟩
  rw [← h2]
  exact hall grid hg

/-- The total density of `c³` segments which are the whole box, in units of `1 / d`. -/
theorem density_total {b : RBox} (hpts : 0 < b.pts) {skip : ℕ} (hs : 0 < skip) {N c : ℕ} (hN : 0 < N) (hdvd : c ∣ N)
    (hsd : skip ∣ N / c) {ps : List Pass} (hlen : ps.length = c * c * c)
    (hsw : ∀ p ∈ ps, p.file.header.segmentWidth = ((N / c : ℕ) : ℤ)) {U : List (ℤ × ℤ × ℤ × Fin 6 → List Vec)}
    (hU : ps.length = U.length) (d : ℚ) :
    (List.zipWith (fun p u => fileTotal b.pts skip
      (fun _ => mcPtVal false b.pts skip (rendererPtVal false b.cells N) / d) p.file u) ps U).sum = b.cells ^ 3 / d := by
  have key : ∀ (qs : List Pass) (V : List (ℤ × ℤ × ℤ × Fin 6 → List Vec)), qs.length = V.length → (∀ q ∈ qs, q ∈ ps) →
      (List.zipWith (fun p u => fileTotal b.pts skip
        (fun _ => mcPtVal false b.pts skip (rendererPtVal false b.cells N) / d) p.file u) qs V).sum =
        ((b.cells : ℚ) / N) ^ 3 * (qs.length * ((N / c : ℕ) : ℚ) ^ 3) / d := by
    intro qs
    induction qs with
    | nil => intro V _ _; simp
    | cons p qs ih =>
      intro V hV hq
      cases V with
      | nil => simp at hV
      | cons u V =>
        have hp := hsw p (hq p (by simp))
        rw [List.zipWith_cons_cons, List.sum_cons, List.length_cons,
          ih V (by simpa using hV) (fun q hq' => hq q (by simp [hq']))]
        have h2 := density_sum (b.pass skip [] (fun _ => mcPtVal false b.pts skip (rendererPtVal false b.cells N)) p.file
          p.pick p.wbuf) b.cells N (by show (0 : ℤ) < skip; exact_mod_cast hs)
          (by
            show (skip : ℤ) ∣ p.file.header.segmentWidth
            rw [hp]
            exact_mod_cast hsd)
          (by
            show 0 ≤ p.file.header.segmentWidth
            rw [hp]
            exact Int.natCast_nonneg _)
          (by show (0 : ℤ) < b.pts; exact_mod_cast hpts) (fun _ => rfl) u
        have h3 : (b.pass skip [] (fun _ => mcPtVal false b.pts skip (rendererPtVal false b.cells N)) p.file
          p.pick p.wbuf).mc.segWidth = ((N / c : ℕ) : ℤ) := hp
        have h5 : (b.pass skip [] (fun _ => mcPtVal false b.pts skip (rendererPtVal false b.cells N)) p.file
          p.pick p.wbuf).mc.skip = (skip : ℤ) := rfl
        have h6 : (b.pass skip [] (fun _ => mcPtVal false b.pts skip (rendererPtVal false b.cells N)) p.file
          p.pick p.wbuf).mc.points.toNat = b.pts := rfl
        have h7 : ∀ w, (b.pass skip [] (fun _ => mcPtVal false b.pts skip (rendererPtVal false b.cells N)) p.file
          p.pick p.wbuf).val w = mcPtVal false b.pts skip (rendererPtVal false b.cells N) := fun _ => rfl
        simp only [h3, h5, h6, h7, Finset.sum_const, nsmul_eq_mul, Int.cast_natCast] at h2
        unfold fileTotal
        simp only [hp, Finset.sum_const, nsmul_eq_mul]
        rw [← mul_div_assoc, ← mul_div_assoc, h2]
        push_cast
        ring
  rw [key ps U hU fun q hq => hq]
  have hNc : ((N / c : ℕ) : ℚ) * c = N := by exact_mod_cast Nat.div_mul_cancel hdvd
  have hN' : (N : ℚ) ≠ 0 := by exact_mod_cast hN.ne'
  rw [hlen, show ((c * c * c : ℕ) : ℚ) * ((N / c : ℕ) : ℚ) ^ 3 = (((N / c : ℕ) : ℚ) * c) ^ 3 by push_cast; ring, hNc]
  field_simp

/-! ## From the snapshot -/

theorem FileOk.mem {hd : Catalog} {N c sw m : ℕ} {xs vs : List Vec} {f : SheetFile} (h : FileOk hd N c sw m xs vs f)
    (hx : xs.length = N * N * N) (hv : vs.length = N * N * N) : ∀ x ∈ f.xs, x ∈ xs := by
  obtain ⟨s0, xsS, vsS, hh, ht, l1, l2, e⟩ := h.head
  intro x hxm
  obtain ⟨n, hn, rfl⟩ := List.getElem_of_mem hxm
  obtain ⟨s, es, hs⟩ := copyToSegment_ok hh hx hv l1 l2
  rw [e, Option.some.injEq] at es
  have exs : f.xs = s.xsSeg := (Prod.mk.inj (Prod.mk.inj es).2).1
  have hn' : n < (sw + 1) * (sw + 1) * (sw + 1) := by rw [← h.xblock.1]; exact hn
  have hg := hs.x n hn'
  rw [← exs, List.getElem?_eq_getElem hn, Option.some.injEq] at hg
  rw [hg]
  have hl : large N (sw + 1) (corner c sw m) n < xs.length := by rw [hx]; exact particleAt_lt hh.pos _ _ _
  rw [List.getD_eq_getElem _ _ hl]
  exact List.getElem_mem hl

theorem FileOk.good {hd : Catalog} {N c sw m : ℕ} {xs vs : List Vec} {f : SheetFile} (h : FileOk hd N c sw m xs vs f)
    (hx : xs.length = N * N * N) (hv : vs.length = N * N * N) (hL : 0 < hd.totalWidth)
    (hin : ∀ x ∈ xs, ∀ j, 0 ≤ x j ∧ x j < hd.totalWidth) : GoodFile hd.totalWidth f := by
  have hsw := h.segmentWidth hx hv
  obtain ⟨s0, xsS, vsS, hh, ht, l1, l2, e⟩ := h.head
  obtain ⟨shd', xs', vs', e', hb⟩ := C82_segment hh hx hv l1 l2 (by rw [ht]; exact hL) (by rw [ht]; exact hin)
  rw [e, Option.some.injEq, Prod.mk.injEq, Prod.mk.injEq] at e'
  obtain ⟨rfl, rfl, rfl⟩ := e'
  have htot : f.header.totalWidth = hd.totalWidth := by
    obtain ⟨s, es, -⟩ := copyToSegment_ok hh hx hv l1 l2
    rw [e, Option.some.injEq] at es
    rw [(Prod.mk.inj es).1]
    exact ht
  rw [ht] at hb
  refine ⟨htot, by rw [hsw]; exact Int.natCast_nonneg _, ?_, ?_, ?_, fun j => (hb j).1, fun j => (hb j).2.1,
    fun j => (hb j).2.2⟩
  · rw [h.xblock.1, hsw]
    push_cast
    rfl
  · rw [h.vblock.1, hsw]
    push_cast
    rfl
  · exact fun x hxm => hin x (h.mem hx hv x hxm)

/-- **C108**: a snapshot of `N³` particles is converted into `c³` files, `c` a divisor of `N`, and all files
are rendered with a subsampling that divides the width of a segment, into an image at least as wide as the box. The image
gains `cells³`, for all positions of the particles, all draws and all schedules: if it has exactly as many cells as the
box, its mean density is that of the box. -/
theorem C108_mean (hd : Catalog) (N c : ℕ) (hN : 0 < N) (hc : 0 < c) (hcw : hd.countWidth = N) (hdvd : c ∣ N)
    (xs vs : List Vec) (hx : xs.length = N * N * N) (hv : vs.length = N * N * N) (hL : 0 < hd.totalWidth)
    (hin : ∀ x ∈ xs, ∀ j, 0 ≤ x j ∧ x j < hd.totalWidth) (skip : ℕ) (hsd : skip ∣ N / c) (b : RBox)
    (unitBufs : List (List Vec)) (hb : Setup hd.totalWidth b skip unitBufs) (hpts : 0 < b.pts)
    (h3 : b.proj = none) (hwhole : ∀ j, b.cells ≤ b.cb.width j) (m : ℕ) :
    ∃ files, writeGrids hd c xs vs = some files ∧ (∀ f ∈ files, GoodFile hd.totalWidth f) ∧
      ∀ ps : List Pass, ps.map Pass.file = files → (∀ p ∈ ps, p.Ok hd.totalWidth b skip unitBufs false) →
        ∀ grid : List ℚ, (grid.length : ℤ) = boxLen3 b.cb →
          (∃ out, Rendered false m (b.passes skip unitBufs (fun _ _ =>
            mcPtVal false b.pts skip (rendererPtVal false b.cells hd.countWidth)) ps) grid out) ∧
          ∀ out, Rendered false m (b.passes skip unitBufs (fun _ _ =>
            mcPtVal false b.pts skip (rendererPtVal false b.cells hd.countWidth)) ps) grid out →
            out.sum = grid.sum + b.cells ^ 3 ∧ out.length = grid.length ∧
              ((∀ j, b.cb.width j = b.cells) → (out.length : ℤ) = b.cells ^ 3) := by
  obtain ⟨files, e, hl, hfile⟩ := writeGrids_ok hd N c hN hc hcw xs vs hx hv
  have hmem : ∀ f ∈ files, ∃ n, FileOk hd N c (N / c) n xs vs f := by
    intro f hf
    obtain ⟨n, hn, rfl⟩ := List.getElem_of_mem hf
    obtain ⟨f', ef, hok⟩ := hfile n (by rw [← hl]; exact hn)
    rw [List.getElem?_eq_getElem hn, Option.some.injEq] at ef
    exact ⟨n, by rw [ef]; exact hok⟩
  refine ⟨files, e, fun f hf => ?_, fun ps hpf hps grid hg => ?_⟩
  · obtain ⟨n, hok⟩ := hmem f hf
    exact hok.good hx hv hL hin
  obtain ⟨U, hU, hrun⟩ := C108_total hb h3 hwhole false m (fun _ _ =>
    mcPtVal false b.pts skip (rendererPtVal false b.cells hd.countWidth)) (fun _ _ _ _ => rfl) ps hps
  refine ⟨(hrun grid hg).1, fun out hout => ?_⟩
  obtain ⟨h1, h2⟩ := (hrun grid hg).2 out hout
  refine ⟨?_, h1, fun he => by rw [h1, hg]; unfold boxLen3; rw [he, he, he]; ring⟩
  rw [h2]
  have h4 := density_total (b := b) hpts (by exact_mod_cast hb.skip) hN hdvd hsd (ps := ps)
    (by rw [← hl, ← hpf, List.length_map]) (fun p hp => by
      obtain ⟨n, hok⟩ := hmem p.file (by rw [← hpf]; exact List.mem_map_of_mem hp)
      exact hok.segmentWidth hx hv) hU.length_eq 1
  rw [div_one, div_one] at h4
  rw [hcw, h4]

theorem newBox_setup {L : ℚ} (hL : 0 < L) (pts : ℕ) {cells : ℤ} (hc : 0 < cells) (proj : Option ℤ) {skip : ℤ}
    (hs : 0 < skip) {unitBufs : List (List Vec)} (hu : 0 < unitBufs.length)
    (hunit : ∀ u ∈ unitBufs, pts ≤ u.length ∧ ∀ p ∈ u, UnitPoint p) :
    Setup L (RBox.new L pts cells (fun _ => 0) (fun _ => L) proj) skip unitBufs := by
  have hw := C51_whole_box L cells hL hc
  refine ⟨hc, ?_, fun j => ?_, fun j => ?_, hs, hu, hunit⟩
  · have : (cells : ℚ) ≠ 0 := by exact_mod_cast hc.ne'
    exact div_mul_cancel₀ _ this
  · show 0 ≤ (newBoxBounds L cells _ _).origin j ∧ (newBoxBounds L cells _ _).origin j < cells
    rw [(hw j).1]
    exact ⟨le_refl _, hc⟩
  · show 0 ≤ (newBoxBounds L cells _ _).width j
    rw [(hw j).2]
    omega

/-- **C108**: a user who asks for the whole box gets an image of `cells + 1` pixels per side (C51). The density in it adds
up to `cells³`, so its mean density is `(cells / (cells + 1))³` of that of the box, for every snapshot. -/
theorem C108_whole_box (hd : Catalog) (N c : ℕ) (hN : 0 < N) (hc : 0 < c) (hcw : hd.countWidth = N) (hdvd : c ∣ N)
    (xs vs : List Vec) (hx : xs.length = N * N * N) (hv : vs.length = N * N * N) (hL : 0 < hd.totalWidth)
    (hin : ∀ x ∈ xs, ∀ j, 0 ≤ x j ∧ x j < hd.totalWidth) (skip : ℕ) (hs : 0 < skip) (hsd : skip ∣ N / c)
    (pts : ℕ) (hpts : 0 < pts) (cells : ℤ) (hcells : 0 < cells) (b : RBox)
    (hb : b = RBox.new hd.totalWidth pts cells (fun _ => 0) (fun _ => hd.totalWidth) none)
    (unitBufs : List (List Vec)) (hu : 0 < unitBufs.length)
    (hunit : ∀ u ∈ unitBufs, pts ≤ u.length ∧ ∀ p ∈ u, UnitPoint p) (m : ℕ) :
    ∃ files, writeGrids hd c xs vs = some files ∧ (∀ f ∈ files, GoodFile hd.totalWidth f) ∧
      ∀ ps : List Pass, ps.map Pass.file = files → (∀ p ∈ ps, p.Ok hd.totalWidth b skip unitBufs false) →
        (∃ out : List ℚ, Rendered false m (b.passes skip unitBufs (fun _ _ =>
            mcPtVal false pts skip (rendererPtVal false cells hd.countWidth)) ps)
            (List.replicate (boxLen3 b.cb).toNat 0) out) ∧
        ∀ out : List ℚ, Rendered false m (b.passes skip unitBufs (fun _ _ =>
            mcPtVal false pts skip (rendererPtVal false cells hd.countWidth)) ps)
            (List.replicate (boxLen3 b.cb).toNat 0) out →
          out.sum = cells ^ 3 ∧ (out.length : ℤ) = (cells + 1) ^ 3 ∧ out.sum / out.length = (cells / (cells + 1)) ^ 3 := by
  have hset : Setup hd.totalWidth b skip unitBufs := by
    rw [hb]
    exact newBox_setup hL pts hcells none (by exact_mod_cast hs) hu hunit
  have hw : ∀ j, b.cb.width j = cells + 1 := fun j => by
    rw [hb]
    exact (C51_whole_box hd.totalWidth cells hL hcells j).2
  have hbc : b.cells = cells := by rw [hb]; rfl
  have hbp : b.pts = pts := by rw [hb]; rfl
  have hlen : boxLen3 b.cb = (cells + 1) ^ 3 := by unfold boxLen3; rw [hw, hw, hw]; ring
  have hpos : 0 < (cells + 1) ^ 3 := by positivity
  have hrep : ((List.replicate (boxLen3 b.cb).toNat (0 : ℚ)).length : ℤ) = boxLen3 b.cb := by
    rw [List.length_replicate, Int.toNat_of_nonneg (by rw [hlen]; exact hpos.le)]
  obtain ⟨files, e, hgood, hrun⟩ := C108_mean hd N c hN hc hcw hdvd xs vs hx hv hL hin skip hsd b unitBufs hset
    (by rw [hbp]; exact hpts) (by rw [hb]; rfl) (fun j => by rw [hw, hbc]; omega) m
  refine ⟨files, e, hgood, fun ps hpf hps => ⟨?_, fun out hout => ?_⟩⟩
  · rw [← hbc, ← hbp]
    exact (hrun ps hpf hps _ hrep).1
  rw [← hbc, ← hbp] at hout
  obtain ⟨h1, h2, -⟩ := (hrun ps hpf hps _ hrep).2 out hout
  rw [List.sum_replicate, smul_zero, zero_add, hbc] at h1
  have h3 : (out.length : ℤ) = (cells + 1) ^ 3 := by rw [h2, hrep, hlen]
  refine ⟨h1, h3, ?_⟩
  have h4 : (out.length : ℚ) = ((cells : ℚ) + 1) ^ 3 := by exact_mod_cast h3
  rw [h1, h4, div_pow]

/-- The unit buffers of `NewManager` (`unitBufs`, render/render.go 153-171) meet `Setup.unit`: points drawn from the unit cube are folded
into the unit tetrahedron. -/
theorem distributeUnit_unit (pts : List Vec) (h : ∀ p ∈ pts, ∀ j, 0 ≤ p j ∧ p j ≤ 1) :
    (distributeUnit pts).length = pts.length ∧ ∀ p ∈ distributeUnit pts, UnitPoint p := by
  refine ⟨by simp [distributeUnit], fun p hp => ?_⟩
  obtain ⟨q, hq, rfl⟩ := List.mem_map.mp hp
  obtain ⟨h1, h2, h3, h4⟩ := fold_mem (q 0) (q 1) (q 2) (h q hq 0) (h q hq 1) (h q hq 2)
  exact ⟨h1, h2, h3, h4⟩

/-! ## An example -/

/-- Eight particles in a box of width 4, out of order. -/
def exSnap : List Vec :=
  [![1/3, 1/3, 4/3], ![7/3, 1/3, 10/3], ![1/3, 7/3, 1/3], ![7/3, 10/3, 1/3],
   ![10/3, 1/3, 7/3], ![7/3, 10/3, 7/3], ![1/3, 7/3, 4/3], ![4/3, 7/3, 7/3]]

/-- An image of the whole box in 4 cells, from cell 1 on. -/
def exBox : RBox := ⟨⟨![1, 1, 1], ![4, 4, 4]⟩, 2, 4, 1, none⟩

/-- Two unit buffers of three points, made from points of the unit cube. -/
def exBufs : List (List Vec) :=
  [distributeUnit [![1/4, 3/4, 1/4], ![1/2, 7/8, 1/8], ![0, 1/2, 3/8]],
   distributeUnit [![1/8, 1/8, 1/8], ![0, 0, 1], ![1/2, 1/2, 1/2]]]

theorem exSetup : Setup 4 exBox (1 : ℕ) exBufs := by
  refine ⟨by decide, by decide +kernel, by decide, by decide, by decide, by decide, fun u hu => ?_⟩
  simp only [exBufs, List.mem_cons, List.not_mem_nil, or_false] at hu
  rcases hu with rfl | rfl
  · obtain ⟨h1, h2⟩ := distributeUnit_unit [![1/4, 3/4, 1/4], ![1/2, 7/8, 1/8], ![0, 1/2, 3/8]] (by decide +kernel)
    exact ⟨by rw [h1]; decide, h2⟩
  · obtain ⟨h1, h2⟩ := distributeUnit_unit [![1/8, 1/8, 1/8], ![0, 0, 1], ![1/2, 1/2, 1/2]] (by decide +kernel)
    exact ⟨by rw [h1]; decide, h2⟩

/-- No sample of a file of this snapshot lies on the face of a cell. -/
theorem exFace {f : SheetFile} (hf : GoodFile 4 f) (hsub : ∀ x ∈ f.xs, x ∈ exSnap) :
    ∀ t ∈ tetras (f.header.segmentWidth / (1 : ℕ)), ∀ u ∈ exBufs, ∀ q ∈ u, ∀ j, ∀ k : ℤ,
      mix (tetCorners f.header.segmentWidth (1 : ℕ) (relCells 4 f) t.1 t.2.1 t.2.2.1 t.2.2.2) q j ≠ k := by
  have hthird : ∀ x ∈ exSnap, ∀ j, x j = (x j).floor + 1 / 3 := by decide +kernel
  have heighth : ∀ u ∈ exBufs, ∀ q ∈ u, ∀ j, q j = ((8 * q j).num : ℚ) / 8 := by decide +kernel
  have hrel : ∀ u ∈ relCells 4 f, ∀ j, ∃ n : ℤ, u j = n + 1 / 3 := by
    intro u hu j
    obtain ⟨x, hx, rfl⟩ := List.mem_map.mp hu
    have h3 := hthird x (hsub x hx) j
    simp only [hf.total]
    refine ⟨(x j).floor - ⌊f.header.origin j / (4 / ((4 : ℤ) : ℚ))⌋ -
      4 * ⌊(x j / (4 / ((4 : ℤ) : ℚ)) - ⌊f.header.origin j / (4 / ((4 : ℤ) : ℚ))⌋) / ((4 : ℤ) : ℚ)⌋, ?_⟩
    rw [Int.fract]
    generalize ⌊f.header.origin j / (4 / ((4 : ℤ) : ℚ))⌋ = o
    generalize ⌊(x j / (4 / ((4 : ℤ) : ℚ)) - o) / ((4 : ℤ) : ℚ)⌋ = w
    push_cast
    linarith
  intro t ht u hu q hq j k e
  have hxl : ((relCells 4 f).length : ℤ) = (f.header.segmentWidth + 1) * (f.header.segmentWidth + 1) *
      (f.header.segmentWidth + 1) := by rw [relCells_length]; exact hf.xlen
  have hcor := fun i => hrel _ (corner_mem (mc := exBox.mc (1 : ℕ) exBufs f) (zero_lt_one : (0 : ℤ) < 1) hxl (mem_tetras.mp ht)
    t.2.2.2 i) j
  change ∀ i, ∃ n : ℤ, tetCorners f.header.segmentWidth (1 : ℕ) (relCells 4 f) t.1 t.2.1 t.2.2.1 t.2.2.2 i j =
    n + 1 / 3 at hcor
  choose n hn using hcor
  have h8 := heighth u hu q hq
  simp only [mix, bary, Fin.sum_univ_four, Matrix.cons_val_zero, Matrix.cons_val_one, Matrix.cons_val, hn] at e
  rw [h8 0, h8 1, h8 2] at e
  generalize (8 * q 0).num = a0 at e
  generalize (8 * q 1).num = a1 at e
  generalize (8 * q 2).num = a2 at e
  have e' : 3 * ((8 : ℚ) * n 3 + a0 * (n 0 - n 3) + a1 * (n 1 - n 3) + a2 * (n 2 - n 3)) + 8 = 24 * k := by
    linarith
  have e2 : 3 * ((8 : ℤ) * n 3 + a0 * (n 0 - n 3) + a1 * (n 1 - n 3) + a2 * (n 2 - n 3)) + 8 = 24 * k := by
    exact_mod_cast e'
  omega

/-- The snapshot is converted into eight files, and the passes over them meet the conditions for every image in 4 cells. -/
theorem exPasses : ∃ (files : List SheetFile) (ps : List Pass),
    writeGrids ⟨8, 8, 2, 1, 4⟩ (2 : ℕ) exSnap exSnap = some files ∧ ps.map Pass.file = files ∧
    ∀ b : RBox, b.cells = 4 → ∀ p ∈ ps, p.Ok 4 b (1 : ℕ) exBufs false ∧ p.OffFaces b (1 : ℕ) exBufs := by
  obtain ⟨files, e, hl, hfile⟩ := writeGrids_ok ⟨8, 8, 2, 1, 4⟩ 2 2 (by decide) (by decide) rfl exSnap exSnap rfl rfl
  obtain ⟨files', e', hgood, -⟩ := C108_mean ⟨8, 8, 2, 1, 4⟩ 2 2 (by decide) (by decide) rfl (by decide)
    exSnap exSnap rfl rfl (by norm_num) (by decide +kernel) 1 (by decide) exBox exBufs exSetup (by decide) rfl
    (by intro j; fin_cases j <;> exact le_refl (4 : ℤ)) 2
  rw [e, Option.some.injEq] at e'
  subst e'
  have hsub : ∀ f ∈ files, ∀ x ∈ f.xs, x ∈ exSnap := by
    intro f hf
    obtain ⟨n, hn, rfl⟩ := List.getElem_of_mem hf
    obtain ⟨f', ef, hok⟩ := hfile n (by rw [← hl]; exact hn)
    rw [List.getElem?_eq_getElem hn, Option.some.injEq] at ef
    rw [ef]
    exact hok.mem rfl rfl
  refine ⟨files, files.map fun f => ⟨f, fun id n => ((id + n) % 2 : ℕ), fun _ => []⟩, e, by
    rw [List.map_map]; exact List.map_id files, fun b hb p hp => ?_⟩
  obtain ⟨f, hf, rfl⟩ := List.mem_map.mp hp
  refine ⟨⟨hgood f hf, fun id n => ?_, fun h => absurd h (by decide)⟩, fun _ t ht u hu q hq j k _ => ?_,
    fun a _ _ t ht u hu q hq => ?_⟩
  · show (0 : ℤ) ≤ ((id + n) % 2 : ℕ) ∧ (((id + n) % 2 : ℕ) : ℤ) < 2
    omega
  · rw [hb]
    exact exFace (hgood f hf) (hsub f hf) t ht u hu q hq j k
  · rw [hb]
    have := exFace (hgood f hf) (hsub f hf) t ht u hu q hq (projDims a).2.2 0
    exact_mod_cast this

/-- Converted into eight files and rendered in the order of the files by three workers, the snapshot gives an image with
the total density 64, one for each of the cells. -/
example : ∃ files ps, writeGrids ⟨8, 8, 2, 1, 4⟩ (2 : ℕ) exSnap exSnap = some files ∧ ps.map Pass.file = files ∧
    ∃ out : List ℚ, Rendered false 2 (exBox.passes (1 : ℕ) exBufs (fun _ _ =>
      mcPtVal false 2 (1 : ℕ) (rendererPtVal false 4 2)) ps) (List.replicate 64 0) out ∧ out.sum = 64 := by
  obtain ⟨files, ps, e, hpf, hps⟩ := exPasses
  obtain ⟨files', e', -, hrun⟩ := C108_mean ⟨8, 8, 2, 1, 4⟩ 2 2 (by decide) (by decide) rfl (by decide)
    exSnap exSnap rfl rfl (by norm_num) (by decide +kernel) 1 (by decide) exBox exBufs exSetup (by decide) rfl
    (by intro j; fin_cases j <;> exact le_refl (4 : ℤ)) 2
  rw [e, Option.some.injEq] at e'
  subst e'
  obtain ⟨⟨out, ho⟩, hall⟩ := hrun ps hpf (fun p hp => (hps exBox rfl p hp).1) (List.replicate 64 0) (by decide)
  refine ⟨files, ps, e, hpf, out, ho, ?_⟩
  rw [(hall out ho).1]
  norm_num [exBox]

/-- The whole box as `NewBox` makes it has 125 pixels for 64 cells, and the mean density of its image is 64/125. -/
example : ∃ files ps, writeGrids ⟨8, 8, 2, 1, 4⟩ (2 : ℕ) exSnap exSnap = some files ∧ ps.map Pass.file = files ∧
    ∃ out : List ℚ, Rendered false 2 ((RBox.new 4 2 4 (fun _ => 0) (fun _ => 4) none).passes (1 : ℕ) exBufs (fun _ _ =>
      mcPtVal false (2 : ℕ) (1 : ℕ) (rendererPtVal false 4 2)) ps) (List.replicate 125 0) out ∧
      out.sum / out.length = 64 / 125 := by
  obtain ⟨files, ps, e, hpf, hps⟩ := exPasses
  obtain ⟨files', e', -, hrun⟩ := C108_whole_box ⟨8, 8, 2, 1, 4⟩ 2 2 (by decide) (by decide) rfl (by decide)
    exSnap exSnap rfl rfl (by norm_num) (by decide +kernel) 1 (by decide) (by decide) 2 (by decide) 4 (by decide) _ rfl
    exBufs (by decide) exSetup.unit 2
  rw [e, Option.some.injEq] at e'
  subst e'
  obtain ⟨⟨out, ho⟩, hall⟩ := hrun ps hpf (fun p hp => (hps _ rfl p hp).1)
  have hw := C51_whole_box 4 4 (by norm_num) (by norm_num)
  have hl : (boxLen3 (RBox.new 4 2 4 (fun _ => 0) (fun _ => 4) none).cb).toNat = 125 := by
    show (boxLen3 (newBoxBounds 4 4 (fun _ => 0) (fun _ => 4))).toNat = 125
    unfold boxLen3
    rw [(hw _).2, (hw _).2, (hw _).2]
    rfl
  have ho' := ho
  rw [hl] at ho'
  refine ⟨files, ps, e, hpf, out, ho', ?_⟩
  rw [(hall out ho).2.2]
  norm_num

/-- The passes meet the conditions of `C108_image_partial`, and a run exists. -/
example : ∃ (ps : List Pass) (out : List ℚ), writeGrids ⟨8, 8, 2, 1, 4⟩ (2 : ℕ) exSnap exSnap = some (ps.map Pass.file) ∧
    Rendered false 2 (exBox.passes (1 : ℕ) exBufs (fun _ _ => (1 : ℚ)) ps) (List.replicate 64 0) out := by
  obtain ⟨files, ps, e, hpf, hps⟩ := exPasses
  obtain ⟨U, -, hrun⟩ := C108_image_partial exSetup rfl false 2 (fun _ _ => (1 : ℚ)) (fun _ _ _ _ => rfl) ps
    (fun p hp => (hps exBox rfl p hp).1) (fun p hp => (hps exBox rfl p hp).2)
  obtain ⟨⟨out, ho⟩, -⟩ := hrun (List.replicate 64 0) (by decide)
  exact ⟨ps, out, by rw [hpf]; exact e, ho⟩

/-- A file outside of an image is passed over. -/
example : (⟨⟨![2, 2, 2], ![1, 1, 1]⟩, 2, 8, 1, none⟩ : RBox).requires
      ⟨"sheet000.dat", { sheetHeader ⟨8, 8, 2, 1, 8⟩ 2 with origin := ![0, 0, 0], width := ![1, 1, 1] }, [], []⟩ = false ∧
    (⟨⟨![1, 1, 1], ![1, 1, 1]⟩, 2, 8, 1, none⟩ : RBox).requires
      ⟨"sheet000.dat", { sheetHeader ⟨8, 8, 2, 1, 8⟩ 2 with origin := ![0, 0, 0], width := ![1, 1, 1] }, [], []⟩ = true := by
  decide +kernel

end Verif.Main
