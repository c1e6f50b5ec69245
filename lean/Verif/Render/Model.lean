import Verif.Go.Loops
import Verif.Geom.Model

/-!
# Model of `render/box.go` and of the loops of `render/render.go` and `render/density/interpolator.go`

Buffer cells hold values of an arbitrary additive type `M`: `ℚ` for scalar buffers, vectors for vector buffers,
pairs with a count for buffers that also count points. In the Go code the three cases are separate copies of the
same loop; here `dep idx` is the value added for point `idx` (`ptVal`, `ptVal * wbuf[idx]` or
`ptVal * vwbuf[idx]`, with count 1).
-/

set_option autoImplicit false

namespace Verif.Render

open Verif.Go Verif.Geom

/-- `for i := lo; i < hi; i += jump { body }` for `jump > 0`. The loop form of render/density/interpolator.go 110-180.
-/
def forStep {σ : Type} (lo hi jump : ℤ) (body : ℤ → σ → Option σ) (s : σ) : Option σ :=
  forRange 0 ((hi - lo + jump - 1) / jump) (fun k => body (lo + k * jump)) s

/-- `buf[i] += v`. As in render/box.go 491-683. -/
def accum {M : Type} [Add M] (buf : List M) (i : ℤ) (v : M) : Option (List M) := do
  let old ← rd buf i
  wr buf i (old + v)

/-- `intFloor`, render/box.go 685-691; `int(.)` truncates towards zero. -/
def intFloor (x : ℚ) : ℤ := if x > 0 then trunc x else trunc (x - 1)

/-- `bound`, render/box.go 700-707. -/
def bound (x cells : ℤ) : ℤ := if x < 0 then x + cells else if x ≥ cells then x - cells else x

/-! ## Boxes -/

/-- Cell origin and width of one axis of a box, render/box.go 160-166 and 196-202. -/
def boxAxis (cellWidth origin width : ℚ) : ℤ × ℤ :=
  (⌊origin / cellWidth⌋, 1 + ⌊(width + origin) / cellWidth⌋ - ⌊origin / cellWidth⌋)

/-- `cb` of a new box, `newBox2D` and `newBox3D`, render/box.go 139-213. -/
def newBoxBounds (boxWidth : ℚ) (cells : ℤ) (origin width : Vec) : CellBounds where
  origin := fun j => (boxAxis (boxWidth / cells) (origin j) (width j)).1
  width := fun j => (boxAxis (boxWidth / cells) (origin j) (width j)).2

/-- Axes of a projection: `(iDim, jDim, kDim)`, render/box.go 496-498. -/
def projDims (proj : ℤ) : Fin 3 × Fin 3 × Fin 3 :=
  if proj = 0 then (1, 2, 0) else if proj = 1 then (0, 2, 1) else (0, 1, 2)

/-- Number of pixels allocated for a box: `len` in render/box.go 172-176 (2D) and 208 (3D). -/
def boxLen2 (cb : CellBounds) (proj : ℤ) : ℤ := cb.width (projDims proj).1 * cb.width (projDims proj).2.1

/-- See `boxLen2`. render/box.go 208. -/
def boxLen3 (cb : CellBounds) : ℤ := cb.width 0 * cb.width 1 * cb.width 2

/-- `BufferSize` of the 2D overlaps, render/box.go 237-247. -/
def bufferSize2 (bufCb : CellBounds) (proj : ℤ) : ℤ :=
  (if proj = 0 then 1 else bufCb.width 0) * (if proj = 1 then 1 else bufCb.width 1) *
    (if proj = 2 then 1 else bufCb.width 2)

/-- `BufferSize` of the 3D overlaps, render/box.go 305-307. -/
def bufferSize3 (bufCb : CellBounds) : ℤ := bufCb.width 0 * bufCb.width 1 * bufCb.width 2

/-- `box3D.Overlap` chooses the segment strategy, render/box.go 102-122. -/
def chooseSegment3 (segCb boxCb : CellBounds) : Bool := bufferSize3 segCb ≤ bufferSize3 boxCb

/-- `box2D.Overlap` chooses the segment strategy, render/box.go 70-94. -/
def chooseSegment2 (segCb boxCb : CellBounds) (proj cells : ℤ) : Bool :=
  bufferSize2 segCb proj ≤ bufferSize2 boxCb proj ∨
    boxCb.width 0 ≥ cells.tdiv 2 ∨ boxCb.width 1 ≥ cells.tdiv 2 ∨ boxCb.width 2 ≥ cells.tdiv 2

/-! ## Depositing points -/

variable {M : Type} [Add M]

/-- `segmentOverlap3D.Interpolate`, render/box.go 540-582. -/
def seg3Interpolate (bufCb : CellBounds) (xs : List Vec) (dep : ℤ → M) (low high jump : ℤ) (buf : List M) :
    Option (List M) :=
  let length := bufCb.width 0
  let area := bufCb.width 0 * bufCb.width 1
  forStep low high jump (fun idx buf => do
    let pt ← rd xs idx
    accum buf (trunc (pt 0) + trunc (pt 1) * length + trunc (pt 2) * area) (dep idx)) buf

/-- `domainOverlap3D.Interpolate`, render/box.go 642-683; `floor` is `intFloor` (685-691) in the arithmetic at hand. -/
def dom3InterpolateWith (floor : ℚ → ℤ) (bufCb : CellBounds) (cells : ℤ) (xs : List Vec) (dep : ℤ → M) (low high jump : ℤ)
    (buf : List M) : Option (List M) :=
  let length := bufCb.width 0
  let area := bufCb.width 0 * bufCb.width 1
  forStep low high jump (fun idx buf => do
    let pt ← rd xs idx
    let i := bound (floor (pt 0)) cells
    if i < bufCb.width 0 then
      let j := bound (floor (pt 1)) cells
      if j < bufCb.width 1 then
        let k := bound (floor (pt 2)) cells
        if k < bufCb.width 2 then accum buf (i + j * length + k * area) (dep idx)
        else some buf
      else some buf
    else some buf) buf

/-- The same with `intFloor` in exact arithmetic. render/box.go 642-683. -/
def dom3Interpolate (bufCb : CellBounds) (cells : ℤ) (xs : List Vec) (dep : ℤ → M) (low high jump : ℤ)
    (buf : List M) : Option (List M) :=
  dom3InterpolateWith intFloor bufCb cells xs dep low high jump buf

/-- `segmentOverlap2D.Interpolate`, render/box.go 491-534; `dep idx` already contains the division of `ptVal` by
the depth `domCb.Width[kDim]` (line 502). -/
def seg2InterpolateWith (floor : ℚ → ℤ) (bufCb domCb : CellBounds) (cells proj : ℤ) (xs : List Vec) (dep : ℤ → M)
    (low high jump : ℤ) (buf : List M) : Option (List M) :=
  let (iDim, jDim, kDim) := projDims proj
  let kOffset := domCb.origin kDim - bufCb.origin kDim
  let length := bufCb.width iDim
  forStep low high jump (fun idx buf => do
    let pt ← rd xs idx
    let i := trunc (pt iDim)
    let j := trunc (pt jDim)
    let k := floor (pt kDim)
    let kk := bound (k - kOffset) cells
    if kk < domCb.width kDim ∧ kk ≥ 0 then accum buf (i + j * length) (dep idx)
    else some buf) buf

/-- The same with `intFloor` in exact arithmetic. render/box.go 491-534. -/
def seg2Interpolate (bufCb domCb : CellBounds) (cells proj : ℤ) (xs : List Vec) (dep : ℤ → M)
    (low high jump : ℤ) (buf : List M) : Option (List M) :=
  seg2InterpolateWith intFloor bufCb domCb cells proj xs dep low high jump buf

/-- `domainOverlap2D.Interpolate`, render/box.go 588-636; `dep idx` already contains the division of `ptVal` by
the depth `bufCb.Width[kDim]` (line 601). -/
def dom2InterpolateWith (floor : ℚ → ℤ) (bufCb : CellBounds) (cells proj : ℤ) (xs : List Vec) (dep : ℤ → M) (low high jump : ℤ)
    (buf : List M) : Option (List M) :=
  let (iDim, jDim, kDim) := projDims proj
  let length := bufCb.width iDim
  forStep low high jump (fun idx buf => do
    let pt ← rd xs idx
    let i := bound (floor (pt iDim)) cells
    if i < bufCb.width iDim then
      let j := bound (floor (pt jDim)) cells
      if j < bufCb.width jDim then
        let k := bound (floor (pt kDim)) cells
        if k < bufCb.width kDim then accum buf (i + j * length) (dep idx)
        else some buf
      else some buf
    else some buf) buf

/-- The same with `intFloor` in exact arithmetic. render/box.go 588-636. -/
def dom2Interpolate (bufCb : CellBounds) (cells proj : ℤ) (xs : List Vec) (dep : ℤ → M) (low high jump : ℤ)
    (buf : List M) : Option (List M) :=
  dom2InterpolateWith intFloor bufCb cells proj xs dep low high jump buf

/-! ## Adding buffers to the image -/

/-- `domainOverlap2D.Add` and `domainOverlap3D.Add`, render/box.go 253-274 and 280-299. -/
def domAdd (buf grid : List M) : Option (List M) :=
  forRange 0 buf.length (fun i grid => do
    let v ← rd buf i
    accum grid i v) grid

/-- Cell of the image for a cell of the buffer on one axis, e.g. render/box.go 325-330. -/
def domCoord (bufO domO cells b : ℤ) : ℤ :=
  let d := b + (bufO - domO)
  if d < 0 then d + cells else if d ≥ cells then d - cells else d

/-- `segmentOverlap2D.Add`, render/box.go 313-388. -/
def seg2Add (bufCb domCb : CellBounds) (cells proj : ℤ) (buf grid : List M) : Option (List M) :=
  let (iDim, jDim, _) := projDims proj
  forRange 0 (bufCb.width jDim) (fun jBuf grid =>
    let jDom := domCoord (bufCb.origin jDim) (domCb.origin jDim) cells jBuf
    if jDom ≥ domCb.width jDim then some grid
    else
      let flatDomJ := jDom * domCb.width iDim
      let flatBufJ := jBuf * bufCb.width iDim
      forRange 0 (bufCb.width iDim) (fun iBuf grid =>
        let iDom := domCoord (bufCb.origin iDim) (domCb.origin iDim) cells iBuf
        if iDom ≥ domCb.width iDim then some grid
        else do
          let v ← rd buf (iBuf + flatBufJ)
          accum grid (iDom + flatDomJ) v) grid) grid

/-- `segmentOverlap3D.Add`, render/box.go 394-485. -/
def seg3Add (bufCb domCb : CellBounds) (cells : ℤ) (buf grid : List M) : Option (List M) :=
  forRange 0 (bufCb.width 2) (fun zBuf grid =>
    let zDom := domCoord (bufCb.origin 2) (domCb.origin 2) cells zBuf
    if zDom ≥ domCb.width 2 then some grid
    else
      let flatDomZ := zDom * domCb.width 1 * domCb.width 0
      let flatBufZ := zBuf * bufCb.width 1 * bufCb.width 0
      forRange 0 (bufCb.width 1) (fun yBuf grid =>
        let yDom := domCoord (bufCb.origin 1) (domCb.origin 1) cells yBuf
        if yDom ≥ domCb.width 1 then some grid
        else
          let flatDomY := yDom * domCb.width 0
          let flatBufY := yBuf * bufCb.width 0
          forRange 0 (bufCb.width 0) (fun xBuf grid =>
            let xDom := domCoord (bufCb.origin 0) (domCb.origin 0) cells xBuf
            if xDom ≥ domCb.width 0 then some grid
            else do
              let v ← rd buf (xBuf + flatBufY + flatBufZ)
              accum grid (xDom + flatDomY + flatDomZ) v) grid) grid) grid

/-! ## Workers -/

/-- `coords`, render/density/interpolator.go 200-205 (Go integer division). -/
def coords (idx cells : ℤ) : ℤ × ℤ × ℤ :=
  (idx.tmod cells, (idx.tmod (cells * cells)).tdiv cells, idx.tdiv (cells * cells))

/-- `index`, render/density/interpolator.go 196-198. -/
def index (x y z cells : ℤ) : ℤ := x + y * cells + z * cells * cells

/-- `segLen` of `initWorkspaces`, render/render.go 192-193. -/
def segLen (segWidth skip : ℤ) : ℤ := segWidth.tdiv skip * segWidth.tdiv skip * segWidth.tdiv skip

/-- What `mcarlo.Interpolate` does with one tetrahedron: grid index of the cube and direction.
render/density/interpolator.go 110-180. -/
abbrev TetVisit := ℤ × ℤ

/-- The tetrahedra visited by `mcarlo.Interpolate`, in order: the loops of render/density/interpolator.go 110-113
with `low = id`, `high = segLen`, `jump = workers` (render/render.go 210-211, 305-320). The number of iterations is
as in `forStep`. -/
def workerVisits (segWidth skip workers id : ℤ) : List TetVisit :=
  (List.range ((segLen segWidth skip - id + workers - 1) / workers).toNat).flatMap fun (k : ℕ) =>
    let idx := id + (k : ℤ) * workers
    let (x, y, z) := coords idx (segWidth.tdiv skip)
    let gridIdx := index (x * skip) (y * skip) (z * skip) (segWidth + 1)
    (List.range 6).map fun (dir : ℕ) => (gridIdx, (dir : ℤ))

/-- `isPowTwo`, render/render.go 225-228. Go's `x & 1 == 0` is "even" also for negative numbers. -/
def isPowTwo (x : ℤ) : Bool :=
  if x % 2 = 0 ∧ x > 0 then isPowTwo (x / 2) else x = 1
termination_by x.toNat
decreasing_by omega

/-- `Manager.Subsample` (render/render.go 217-223) and `HistManager.Subsample` (render/hist.go 103-109): new value of
`skip`, `none` for the fatal error. -/
def subsample (skip subsampleLength : ℤ) : Option ℤ :=
  if isPowTwo skip = false then none else some subsampleLength

end Verif.Render
