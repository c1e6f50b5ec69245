import Verif.Fp.ZoomModel
import Verif.Fp.MachineModel
import Verif.Fp.PixelsModel
import Verif.Fp.SumModel
import Verif.Main.Pipeline

/-!
# From the particle grid to the image in machine arithmetic

The functions of `Verif.Main.Model` and `Verif.Main.Pipeline` with rounding. Positions and velocities are `float32` numbers
that are only copied; what is computed are the box of a segment, its cells, and the positions in cells.
-/

set_option autoImplicit false

namespace Verif.Fp

open Verif.Go Verif.Geom Verif.Render Verif.Main

/-! ## Writing the files -/

/-- The variables of `copyToSegment`, render/main/main.go 464-490. The box is kept axis by axis. -/
structure Copy32 where
  smallIdx : ℤ
  box : Fin 3 → Axis32
  vMin : Vec
  vMax : Vec
  xsSeg : List Vec
  vsSeg : List Vec

/-- Innermost statements of `copyToSegment`, render/main/main.go 493-506; `w` is the width of the box. -/
def copyStep32 (w : ℚ) (xs vs : List Vec) (largeIdx : ℤ) (s : Copy32) : Option Copy32 := do
  let x ← rd xs largeIdx
  let xsSeg ← wr s.xsSeg s.smallIdx x
  let v ← rd vs largeIdx
  let vsSeg ← wr s.vsSeg s.smallIdx v
  some {
    smallIdx := s.smallIdx + 1
    box := fun d => (s.box d).add w (x d)
    vMin := fun d => (vBound (s.vMin d) (s.vMax d) (v d)).1
    vMax := fun d => (vBound (s.vMin d) (s.vMax d) (v d)).2
    xsSeg := xsSeg
    vsSeg := vsSeg }

/-- `copyToSegment`, render/main/main.go 464-517. -/
def copyToSegment32 (shd : Sheet) (xs vs xsSeg vsSeg : List Vec) : Option (Sheet × List Vec × List Vec) :=
  if shd.cells = 0 then none else do
    let xStart := shd.segmentWidth * shd.idx.tmod shd.cells
    let yStart := shd.segmentWidth * (shd.idx.tdiv shd.cells).tmod shd.cells
    let zStart := shd.segmentWidth * shd.idx.tdiv (shd.cells * shd.cells)
    let N := shd.countWidth
    let N2 := shd.countWidth * shd.countWidth
    let p ← rd xs (xStart + N * yStart + N2 * zStart)
    let v0 ← rd vs 0
    let s ← forRange zStart (zStart + shd.gridWidth) (fun z s =>
      forRange yStart (yStart + shd.gridWidth) (fun y s =>
        forRange xStart (xStart + shd.gridWidth) (fun x s =>
          copyStep32 shd.totalWidth xs vs (wrapIdx shd.countWidth x + wrapIdx shd.countWidth y * N +
            wrapIdx shd.countWidth z * N2) s) s) s)
      ⟨0, fun d => ⟨p d, 0, 0⟩, v0, v0, xsSeg, vsSeg⟩
    some ({ shd with
      origin := fun d => ((s.box d).stored shd.totalWidth).1
      width := fun d => ((s.box d).stored shd.totalWidth).2
      velocityOrigin := s.vMin
      velocityWidth := fun d => f32 (s.vMax d - s.vMin d) }, s.xsSeg, s.vsSeg)

/-- `writeGrids`, render/main/main.go 363-412. -/
def writeGrids32 (hd : Catalog) (cells : ℤ) (xs vs : List Vec) : Option (List SheetFile) :=
  if cells = 0 then none else
  let shd := sheetHeader hd cells
  if shd.gridCount < 0 then none else do
    let seg : List Vec := List.replicate shd.gridCount.toNat 0
    let s ← forRange 0 cells (fun z (s : Writing) =>
      forRange 0 cells (fun y (s : Writing) =>
        forRange 0 cells (fun x (s : Writing) => do
          let (shd, xsSeg, vsSeg) ← copyToSegment32 s.shd xs vs s.xsSeg s.vsSeg
          some ⟨{ shd with idx := shd.idx + 1 }, xsSeg, vsSeg, s.files ++ [⟨sheetName x y z, shd, xsSeg, vsSeg⟩]⟩)
          s) s) ⟨shd, seg, seg, []⟩
    some s.files

/-! ## Rendering them -/

/-- `man.hd.CellBounds(cells)`, render/io/io.go 390-406. -/
def sheetBounds32 (f : SheetFile) (cells : ℤ) : CellBounds where
  origin := fun j => (cellAxis f.header.totalWidth (f.header.origin j) (f.header.width j) cells).1
  width := fun j => (cellAxis f.header.totalWidth (f.header.origin j) (f.header.width j) cells).2

/-- `requiresFile`, render/render.go 94-115 and 173-175. -/
def requires32 (b : RBox) (f : SheetFile) : Bool := (sheetBounds32 f b.cells).intersect b.cb b.cells

/-- `Overlap` chooses the domain overlap, render/box.go 70-94 and 102-122. -/
def direct32 (b : RBox) (f : SheetFile) : Bool :=
  match b.proj with
  | none => !chooseSegment3 (sheetBounds32 f b.cells) b.cb
  | some a => !chooseSegment2 (sheetBounds32 f b.cells) b.cb a b.cells

/-- `scaleXs`, render/render.go 177-180 with render/box.go 249-251, 276-278, 309-311 and 390-392. -/
def scaleXs32 (b : RBox) (f : SheetFile) : List Vec :=
  let boxWidth := f64 (b.cellWidth * f64 b.cells)
  f.xs.map fun x j =>
    if direct32 b f then scaleDom32 b.cells boxWidth ((sheetBounds32 f b.cells).origin j) (b.cb.origin j) (x j)
    else scaleSeg32 b.cells boxWidth ((sheetBounds32 f b.cells).origin j) (x j)

/-- The interpolator made by `initWorkspaces`, render/render.go 191-213. -/
def mc32 (b : RBox) (skip : ℤ) (unitBufs : List (List Vec)) (f : SheetFile) : MC where
  segWidth := f.header.segmentWidth
  points := b.pts
  cells := b.cells
  skip := skip
  unitBufs := unitBufs.map (·.take b.pts)
  dom := b.cb
  buf := if direct32 b f then b.cb else sheetBounds32 f b.cells
  arith := machine

/-- One pass of `RenderDensityFromFile`, render/render.go 258-278, see `RBox.pass`. -/
def pass32 {M : Type} [Zero M] (b : RBox) (skip : ℤ) (unitBufs : List (List Vec)) (val : Vec → M) (f : SheetFile)
    (pick : ℕ → ℕ → ℤ) (wbuf : ℕ → List Vec) : SegRun M where
  mc := mc32 b skip unitBufs f
  direct := direct32 b f
  xs := scaleXs32 b f
  vs := f.vs
  pick := pick
  init id := ⟨newTetra 0 0 0 0, newTetra 0 0 0 0, List.replicate b.pts 0, wbuf id, 0,
    List.replicate (b.bufferSize (mc32 b skip unitBufs f).buf).toNat 0⟩
  val := val

/-- The passes of `RenderDensity` for one box, render/render.go 230-237 and 258-261. -/
def passes32 {M : Type} [Zero M] (b : RBox) (skip : ℤ) (unitBufs : List (List Vec)) (val : SheetFile → Vec → M)
    (ps : List Pass) : List (SegRun M) :=
  (ps.filter fun p => requires32 b p.file).map fun p => pass32 b skip unitBufs (val p.file) p.file p.pick p.wbuf

/-- `newBox3D` and `newBox2D` without the values, render/box.go 139-213. -/
def newBox64 (boxWidth : ℚ) (pts : ℕ) (cells : ℤ) (origin width : Vec) (proj : Option ℤ) : RBox :=
  ⟨newBoxBounds64 boxWidth cells origin width, pts, cells, f64 (boxWidth / f64 cells), proj⟩

end Verif.Fp
