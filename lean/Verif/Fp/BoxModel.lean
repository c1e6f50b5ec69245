import Verif.Fp.WrapModel
import Verif.Main.Model

/-!
# Segment headers and scaled positions in machine arithmetic

All loops over the three axes treat each axis separately, so that the definitions are about one axis. Versions of the
definitions of `Verif.Main.Model`, `Verif.Io.Model` and `Verif.Geom.Model` with rounding.
-/

set_option autoImplicit false

namespace Verif.Fp

open Verif.Go Verif.Geom Verif.Main

/-- One axis of a `boundingBox`, render/main/main.go 418-422. -/
structure Axis32 where
  center : ℚ
  toMax : ℚ
  toMin : ℚ
deriving DecidableEq

/-- One axis of `boundingBox.Add`, render/main/main.go 432-448, with `AddAt`, `AddSelf`, `ScaleSelf` and `SubSelf` of
render/geom/vec.go. -/
def Axis32.add (w : ℚ) (a : Axis32) (x : ℚ) : Axis32 :=
  let toPt := subC32 w x a.center
  let toMin := (minMax a.toMin a.toMax toPt).1
  let toMax := (minMax a.toMin a.toMax toPt).2
  let toPt := f32 (toMax + toMin)
  let toPt := f32 (f64 (toPt * (1 / 2)))
  ⟨f32 (a.center + toPt), subC32 w toMax toPt, subC32 w toMin toPt⟩

/-- One axis of the bounding box of a segment, render/main/main.go 471-496: `x0` is the coordinate of the first particle,
`xs` those of all particles in the order in which they are copied. -/
def axisBox (w x0 : ℚ) (xs : List ℚ) : Axis32 := xs.foldl (Axis32.add w) ⟨x0, 0, 0⟩

/-- One axis of `Origin` and `Width` of the header, render/main/main.go 509-513. -/
def Axis32.stored (w : ℚ) (a : Axis32) : ℚ × ℚ := (modC32 w (f32 (a.center + a.toMin)), f32 (f64 (a.toMax * 2)))

/-- One axis of `CellBounds`, render/io/io.go 390-406: origin and width in cells. -/
def cellAxis (totalWidth origin width : ℚ) (cells : ℤ) : ℤ × ℤ :=
  let cellWidth := f64 (totalWidth / f64 cells)
  let o := ⌊f64 (origin / cellWidth)⌋
  (o, 1 + ⌊f64 (f32 (origin + width) / cellWidth)⌋ - o)

/-- `boxWidth` of an overlap, render/box.go 70-94 and 102-122: `b.cellWidth * float64(b.cells)`. -/
def boxWidth64 (totalWidth : ℚ) (cells : ℤ) : ℚ := f64 (f64 (totalWidth / f64 cells) * f64 cells)

/-- One coordinate in `ScaleVecsSegment`, render/geom/grid.go 153-173. -/
def scaleSeg32 (cells : ℤ) (boxWidth : ℚ) (origin : ℤ) (x : ℚ) : ℚ :=
  let fCells := f32 cells
  let fWidth := f32 boxWidth
  let scale := f32 (fCells / fWidth)
  let y := f32 (x * scale)
  let y := f32 (y - f32 origin)
  if y < 0 then f32 (y + fCells) else y

end Verif.Fp
