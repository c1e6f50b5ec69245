import Verif.Fp.BoxModel
import Verif.Render.Model

/-!
# The pixels of an image in machine arithmetic
-/

set_option autoImplicit false

namespace Verif.Fp

open Verif.Go Verif.Geom Verif.Render

/-- One axis of `cb` of a new box, render/box.go 156-166 and 190-200, with `float64` operations: origin and width in
cells. -/
def boxAxis64 (boxWidth : ℚ) (cells : ℤ) (origin width : ℚ) : ℤ × ℤ :=
  let cellWidth := f64 (boxWidth / f64 cells)
  let o := ⌊f64 (origin / cellWidth)⌋
  (o, 1 + ⌊f64 (f64 (width + origin) / cellWidth)⌋ - o)

/-- `cb` of a new box, `newBox2D` and `newBox3D`, render/box.go 139-213. -/
def newBoxBounds64 (boxWidth : ℚ) (cells : ℤ) (origin width : Vec) : CellBounds where
  origin := fun j => (boxAxis64 boxWidth cells (origin j) (width j)).1
  width := fun j => (boxAxis64 boxWidth cells (origin j) (width j)).2

end Verif.Fp
