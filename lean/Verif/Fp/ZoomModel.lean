import Verif.Fp.BoxModel

/-! # Positions in cells of an image of part of the box, in machine arithmetic -/

set_option autoImplicit false

namespace Verif.Fp

open Verif.Go

/-- One component of `diff` in `ScaleVecsDomain`, render/geom/grid.go 187-199: the distance from the origin `o'` of the image
to the origin `o` of the segment, folded by one period. -/
def domainDiff32 (cells o o' : ℤ) : ℚ :=
  let fCells := f32 cells
  let d := f32 ((o - o' : ℤ) : ℚ)
  if d < f32 (-fCells / 2) then f32 (d + fCells)
  else if d > f32 (fCells / 2) then f32 (d - fCells)
  else d

/-- One coordinate in `ScaleVecsDomain`, render/geom/grid.go 201-208. -/
def scaleDom32 (cells : ℤ) (boxWidth : ℚ) (o o' : ℤ) (x : ℚ) : ℚ :=
  f32 (scaleSeg32 cells boxWidth o x + domainDiff32 cells o o')

end Verif.Fp
