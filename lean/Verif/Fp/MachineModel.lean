import Verif.Fp.SampleModel
import Verif.Render.McModel

/-! # The Monte Carlo interpolator in machine arithmetic -/

set_option autoImplicit false

namespace Verif.Fp

open Verif.Go Verif.Geom Verif.Render

/-- `intFloor`, render/box.go 685-691, with `x - 1` rounded to a `float32`. -/
def intFloor32 (x : ℚ) : ℤ := if x > 0 then trunc x else trunc (f32 (x - 1))

/-- The operations of `mcarlo.Interpolate` on coordinates with rounding: `CellBoundsAt(1.0, _)` (render/geom/tetra.go
471-489), `DistributeTetra` and `DistributeTetra64` (393-447; the latter converts the `float32` sum to `float64`, which is
exact), the sum in `modCoord` with the conversion of the number of cells (render/density/interpolator.go 149-153 and
190-194), and `intFloor` (render/box.go 685-691). -/
def machine : Arith where
  cellBounds := fun t => cellBounds32 t 1
  distribute := distributeTetra32
  shift := fun n x => f32 (x + f32 n)
  floor := intFloor32

end Verif.Fp
