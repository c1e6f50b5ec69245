import Verif.Fp.RandModel
import Verif.Render.WholeProject

/-!
# Sums of samples in machine arithmetic

The buffers of the renderers hold `float64` values, to which samples and other buffers are added with `+=`. The
definitions of `Verif.Render` work for every type with an addition; here the addition rounds.
-/

set_option autoImplicit false

namespace Verif.Fp

open Verif.Go Verif.Geom Verif.Render

/-- A value in a buffer of `float64`, render/density/buffer.go 74-90. -/
@[ext] structure R64 where
  val : ℚ
deriving DecidableEq

/-- `+=` on values of buffers, render/box.go 253-485 and 491-683. A product that is added (velocities) is taken to be
rounded before, as without fused instructions. -/
instance : Add R64 := ⟨fun a b => ⟨f64 (a.val + b.val)⟩⟩

/-- Cleared values, render/density/buffer.go 66-90. -/
instance : Zero R64 := ⟨⟨0⟩⟩

/-- `ptVal` of the renderer for densities, render/render.go 182-189. -/
def rendererPtVal64 (cells countWidth : ℤ) : ℚ :=
  let frac := f64 (f64 cells / f64 countWidth)
  f64 (f64 (frac * frac) * frac)

/-- `ptVal` of `Interpolate` for densities, render/density/interpolator.go 84-88. -/
def mcPtVal64 (points skip : ℤ) (ptVal : ℚ) : ℚ :=
  f64 (f64 (f64 (ptVal / f64 points) / 6) * f64 ((skip * skip * skip : ℤ) : ℚ))

/-- The division by the depth of a projected image, render/box.go 502 and 601. -/
def projPtVal64 (dom : CellBounds) (proj : ℤ) (ptVal : ℚ) : ℚ := f64 (ptVal / f64 (dom.width (projDims proj).2.2))

end Verif.Fp
