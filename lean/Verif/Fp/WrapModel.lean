import Verif.Fp.RandModel
import Verif.Geom.Model
import Verif.Io.Model

/-!
# Periodic coordinates in machine arithmetic

Versions of `modC`, `subFold1`, `subFold2` and `wrapDistance` in which every operation is rounded.
-/

set_option autoImplicit false

namespace Verif.Fp

open Verif.Go Verif.Geom

/-- One coordinate of `Vec.ModAt`, render/geom/vec.go 42-53. -/
def modC32 (width x : ℚ) : ℚ :=
  let w := f32 width
  if x ≥ w then f32 (x - w) else if x < 0 then f32 (x + w) else x

/-- One coordinate of `Vec.SubAt`, render/geom/vec.go 82-104. -/
def subC32 (width x1 x2 : ℚ) : ℚ :=
  let w := f32 width
  let w2 := f32 (f32 width / 2)
  let diff := f32 (x1 - x2)
  let diff := if diff < -w then f32 (diff + w) else if diff ≥ w then f32 (diff - w) else diff
  if diff > w2 then f32 (diff - w) else if diff < -w2 then f32 (diff + w) else diff

/-- `WrapDistance`, render/io/io.go 121-128, in `float64`. -/
def wrap64 (boxSize x : ℚ) : ℚ :=
  if x < 0 then f64 (x + boxSize) else if x ≥ boxSize then f64 (x - boxSize) else x

/-- A coordinate of a Gadget particle as stored, `float32(gh.WrapDistance(float64(x)))`, render/io/io.go 243. -/
def gadgetPos (boxSize x : ℚ) : ℚ := f32 (wrap64 boxSize x)

/-- The positions of a Gadget file as stored, render/io/io.go 241-246. -/
def gadgetXs (boxSize : ℚ) (raw : List Vec) : List Vec := raw.map fun v j => gadgetPos boxSize (v j)

end Verif.Fp
