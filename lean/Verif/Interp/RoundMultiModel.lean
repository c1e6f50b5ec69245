import Verif.Interp.RoundModel

/-!
# Model of bilinear and trilinear interpolation with rounding

`math/interpolate/linear_interpolators.go` with the arithmetic as a parameter (`FP`), as in `RoundModel`. A compiler that
fuses products into sums may take either product of `a*b + c*d`; the parameter `left` says which, in the places where
there is a choice (with arithmetic that does not fuse, it only exchanges the two summands).
-/

set_option autoImplicit false

namespace Verif.Interp

open Verif.Go Verif.Mat

/-- `a*s + b*t`, used for `math/interpolate/linear_interpolators.go:178` and `:307-315`. -/
def twoR (f : FP) (left : Bool) (a s b t : ℚ) : ℚ :=
  if left then f.mac (f.fl (b * t)) a s else f.mac (f.fl (a * s)) b t

/-- `math/interpolate/linear_interpolators.go:105-120` (`NewBiLinear`). -/
def newBiLinearR (f : FP) (xs ys vals : List ℚ) : Option BiLinear := do
  let sx ← Searcher.initR f xs
  let sy ← Searcher.initR f ys
  if xs.length * ys.length ≠ vals.length then none
  else some ⟨sx, sy, vals, xs.length⟩

/-- The arithmetic of `math/interpolate/linear_interpolators.go:174-180`. -/
def bilinR (f : FP) (left : Bool) (x1 x2 y1 y2 v11 v12 v21 v22 x y : ℚ) : ℚ :=
  let dx := f.fl (x2 - x1)
  let dy := f.fl (y2 - y1)
  let dx1 := f.fl (x - x1)
  let dx2 := f.fl (x2 - x)
  let dy1 := f.fl (y - y1)
  let dy2 := f.fl (y2 - y)
  let s := twoR f left (f.fl (v11 * dx2)) dy2 (f.fl (v12 * dx2)) dy1
  let s := f.mac s (f.fl (v21 * dx1)) dy2
  let s := f.mac s (f.fl (v22 * dx1)) dy1
  f.fl (s / f.fl (dx * dy))

/-- `math/interpolate/linear_interpolators.go:153-181` (`Eval`). -/
def BiLinear.evalR (f : FP) (left : Bool) (bi : BiLinear) (x y : ℚ) : Option ℚ := do
  let ix1 ← bi.xs.searchR f x
  let iy1 ← bi.ys.searchR f y
  let ix2 := ix1 + 1
  let iy2 := iy1 + 1
  let (ix1, ix2) := if ix2 = bi.xs.n then (ix1 - 1, ix2 - 1) else (ix1, ix2)
  let (iy1, iy2) := if iy2 = bi.ys.n then (iy1 - 1, iy2 - 1) else (iy1, iy2)
  let x1 ← bi.xs.valR f ix1
  let x2 ← bi.xs.valR f ix2
  let y1 ← bi.ys.valR f iy1
  let y2 ← bi.ys.valR f iy2
  let v11 ← rd bi.vals (ix1 + bi.nx * iy1)
  let v12 ← rd bi.vals (ix1 + bi.nx * iy2)
  let v21 ← rd bi.vals (ix2 + bi.nx * iy1)
  let v22 ← rd bi.vals (ix2 + bi.nx * iy2)
  some (bilinR f left x1 x2 y1 y2 v11 v12 v21 v22 x y)

/-- `math/interpolate/linear_interpolators.go:234-252` (`NewTriLinear`). -/
def newTriLinearR (f : FP) (xs ys zs vals : List ℚ) : Option TriLinear := do
  let sx ← Searcher.initR f xs
  let sy ← Searcher.initR f ys
  let sz ← Searcher.initR f zs
  if xs.length * ys.length * zs.length ≠ vals.length then none
  else some ⟨sx, sy, sz, vals, xs.length, ys.length⟩

/-- The arithmetic of `math/interpolate/linear_interpolators.go:303-315`. -/
def trilinR (f : FP) (left : Bool) (x1 x2 y1 y2 z1 z2 v111 v112 v121 v122 v211 v212 v221 v222 x y z : ℚ) : ℚ :=
  let xd := f.fl (f.fl (x - x1) / f.fl (x2 - x1))
  let yd := f.fl (f.fl (y - y1) / f.fl (y2 - y1))
  let zd := f.fl (f.fl (z - z1) / f.fl (z2 - z1))
  let c11 := twoR f left v111 (f.fl (1 - xd)) v211 xd
  let c21 := twoR f left v121 (f.fl (1 - xd)) v221 xd
  let c12 := twoR f left v112 (f.fl (1 - xd)) v212 xd
  let c22 := twoR f left v122 (f.fl (1 - xd)) v222 xd
  let c1 := twoR f left c11 (f.fl (1 - yd)) c21 yd
  let c2 := twoR f left c12 (f.fl (1 - yd)) c22 yd
  twoR f left c1 (f.fl (1 - zd)) c2 zd

/-- `math/interpolate/linear_interpolators.go:282-316` (`Eval`). Lines 285 and 301 search and read the `ys` grid for the
`z` coordinate, as here. -/
def TriLinear.evalR (f : FP) (left : Bool) (tri : TriLinear) (x y z : ℚ) : Option ℚ := do
  let ix ← tri.xs.searchR f x
  let iy ← tri.ys.searchR f y
  let iz ← tri.ys.searchR f z
  let dix : Int := 1
  let diy := tri.nx
  let diz := tri.nx * tri.ny
  let i := ix + iy * tri.nx + iz * tri.ny * tri.nx
  let v111 ← rd tri.vals (i + 0 + 0 + 0)
  let v112 ← rd tri.vals (i + 0 + 0 + diz)
  let v121 ← rd tri.vals (i + 0 + diy + 0)
  let v122 ← rd tri.vals (i + 0 + diy + diz)
  let v211 ← rd tri.vals (i + dix + 0 + 0)
  let v212 ← rd tri.vals (i + dix + 0 + diz)
  let v221 ← rd tri.vals (i + dix + diy + 0)
  let v222 ← rd tri.vals (i + dix + diy + diz)
  let x1 ← tri.xs.valR f ix
  let x2 ← tri.xs.valR f (ix + 1)
  let y1 ← tri.ys.valR f iy
  let y2 ← tri.ys.valR f (iy + 1)
  let z1 ← tri.ys.valR f iz
  let z2 ← tri.ys.valR f (iz + 1)
  some (trilinR f left x1 x2 y1 y2 z1 z2 v111 v112 v121 v122 v211 v212 v221 v222 x y z)

end Verif.Interp
