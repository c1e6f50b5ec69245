import Verif.Fp.RandModel
import Verif.Render.BufModel

/-!
# Derivatives and finalised buffers in machine arithmetic

The arithmetic of `render/geom/deriv.go` and of the finalised buffers of `render/density/buffer.go`: `float32`, with the
cell width computed in `float64`. Exponents are unbounded; there are no infinities, no underflow and no NaN. The loops are
those of `Verif.Geom.DerivModel` and `Verif.Render.BufModel`.
-/

set_option autoImplicit false

namespace Verif.Fp

open Verif.Go Verif.Geom Verif.Render

/-- Which products the compiler has fused with an addition, so that they are not rounded: for every expression of
render/geom/deriv.go 165-238 and every product in it, counted from the left. Of the first two products of a sum at most
one can be fused; here both can. -/
abbrev DFusing := DerivSite → ℕ → Bool

/-- A product of a constant and a value, render/geom/deriv.go 165-238. Values that stand alone are products with 1 or -1,
which change nothing. -/
def term32 (fused : Bool) (c v : ℚ) : ℚ := if fused then c * v else f32 (c * v)

/-- The products `k`, `k + 1`, ... added to `s` one after the other, render/geom/deriv.go 165-238. -/
def sum32 (fused : ℕ → Bool) : ℕ → List (ℚ × ℚ) → ℚ → ℚ
  | _, [], s => s
  | k, t :: ts, s => sum32 fused (k + 1) ts (f32 (s + term32 (fused k) t.1 t.2))

/-- A stencil, render/geom/deriv.go 165-238. -/
def comb32 (fusing : DFusing) (site : DerivSite) : List (ℚ × ℚ) → ℚ → ℚ
  | [], _ => 0
  | t :: ts, d => f32 (sum32 (fusing site) 1 ts (term32 (fusing site 0) t.1 t.2) / d)

/-- The denominator, render/geom/deriv.go 41, 295 and 305. -/
def denom32 (order : ℤ) (boxWidth : ℚ) (cells : ℤ) : ℚ :=
  let dx := f64 (boxWidth / f64 cells)
  f32 (f64 (dx * if order = 2 then 2 else 12))

/-- A sum divided by a count, render/density/buffer.go 300-302, 354-358 and 420-422. -/
def mean32 (v : ℚ) (n : ℤ) : ℚ := f32 (f32 v / f32 n)

/-- Arithmetic of render/geom/deriv.go 165-319. -/
def machineD (fusing : DFusing) : DArith where
  comb := comb32 fusing
  denom := denom32
  add a b := f32 (a + b)
  sub a b := f32 (a - b)

/-- Arithmetic of render/density/buffer.go 239-428. -/
def machineB (fusing : DFusing) : BArith := { machineD fusing with mean := mean32, conv := f32 }

end Verif.Fp
