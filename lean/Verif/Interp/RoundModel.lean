import Verif.Interp.Model
import Verif.Mat.RoundModel

/-!
# Model of table search and linear interpolation with rounding

`math/interpolate/search.go` and the one-dimensional part of `math/interpolate/linear_interpolators.go`, with the arithmetic
as a parameter (`FP`). Comparisons are exact. The number of entries of a table is taken to be a `float64` exactly.
A quotient with denominator 0 is 0 here; the theorems speak about tables where this does not happen.
-/

set_option autoImplicit false

namespace Verif.Interp

open Verif.Go Verif.Mat

/-- `math/interpolate/search.go:14-22` (`init`). -/
def Searcher.initR (f : FP) (xs : List ℚ) : Option Searcher := do
  let x0 ← rd xs 0
  let lim ← rd xs ((xs.length : Int) - 1)
  let dx := f.fl (f.fl (lim - x0) / (((xs.length : Int) - 1 : Int) : ℚ))
  some { xs := xs, x0 := x0, lim := lim, dx := dx, n := xs.length, unif := false,
         incr := decide (dx > 0) }

/-- `math/interpolate/search.go:24-32` (`unifInit`). -/
def Searcher.unifInitR (f : FP) (x0 dx : ℚ) (n : Int) : Searcher :=
  { xs := [], x0 := x0, lim := f.mac x0 ((n - 1 : Int) : ℚ) dx, dx := dx, n := n, unif := true,
    incr := decide (dx > 0) }

/-- `math/interpolate/search.go:35-71` (`search`). -/
def Searcher.searchR (f : FP) (s : Searcher) (x : ℚ) : Option Int :=
  if x > s.lim ∨ x < s.x0 then none
  else if s.unif then
    let idx := trunc (f.fl (f.fl (x - s.x0) / s.dx))
    some (if idx = s.n - 1 then idx - 1 else idx)
  else do
    let a ← rd s.xs 0
    tableSearch s.xs s.n s.incr x (trunc (f.fl (f.fl (x - a) / s.dx)))

/-- `math/interpolate/search.go:73-79` (`val`). -/
def Searcher.valR (f : FP) (s : Searcher) (i : Int) : Option ℚ :=
  if s.unif then some (f.mac s.x0 (i : ℚ) s.dx) else rd s.xs i

/-- `math/interpolate/linear_interpolators.go:22-30` (`NewLinear`). -/
def newLinearR (f : FP) (xs vals : List ℚ) : Option Linear :=
  if xs.length ≠ vals.length then none
  else do
    let s ← Searcher.initR f xs
    some ⟨s, vals⟩

/-- `math/interpolate/linear_interpolators.go:37-42` (`NewUniformLinear`). -/
def newUniformLinearR (f : FP) (x0 dx : ℚ) (vals : List ℚ) : Linear :=
  ⟨Searcher.unifInitR f x0 dx vals.length, vals⟩

/-- `math/interpolate/linear_interpolators.go:47-54` (`Eval`). -/
def Linear.evalR (f : FP) (lin : Linear) (x : ℚ) : Option ℚ := do
  let i1 ← lin.xs.searchR f x
  let i2 := i1 + 1
  let x1 ← lin.xs.valR f i1
  let x2 ← lin.xs.valR f i2
  let v1 ← rd lin.vals i1
  let v2 ← rd lin.vals i2
  some (f.mac v1 (f.fl (f.fl (v2 - v1) / f.fl (x2 - x1))) (f.fl (x - x1)))

end Verif.Interp
