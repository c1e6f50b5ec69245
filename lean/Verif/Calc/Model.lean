import Verif.Go.Slice
import Mathlib.Data.Rat.Defs

/-!
# Model of `/repo/math/calc`
-/

namespace Verif.Calc

open Verif.Go

/-- `math/calc/deriv.go:38-43`: the branch `order == 2`. -/
def deriv2 (xs ys out : List ℚ) : Option (List ℚ) := do
  let n : Int := xs.length
  let out ← forRange 1 (n - 1) (fun i out => do
    let y1 ← rd ys (i + 1)
    let y0 ← rd ys (i - 1)
    let x1 ← rd xs (i + 1)
    let x0 ← rd xs (i - 1)
    wr out i ((y1 - y0) / (x1 - x0))) out
  let y0 ← rd ys 0
  let y1 ← rd ys 1
  let y2 ← rd ys 2
  let x2 ← rd xs 2
  let x0 ← rd xs 0
  let out ← wr out 0 ((-3 * y0 + 4 * y1 - y2) / (x2 - x0))
  let z1 ← rd ys (n - 1)
  let z2 ← rd ys (n - 2)
  let z3 ← rd ys (n - 3)
  let w1 ← rd xs (n - 1)
  let w3 ← rd xs (n - 3)
  wr out (n - 1) (-(-3 * z1 + 4 * z2 - z3) / (w1 - w3))

/-- `math/calc/deriv.go:44-58`: the branch `order == 4`. -/
def deriv4 (xs ys out : List ℚ) : Option (List ℚ) := do
  let n : Int := xs.length
  let out ← forRange 2 (n - 2) (fun i out => do
    let a ← rd ys (i + 2)
    let b ← rd ys (i + 1)
    let c ← rd ys (i - 1)
    let d ← rd ys (i - 2)
    let x2 ← rd xs (i + 2)
    let x1 ← rd xs (i - 1)
    wr out i ((-a + 8 * b - 8 * c + d) / (3 * (x2 - x1)))) out
  let y0 ← rd ys 0
  let y1 ← rd ys 1
  let y2 ← rd ys 2
  let y3 ← rd ys 3
  let y4 ← rd ys 4
  let x0 ← rd xs 0
  let x4 ← rd xs 4
  let out ← wr out 0 ((-3 * y4 + 16 * y3 - 36 * y2 + 48 * y1 - 25 * y0) / (3 * (x4 - x0)))
  let z1 ← rd ys (n - 1)
  let z2 ← rd ys (n - 2)
  let z3 ← rd ys (n - 3)
  let z4 ← rd ys (n - 4)
  let z5 ← rd ys (n - 5)
  let w1 ← rd xs (n - 1)
  let w5 ← rd xs (n - 5)
  let out ← wr out (n - 2) ((-3 * z1 - 10 * z2 + 18 * z3 - 6 * z4 + z5) / (3 * (w5 - w1)))
  let out ← wr out 1 ((-3 * y0 - 10 * y1 + 18 * y2 - 6 * y3 + y4) / (3 * (x4 - x0)))
  wr out (n - 1) ((-3 * z5 + 16 * z4 - 36 * z3 + 48 * z2 - 25 * z1) / (3 * (w5 - w1)))

/-- `math/calc/deriv.go:22-62` (`Deriv`); `out` is the buffer given by the option `Out` (lines 10-16), if
any.  The buffer is assumed not to share memory with `xs` or `ys`.  Floats are exact; a zero denominator
(which gives an infinity or NaN in Go) gives 0 here. -/
def deriv (xs ys : List ℚ) (order : Int) (out : Option (List ℚ)) : Option (List ℚ) :=
  let n := xs.length
  let out := match out with
    | none => List.replicate n 0
    | some out => out
  if ys.length ≠ n then none
  else if out.length ≠ n then none
  else if order = 0 then
    forRange 0 n (fun i out => do
      let x ← rd xs i
      wr out i x) out
  else if order = 2 then deriv2 xs ys out
  else if order = 4 then deriv4 xs ys out
  else none

end Verif.Calc
