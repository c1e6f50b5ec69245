import Verif.Interp.RoundModel

/-!
# Model of tridiagonal systems and splines with rounding

`math/interpolate/spline.go` with the arithmetic as a parameter (`FP`), as in `RoundModel.lean`: every operation is rounded,
and the compiler may fuse a product with a sum or a difference. Comparisons and changes of sign are exact. The loops,
the checks and the search are those of `Model.lean`.
-/

set_option autoImplicit false

namespace Verif.Interp

open Verif.Go Verif.Mat

/-- `math/interpolate/spline.go:274-283`: body of the forward loop; state `(tmp, beta, out)`. -/
def triForwardR (f : FP) (as bs cs rs : List ℚ) (i : Int) (s : List ℚ × ℚ × List ℚ) :
    Option (List ℚ × ℚ × List ℚ) := do
  let (tmp, beta, out) := s
  let c ← rd cs (i - 1)
  let tmp ← wr tmp i (f.fl (c / beta))
  let b ← rd bs i
  let a ← rd as i
  let t ← rd tmp i
  let beta := f.mac b (-a) t
  if beta = 0 then none
  else do
    let r ← rd rs i
    let o ← rd out (i - 1)
    let out ← wr out i (f.fl (f.mac r (-a) o / beta))
    some (tmp, beta, out)

/-- `math/interpolate/spline.go:285-287`: body of the backward loop. -/
def triBackwardR (f : FP) (tmp : List ℚ) (i : Int) (out : List ℚ) : Option (List ℚ) := do
  let o ← rd out i
  let t ← rd tmp (i + 1)
  let o1 ← rd out (i + 1)
  wr out i (f.mac o (-t) o1)

/-- `math/interpolate/spline.go:259-288` (`TriDiagAt`). -/
def triDiagAtR (f : FP) (as bs cs rs out : List ℚ) : Option (List ℚ) :=
  if as.length ≠ bs.length ∨ as.length ≠ cs.length ∨ as.length ≠ out.length ∨
      as.length ≠ rs.length then none
  else do
    let tmp := List.replicate as.length (0 : ℚ)
    let beta ← rd bs 0
    if beta = 0 then none
    else do
      let r ← rd rs 0
      let out ← wr out 0 (f.fl (r / beta))
      let (tmp, _, out) ← forRange 1 out.length (triForwardR f as bs cs rs) (tmp, beta, out)
      forDown ((out.length : Int) - 2) 0 (triBackwardR f tmp) out

/-- `math/interpolate/spline.go:207-216`: filling the tridiagonal system, one row per iteration; state
`(as, bs, cs, rs)`. -/
def y2RowR (f : FP) (xs ys : List ℚ) (i : Int) (s : List ℚ × List ℚ × List ℚ × List ℚ) :
    Option (List ℚ × List ℚ × List ℚ × List ℚ) := do
  let (as, bs, cs, rs) := s
  let j := i + 1
  let xj ← rd xs j
  let xm ← rd xs (j - 1)
  let xp ← rd xs (j + 1)
  let yj ← rd ys j
  let ym ← rd ys (j - 1)
  let yp ← rd ys (j + 1)
  let as ← wr as i (f.fl (f.fl (xj - xm) / 6))
  let bs ← wr bs i (f.fl (f.fl (xp - xm) / 3))
  let cs ← wr cs i (f.fl (f.fl (xp - xj) / 6))
  let rs ← wr rs i (f.fl (f.fl (f.fl (yp - yj) / f.fl (xp - xj)) - f.fl (f.fl (yj - ym) / f.fl (xj - xm))))
  some (as, bs, cs, rs)

/-- `math/interpolate/spline.go:196-219` (`calcY2s`). -/
def calcY2sR (f : FP) (xs ys y2s : List ℚ) : Option (List ℚ) :=
  let n : Int := xs.length
  if n - 2 < 0 then none
  else do
    let z := List.replicate (n - 2).toNat (0 : ℚ)
    let y2s ← wr y2s 0 0
    let y2s ← wr y2s (n - 1) 0
    let (as, bs, cs, rs) ← forRange 0 (n - 2) (y2RowR f xs ys) (z, z, z, z)
    let mid ← triDiagAtR f as bs cs rs ((y2s.drop 1).take (n - 2).toNat)
    some (y2s.take 1 ++ mid ++ y2s.drop (n - 1).toNat)

/-- `math/interpolate/spline.go:221-230` (`calcCoeffs`). -/
def calcCoeffsR (f : FP) (xs ys y2s : List ℚ) (coeffs : List Coeff) : Option (List Coeff) :=
  forRange 0 coeffs.length (fun i coeffs => do
    let x1 ← rd xs (i + 1)
    let x0 ← rd xs i
    let dx := f.fl (x1 - x0)
    let s0 ← rd y2s i
    let s1 ← rd y2s (i + 1)
    let y1 ← rd ys (i + 1)
    let y0 ← rd ys i
    wr coeffs i
      { a := f.fl (f.fl (f.fl (-s0 / 6) + f.fl (s1 / 6)) / dx)
        b := f.fl (s0 / 2)
        c := f.mac (f.fl (f.fl (y1 - y0) / dx)) dx (f.fl (f.fl (-s0 / 3) - f.fl (s1 / 6)))
        d := y0 }) coeffs

/-- `math/interpolate/spline.go:49-75` (`Init`). -/
def Spline.initR (f : FP) (sp : Spline) (xs ys : List ℚ) : Option Spline :=
  if xs.length ≠ sp.xs.length ∨ ys.length ≠ sp.ys.length then none
  else do
    let a ← rd xs 0
    let b ← rd xs 1
    let incr := decide (a < b)
    checkSorted xs (if incr then (fun b a => decide (b < a)) else (fun b a => decide (b > a)))
    let l ← rd xs ((xs.length : Int) - 1)
    let dx := f.fl (f.fl (l - a) / (((xs.length : Int) - 1 : Int) : ℚ))
    let y2s ← calcY2sR f xs ys sp.y2s
    let coeffs ← calcCoeffsR f xs ys y2s sp.coeffs
    some { xs := xs, ys := ys, y2s := y2s, coeffs := coeffs, incr := incr, dx := dx }

/-- `math/interpolate/spline.go:28-46` (`NewSpline`). -/
def newSplineR (f : FP) (xs ys : List ℚ) : Option Spline :=
  if xs.length ≠ ys.length then none
  else if xs.length ≤ 1 then none
  else
    Spline.initR f { xs := xs, ys := ys, y2s := List.replicate xs.length 0,
                     coeffs := List.replicate (xs.length - 1) ⟨0, 0, 0, 0⟩, incr := false, dx := 0 } xs ys

/-- `math/interpolate/spline.go:166-192` (`bsearch`). -/
def Spline.bsearchR (f : FP) (sp : Spline) (x : ℚ) : Option Int := do
  let a ← rd sp.xs 0
  sp.bsearchWith x (trunc (f.fl (f.fl (x - a) / sp.dx)))

/-- The cubic of `math/interpolate/spline.go:92` and `121`. Of the first two products the compiler may fuse either with the
sum; `left` says that it is the first one. -/
def cubicR (f : FP) (left : Bool) (k : Coeff) (dx : ℚ) : ℚ :=
  let a2 := f.fl (f.fl (k.a * dx) * dx)
  let b1 := f.fl (k.b * dx)
  let s := if left then f.mac (f.fl (b1 * dx)) a2 dx else f.mac (f.fl (a2 * dx)) b1 dx
  f.fl (f.mac s k.c dx + k.d)

/-- `math/interpolate/spline.go:80-93` (`Eval`). -/
def Spline.evalR (f : FP) (left : Bool) (sp : Spline) (x : ℚ) : Option ℚ := do
  let a ← rd sp.xs 0
  let l ← rd sp.xs ((sp.xs.length : Int) - 1)
  if decide (x ≤ a) = sp.incr ∨ decide (x ≥ l) = sp.incr then
    if x = a then rd sp.ys 0
    else if x = l then rd sp.ys ((sp.ys.length : Int) - 1)
    else none
  else do
    let i ← sp.bsearchR f x
    let xi ← rd sp.xs i
    let dx := f.fl (x - xi)
    let k ← rd sp.coeffs i
    some (cubicR f left k dx)

end Verif.Interp
