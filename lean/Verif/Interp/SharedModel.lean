import Verif.Interp.Model

/-!
# Model of cubic interpolators used by several goroutines

`math/interpolate/cubic_interpolators.go`. `Eval` has two halves: it brings the interpolator to the given `y` (and `z`),
and then evaluates the spline in `x`. When several goroutines share an interpolator, halves of different calls can
alternate. Finer interleavings (within a half) exist too and are not modelled.
-/

set_option autoImplicit false

namespace Verif.Interp

open Verif.Go

/-- First half of `Eval`, `math/interpolate/cubic_interpolators.go:86-93`: the state afterwards, and whether it got to
its end. -/
def BiCubic.fresh (bi : BiCubic) (y : ℚ) : BiCubic × Bool :=
  if y ≠ bi.lastY then
    let bi := { bi with lastY := y }
    let (vals, ok) := fillVals bi.ySplines y bi.xSplineVals
    let bi := { bi with xSplineVals := vals, xSpline := { bi.xSpline with ys := vals } }
    if ok then
      match bi.xSpline.init bi.xs bi.xSplineVals with
      | none => (bi, false)
      | some sp => ({ bi with xSpline := sp }, true)
    else (bi, false)
  else (bi, true)

/-- `math/interpolate/cubic_interpolators.go:262-270`: the part of the first half of `Eval` after the splines in `y`. -/
def TriCubic.freshY (tri : TriCubic) (y : ℚ) : TriCubic × Bool :=
  let tri := { tri with lastY := y }
  match (tri.ySplines.mapM (fun (sp : Spline) => sp.eval y)).bind (fun vals => tri.xSpline.init tri.xs vals) with
  | none => (tri, false)
  | some sp => ({ tri with xSpline := sp }, true)

/-- First half of `Eval`, `math/interpolate/cubic_interpolators.go:246-271`. -/
def TriCubic.fresh (tri : TriCubic) (y z : ℚ) : TriCubic × Bool :=
  if y ≠ tri.lastY ∨ z ≠ tri.lastZ then
    if z ≠ tri.lastZ then
      let tri := { tri with lastZ := z }
      let (ySplines, ok) := refillY tri.ys z tri.zSplines tri.ySplines
      let tri := { tri with ySplines := ySplines }
      if ok then tri.freshY y else (tri, false)
    else tri.freshY y
  else (tri, true)

/-- Half a call of `Eval`: its first half with the `y` (or `y` and `z`) of the call, its second with the `x`. Lines 85-96
and 246-274 of `math/interpolate/cubic_interpolators.go`. -/
inductive Half (A : Type) where
  | fresh (a : A)
  | read (x : ℚ)

/-- The values returned to the callers, in order, when halves of calls are done in the given order.
`math/interpolate/cubic_interpolators.go:85-96`. -/
def BiCubic.shared (bi : BiCubic) : List (Half ℚ) → List (Option ℚ)
  | [] => []
  | .fresh y :: l => (bi.fresh y).1.shared l
  | .read x :: l => bi.xSpline.eval x :: bi.shared l

/-- As before, for three coordinates. `math/interpolate/cubic_interpolators.go:246-274`. -/
def TriCubic.shared (tri : TriCubic) : List (Half (ℚ × ℚ)) → List (Option ℚ)
  | [] => []
  | .fresh (y, z) :: l => (tri.fresh y z).1.shared l
  | .read x :: l => tri.xSpline.eval x :: tri.shared l

end Verif.Interp
