import Verif.Interp.CubicAllModel

/-!
# Model of interpolation and tridiagonal solving with results that share memory with arguments

`math/interpolate`. One list stands for a slice that is both an argument and the result.
-/

set_option autoImplicit false

namespace Verif.Interp

open Verif.Go

/-- One turn of the loops of `EvalAll`, `math/interpolate/linear_interpolators.go:62-64`, `190` and `320`,
`math/interpolate/spline.go:103`, `math/interpolate/cubic_interpolators.go:103` and `270`: `pt out i` reads the arguments of
call `i` when the output slice holds `out`. -/
def evalTurnShared {σ α : Type} (eval : σ → α → σ × Option ℚ) (pt : List ℚ → Int → Option α) (i : Int)
    (st : σ × List ℚ) : Option (σ × List ℚ) := do
  let p ← pt st.2 i
  let v ← (eval st.1 p).2
  let out ← wr st.2 i v
  some ((eval st.1 p).1, out)

/-- The body shared by the `EvalAll` methods when the output slice `out` is one of the arguments, of length `n`.
`math/interpolate/linear_interpolators.go:61-65`, `188-192` and `318-322`, `math/interpolate/spline.go:95-105`,
`math/interpolate/cubic_interpolators.go:101-105` and `268-272`. -/
def evalAllShared {σ α : Type} (eval : σ → α → σ × Option ℚ) (n : Nat) (pt : List ℚ → Int → Option α) (out : List ℚ)
    (s : σ) : Option (σ × List ℚ) :=
  forRange 0 n (evalTurnShared eval pt) (s, out)

/-- The contents of a slice: those of the output if the two share memory. Used for
`math/interpolate/spline.go:268-283`. -/
def share (shared : Bool) (own out : List ℚ) : List ℚ := if shared then out else own

/-- `math/interpolate/spline.go:274-283`, as `triForward`; `sa`, `sb`, `sc`, `sr` say which arguments share memory with
`out`. -/
def triForwardShared (sa sb sc sr : Bool) (as bs cs rs : List ℚ) (i : Int) (s : List ℚ × ℚ × List ℚ) :
    Option (List ℚ × ℚ × List ℚ) := do
  let (tmp, beta, out) := s
  let c ← rd (share sc cs out) (i - 1)
  let tmp ← wr tmp i (c / beta)
  let b ← rd (share sb bs out) i
  let a ← rd (share sa as out) i
  let t ← rd tmp i
  let beta := b - a * t
  if beta = 0 then none
  else do
    let r ← rd (share sr rs out) i
    let o ← rd out (i - 1)
    let out ← wr out i ((r - a * o) / beta)
    some (tmp, beta, out)

/-- `math/interpolate/spline.go:259-288` (`TriDiagAt`), as `triDiagAt`, with shared slices. -/
def triDiagAtShared (sa sb sc sr : Bool) (as bs cs rs out : List ℚ) : Option (List ℚ) :=
  if as.length ≠ bs.length ∨ as.length ≠ cs.length ∨ as.length ≠ out.length ∨
      as.length ≠ rs.length then none
  else do
    let tmp := List.replicate as.length (0 : ℚ)
    let beta ← rd (share sb bs out) 0
    if beta = 0 then none
    else do
      let r ← rd (share sr rs out) 0
      let out ← wr out 0 (r / beta)
      let (tmp, _, out) ← forRange 1 out.length (triForwardShared sa sb sc sr as bs cs rs) (tmp, beta, out)
      forDown ((out.length : Int) - 2) 0 (triBackward tmp) out

/-- `math/interpolate/filter.go:86-135` (`ConvolveAt`) with `out` the same slice as `xs`. -/
def Kernel.convolveSelf (k : Kernel) (xs : List ℚ) (b : Boundary) : Option (List ℚ) := do
  let n : Int := xs.length
  let nl := k.center
  let nr := (k.cs.length : Int) - 1 - k.center
  let out ← forRange 0 (nl + 1) (fun i out => do
    let s ← k.sumAt (leftGet b out) i
    wr out i s) xs
  let out ← forRange (nl + 1) (n - nr) (fun i out => do
    let s ← k.sumAt (rd out) i
    wr out i s) out
  forRange (n - nr) n (fun i out => do
    let s ← k.sumAt (rightGet b out) i
    wr out i s) out

end Verif.Interp
