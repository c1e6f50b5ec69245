import Verif.Interp.RoundModel

/-!
# Model of smoothing kernels with rounding

`math/interpolate/filter.go` with the arithmetic as a parameter (`FP`). The Savitzky-Golay kernels are not part of it.
-/

set_option autoImplicit false

namespace Verif.Interp

open Verif.Go Verif.Mat

/-- One weighted sum, `math/interpolate/filter.go:92-107`, `110-115`, `118-133`. -/
def Kernel.sumAtR (f : FP) (k : Kernel) (get : Int → Option ℚ) (i : Int) : Option ℚ :=
  forRange 0 k.cs.length (fun j sum => do
    let c ← rd k.cs j
    let x ← get (i + j - k.center)
    some (f.mac sum x c)) 0

/-- `math/interpolate/filter.go:86-135` (`ConvolveAt`); `out` must not share memory with `xs`. -/
def Kernel.convolveAtR (f : FP) (k : Kernel) (xs : List ℚ) (b : Boundary) (out : List ℚ) : Option (List ℚ) := do
  let n : Int := xs.length
  let nl := k.center
  let nr := (k.cs.length : Int) - 1 - k.center
  let out ← forRange 0 (nl + 1) (fun i out => do
    let s ← k.sumAtR f (leftGet b xs) i
    wr out i s) out
  let out ← forRange (nl + 1) (n - nr) (fun i out => do
    let s ← k.sumAtR f (rd xs) i
    wr out i s) out
  forRange (n - nr) n (fun i out => do
    let s ← k.sumAtR f (rightGet b xs) i
    wr out i s) out

/-- `math/interpolate/filter.go:137-141` (`normalize`). -/
def normalizeR (f : FP) (cs : List ℚ) : List ℚ :=
  let sum := cs.foldl (fun s c => f.fl (s + c)) 0
  cs.map (fun c => f.fl (c / sum))

/-- `math/interpolate/filter.go:168-180` (`NewTophatKernel`). -/
def newTophatR (f : FP) (width : Int) : Option Kernel :=
  if width.tmod 2 ≠ 1 then none
  else
    let cs := List.replicate width.toNat (1 : ℚ)
    some { cs := normalizeR f cs, center := width.tdiv 2 }

/-- `math/interpolate/filter.go:145-165` (`NewGaussianKernel`); `exp` stands for `math.Exp` and is an arbitrary function. -/
def newGaussianR (f : FP) (exp : ℚ → ℚ) (width : Int) (sigma dx : ℚ) : Option Kernel :=
  if width.tmod 2 ≠ 1 then none
  else do
    let center := width.tdiv 2
    let cs := List.replicate width.toNat (0 : ℚ)
    let cs ← forRange 0 (center + 1) (fun i cs =>
      let x := f.fl (((i - center : Int) : ℚ) * dx)
      wr cs i (exp (f.fl (f.fl (-x * x) / f.fl (f.fl (2 * sigma) * sigma))))) cs
    let cs ← forRange (center + 1) cs.length (fun i cs => do
      let c ← rd cs ((cs.length : Int) - 1 - i)
      wr cs i c) cs
    some { cs := normalizeR f cs, center := center }

end Verif.Interp
