import Verif.Interp.SavGolModel
import Verif.Interp.RoundKernelModel

/-!
# Model of the Savitzky-Golay kernels with rounding

`math/interpolate/filter.go:182-272` with the arithmetic as a parameter (`FP`). `pow` stands for `math.Pow` and is an arbitrary
function.
-/

set_option autoImplicit false

namespace Verif.Interp

open Verif.Go Verif.Mat

/-- The sum of `math/interpolate/filter.go:239-243`. -/
def powerSumR (f : FP) (pow : ℚ → ℕ → ℚ) (n ipj : ℤ) : Option ℚ := do
  let sum : ℚ := if ipj = 0 then 1 else 0
  let sum ← forRange 1 (n + 1) (fun k sum => some (f.fl (sum + pow k ipj.toNat))) sum
  forRange 1 (n + 1) (fun k sum => some (f.fl (sum + pow (-k) ipj.toNat))) sum

/-- The matrix of `math/interpolate/filter.go:231-251`, of `m + 1` rows. The loop over `imj`, which advances by two from
`-mm` to `mm`, is counted. -/
def savgolMatrixR (f : FP) (pow : ℚ → ℕ → ℚ) (n m : ℤ) : Option (List ℚ) :=
  forRange 0 (m * 2 + 1) (fun ipj vals => do
    let sum ← powerSumR f pow n ipj
    let mm := 2 * m - ipj
    let mm := if mm > ipj then ipj else mm
    forRange 0 (mm + 1) (fun t vals =>
      let imj := -mm + 2 * t
      let i := (ipj + imj).tdiv 2
      let j := (ipj - imj).tdiv 2
      wr vals (j * (m + 1) + i) sum) vals) (List.replicate ((m + 1) * (m + 1)).toNat 0)

/-- One weight, `math/interpolate/filter.go:259-263`. The state is `sum`, `fac`. -/
def savgolWeightR (f : FP) (b : List ℚ) (m i : ℤ) : Option ℚ := do
  let b0 ← rd b 0
  let r ← forRange 1 (m + 1) (fun mm (s : ℚ × ℚ) => do
    let x ← rd b mm
    let fac := f.fl (s.2 * i)
    some (f.mac s.1 x fac, fac)) (b0, 1)
  some r.1

/-- `savgol`, `math/interpolate/filter.go:228-266`, for a slice of `len` weights; the new weights. `SolveVector` is called with
the same slice twice. -/
def savgolR (f : FP) (pow : ℚ → ℕ → ℚ) (len : ℕ) (m ld : ℤ) : Option (List ℚ) := do
  let n : ℤ := (len : ℤ).tdiv 2
  let a ← newMatrix (List.replicate ((m + 1) * (m + 1)).toNat 0) (m + 1) (m + 1)
  let vals ← savgolMatrixR f pow n m
  let lu ← Matrix.LUR f { a with vals := vals }
  let b ← wr (List.replicate (m + 1).toNat 0) ld 1
  let b ← lu.solveVectorR f b b
  forRange (-n) (n + 1) (fun i cs => do
    let s ← savgolWeightR f b m i
    wr cs (i + n) s) (List.replicate len 0)

/-- `NewSavGolKernel`, `math/interpolate/filter.go:182-195`. -/
def newSavGolR (f : FP) (pow : ℚ → ℕ → ℚ) (order width : ℤ) : Option Kernel :=
  if width.tmod 2 ≠ 1 then none
  else if width ≤ order then none
  else do
    let cs ← savgolR f pow width.toNat order 0
    some ⟨cs, width.tdiv 2⟩

/-- `NewSavGolDerivKernel`, `math/interpolate/filter.go:208-226`. A negative `dOrder` has panicked before `math.Pow` is
reached. -/
def newSavGolDerivR (f : FP) (pow : ℚ → ℕ → ℚ) (dx : ℚ) (dOrder pOrder width : ℤ) : Option Kernel :=
  if width.tmod 2 ≠ 1 then none
  else if dOrder > pOrder then none
  else if width ≤ pOrder then none
  else do
    let cs ← savgolR f pow width.toNat pOrder dOrder
    let fact ← factorial dOrder
    some ⟨cs.map (fun c => f.fl (c * f.fl (f.fl fact / pow dx dOrder.toNat))), width.tdiv 2⟩

end Verif.Interp
