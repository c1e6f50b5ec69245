import Verif.Go.Slice
import Verif.Go.Loops
import Mathlib.Algebra.Order.Ring.Rat
import Mathlib.Algebra.Field.Rat

/-!
Model of `math/mat/mat.go`.

`float64` is `ℚ` (exact arithmetic). Matrices are passed as values; a method that writes to a matrix returns
it. Writing to a matrix that is also an input (`m1.MultAt(m2, m1)`) is not modelled, except for the
right hand sides of `SolveVector` and `SolveMatrix`, which the code says may alias.
-/

set_option autoImplicit false

namespace Verif.Mat

open Verif.Go

/-- `Matrix` (mat.go:16-19). Width and height are natural numbers: `Init` rejects negative ones. -/
structure Matrix where
  vals : List ℚ
  width : Nat
  height : Nat
deriving DecidableEq

/-- `LUFactors` (mat.go:24-28); `lu` is a square matrix, of which only the width is kept. -/
structure LUFactors where
  lu : List ℚ
  n : Nat
  pivot : List Int
  d : ℚ
deriving DecidableEq

/-- `NewMatrix`, `Init` (mat.go:31-49). -/
def newMatrix (vals : List ℚ) (width height : Int) : Option Matrix :=
  if width ≤ 0 then none
  else if height ≤ 0 then none
  else if width * height ≠ vals.length then none
  else some ⟨vals, width.toNat, height.toNat⟩

/-- `MultAt` (mat.go:60-79). The line `for i := range out.Vals { out.Vals[i] = 0 }` is `replicate`. -/
def Matrix.multAt (m1 m2 out : Matrix) : Option Matrix :=
  if m1.width ≠ m2.height then none
  else do
    let vals ← forRange 0 m1.height (fun i vals =>
      forRange 0 m2.width (fun j vals =>
        forRange 0 m1.width (fun k vals => do
          let o ← rd vals (i * m1.width + j)
          let a ← rd m1.vals (i * m1.width + k)
          let b ← rd m2.vals (k * m2.width + j)
          wr vals (i * m1.width + j) (o + a * b)) vals) vals) (List.replicate out.vals.length 0)
    some { out with vals := vals }

/-- `Mult` (mat.go:52-56). -/
def Matrix.mult (m1 m2 : Matrix) : Option Matrix := do
  let out ← newMatrix (List.replicate (m1.height * m2.width) 0) m2.width m1.height
  m1.multAt m2 out

/-- `MultVec` (mat.go:82-95). `offset` is `j * width`, which is what the running sum amounts to; it is kept
as a loop variable here. -/
def multVec (m : Matrix) (v out : List ℚ) : Option (List ℚ) :=
  if m.height ≠ out.length ∨ m.width ≠ v.length then none
  else do
    let r ← forRange 0 m.height (fun j (s : List ℚ × Int) => do
      let out ← forRange 0 m.width (fun i out => do
        let o ← rd out j
        let a ← rd m.vals (s.2 + i)
        let x ← rd v i
        wr out j (o + a * x)) s.1
      some (out, s.2 + m.width)) (List.replicate out.length 0, 0)
    some r.1

/-- `VecMult` (mat.go:98-110). -/
def vecMult (v : List ℚ) (m : Matrix) (out : List ℚ) : Option (List ℚ) :=
  if m.height ≠ v.length ∨ m.width ≠ out.length then none
  else
    forRange 0 m.width (fun i out => do
      let sum ← forRange 0 m.height (fun j sum => do
        let x ← rd v j
        let a ← rd m.vals (i + m.width * j)
        some (sum + x * a)) 0
      wr out i sum) (List.replicate out.length 0)

/-- `baseTranspose` (mat.go:154-168). -/
def baseTranspose (m : List ℚ) (width height mXLow mYLow mXWidth mYWidth outXLow outYLow : Nat)
    (out : List ℚ) : Option (List ℚ) :=
  forRange 0 mYWidth (fun y out =>
    forRange 0 mXWidth (fun x out => do
      let v ← rd m ((mYLow + y) * width + (mXLow + x))
      wr out ((outYLow + x) * height + (outXLow + y)) v) out) out

/-- `recTranspose` (mat.go:125-152), with the blocking threshold `T + 1` as a parameter: a threshold of zero
would recurse for ever. -/
def recTranspose (T : Nat) (m : List ℚ) (width height mXLow mYLow mXWidth mYWidth outXLow outYLow : Nat)
    (out : List ℚ) : Option (List ℚ) :=
  if mXWidth ≤ T + 1 ∧ mYWidth ≤ T + 1 then
    baseTranspose m width height mXLow mYLow mXWidth mYWidth outXLow outYLow out
  else if mXWidth > mYWidth then do
    let out ← recTranspose T m width height mXLow mYLow (mXWidth / 2) mYWidth outXLow outYLow out
    recTranspose T m width height (mXLow + mXWidth / 2) mYLow (mXWidth - mXWidth / 2) mYWidth
      outXLow (outYLow + mXWidth / 2) out
  else do
    let out ← recTranspose T m width height mXLow mYLow mXWidth (mYWidth / 2) outXLow outYLow out
    recTranspose T m width height mXLow (mYLow + mYWidth / 2) mXWidth (mYWidth - mYWidth / 2)
      (outXLow + mYWidth / 2) outYLow out
termination_by mXWidth + mYWidth

/-- `transposeRecWidth` (mat.go:124) is `transposeThreshold + 1`. -/
def transposeThreshold : Nat := 15999999

/-- `TransposeAt` (mat.go:119-122). -/
def Matrix.transposeAtWith (T : Nat) (m out : Matrix) : Option Matrix := do
  let vals ← recTranspose T m.vals m.width m.height 0 0 m.width m.height 0 0 out.vals
  some { out with vals := vals }

/-- `Transpose` (mat.go:112-117). -/
def Matrix.transposeWith (T : Nat) (m : Matrix) : Option Matrix := do
  let out ← newMatrix (List.replicate (m.height * m.width) 0) m.height m.width
  m.transposeAtWith T out

/-- `Transpose` (mat.go:112-124) with the threshold of the code. -/
def Matrix.transpose (m : Matrix) : Option Matrix := m.transposeWith transposeThreshold

/-- The state of `factorizeInPlace` (mat.go:227-242): the entries, `vv`, `imax`, `lu.pivot`, `lu.d`. -/
structure FState where
  m : List ℚ
  vv : List ℚ
  imax : Int
  pivot : List Int
  d : ℚ

/-- The scale of row `i` (mat.go:232-238); `none` is the panic "Singular Matrix.". -/
def rowScale (n : Nat) (m : List ℚ) (i : Int) : Option ℚ := do
  let big ← forRange 0 n (fun j big => do
    let x ← rd m (i * n + j)
    some (if |x| > big then |x| else big)) 0
  if big = 0 then none else some (1 / big)

/-- The pivot search in column `k` (mat.go:243-250). The state is `big`, `imax`. -/
def findPivot (n : Nat) (m vv : List ℚ) (k : Int) (imax : Int) : Option (ℚ × Int) :=
  forRange k n (fun i (s : ℚ × Int) => do
    let v ← rd vv i
    let x ← rd m (i * n + k)
    some (if v * |x| > s.1 then (v * |x|, i) else s)) (0, imax)

/-- The row exchange (mat.go:252-255). Both right hand sides are read before either is written. -/
def swapRows (n : Nat) (k imax : Int) (m : List ℚ) : Option (List ℚ) :=
  forRange 0 n (fun j m => do
    let a ← rd m (k * n + j)
    let b ← rd m (imax * n + j)
    let m ← wr m (imax * n + j) a
    wr m (k * n + j) b) m

/-- The elimination (mat.go:261-267). -/
def eliminate (n : Nat) (k : Int) (m : List ℚ) : Option (List ℚ) :=
  forRange (k + 1) n (fun i m => do
    let a ← rd m (i * n + k)
    let p ← rd m (k * n + k)
    let m ← wr m (i * n + k) (a / p)
    let tmp ← rd m (i * n + k)
    forRange (k + 1) n (fun j m => do
      let x ← rd m (i * n + j)
      let y ← rd m (k * n + j)
      wr m (i * n + j) (x - tmp * y)) m) m

/-- The exchange of row `k` with the pivot row (mat.go:251-258). -/
def exchange (n : Nat) (k imax : Int) (s : FState) : Option FState :=
  if k ≠ imax then do
    let m ← swapRows n k imax s.m
    let v ← rd s.vv k
    let vv ← wr s.vv imax v
    some { s with m := m, vv := vv, d := -s.d }
  else some s

/-- The replacement of a zero pivot (mat.go:260). -/
def fixPivot (n : Nat) (k : Int) (m : List ℚ) : Option (List ℚ) := do
  let p ← rd m (k * n + k)
  if p = 0 then wr m (k * n + k) (1 / 10 ^ 20) else some m

/-- One column (mat.go:243-267). -/
def luStep (n : Nat) (k : Int) (s : FState) : Option FState := do
  let r ← findPivot n s.m s.vv k s.imax
  let s ← exchange n k r.2 s
  let pivot ← wr s.pivot k r.2
  let m ← fixPivot n k s.m
  let m ← eliminate n k m
  some { s with m := m, imax := r.2, pivot := pivot }

/-- `factorizeInPlace` (mat.go:227-269). `pivot` is the old contents of `lu.pivot`. -/
def factorize (n : Nat) (m : List ℚ) (pivot : List Int) : Option LUFactors := do
  let vv ← forRange 0 n (fun i vv => do
    let s ← rowScale n m i
    wr vv i s) (List.replicate n 0)
  let s ← forRange 0 n (luStep n) ⟨m, vv, 0, pivot, 1⟩
  some ⟨s.m, n, s.pivot, s.d⟩

/-- `NewLUFactors` (mat.go:198-206). -/
def newLUFactors (n : Nat) : LUFactors := ⟨List.replicate (n * n) 0, n, List.replicate n 0, 1⟩

/-- Go's `copy(dst, src)`. math/mat/mat.go 223 and 286. -/
def goCopy (dst src : List ℚ) : List ℚ := src.take dst.length ++ dst.drop src.length

/-- `LUFactorsAt` (mat.go:219-225). -/
def Matrix.luFactorsAt (m : Matrix) (luf : LUFactors) : Option LUFactors :=
  if luf.n ≠ m.width ∨ luf.n ≠ m.height then none
  else factorize luf.n (goCopy luf.lu m.vals) luf.pivot

/-- `LU` (mat.go:209-215). -/
def Matrix.LU (m : Matrix) : Option LUFactors :=
  if m.width ≠ m.height then none
  else m.luFactorsAt (newLUFactors m.width)

/-- `forwardSubst` (mat.go:299-310). -/
def forwardSubst (n : Nat) (pivot : List Int) (lu bs ys : List ℚ) : Option (List ℚ) := do
  let ys ← forRange 0 n (fun i ys => do
    let p ← rd pivot i
    let b ← rd bs i
    wr ys p b) ys
  forRange 0 n (fun i ys => do
    let sum ← forRange 0 i (fun j sum => do
      let l ← rd lu (i * n + j)
      let y ← rd ys j
      some (sum + l * y)) 0
    let y ← rd ys i
    wr ys i (y - sum)) ys

/-- `backSubst` (mat.go:314-322). The only caller passes the same slice for `ys` and `xs`. -/
def backSubst (n : Nat) (lu xs : List ℚ) : Option (List ℚ) :=
  forDown ((n : Int) - 1) 0 (fun i xs => do
    let sum ← forRange (i + 1) n (fun j sum => do
      let l ← rd lu (i * n + j)
      let x ← rd xs j
      some (sum + l * x)) 0
    let y ← rd xs i
    let l ← rd lu (i * n + i)
    wr xs i ((y - sum) / l)) xs

/-- `LUFactors.SolveVector` (mat.go:274-295). `xs` is the old contents of the result slice; when the two
slices are the same memory the code copies the right hand side first, which is `solveVector bs bs` here.
`&bs[0]` panics for empty slices. -/
def LUFactors.solveVector (luf : LUFactors) (bs xs : List ℚ) : Option (List ℚ) :=
  if luf.n ≠ bs.length then none
  else if luf.n ≠ xs.length then none
  else if luf.n = 0 then none
  else do
    let ys ← forwardSubst luf.n luf.pivot luf.lu bs xs
    backSubst luf.n luf.lu ys

/-- `Matrix.SolveVector` (mat.go:184-188). -/
def Matrix.solveVector (m : Matrix) (bs : List ℚ) : Option (List ℚ) := do
  let lu ← m.LU
  lu.solveVector bs (List.replicate bs.length 0)

/-- `LUFactors.SolveMatrix` (mat.go:327-354). Only the shape of `b` is looked at. -/
def LUFactors.solveMatrix (luf : LUFactors) (b x : Matrix) : Option Matrix :=
  if b.width ≠ b.height then none
  else if x.width ≠ x.height then none
  else if luf.n ≠ b.width then none
  else if luf.n ≠ x.width then none
  else do
    let n := luf.n
    let r ← forRange 0 n (fun j (s : List ℚ × List ℚ) => do
      let col ← forRange 0 n (fun i col => do
        let v ← rd s.1 (i * n + j)
        wr col i v) s.2
      let col ← luf.solveVector col col
      let xs ← forRange 0 n (fun i xs => do
        let c ← rd col i
        wr xs (i * n + j) c) s.1
      some (xs, col)) (x.vals, List.replicate n 0)
    some { x with vals := r.1 }

/-- `LUFactors.InvertAt` (mat.go:358-375). `b` and `x` are the same matrix in the call to `SolveMatrix`. -/
def LUFactors.invertAt (luf : LUFactors) (out : Matrix) : Option Matrix :=
  if out.width ≠ out.height then none
  else if luf.n ≠ out.width then none
  else do
    let vals ← forRange 0 luf.n (fun i vals => wr vals (i * luf.n + i) 1) (List.replicate out.vals.length 0)
    luf.solveMatrix { out with vals := vals } { out with vals := vals }

/-- `Matrix.Invert` (mat.go:171-175). -/
def Matrix.invert (m : Matrix) : Option Matrix := do
  let lu ← m.LU
  let inv ← newMatrix (List.replicate m.vals.length 0) m.width m.height
  lu.invertAt inv

/-- `Matrix.SolveMatrix` (mat.go:191-195). -/
def Matrix.solveMatrix (m b : Matrix) : Option Matrix := do
  let x ← newMatrix (List.replicate m.vals.length 0) m.width m.height
  let lu ← m.LU
  lu.solveMatrix b x

/-- `LUFactors.Determinant` (mat.go:379-388). -/
def LUFactors.determinant (luf : LUFactors) : Option ℚ :=
  forRange 0 luf.n (fun i d => do
    let x ← rd luf.lu (i * luf.n + i)
    some (d * x)) luf.d

/-- `Matrix.Determinant` (mat.go:178-181). -/
def Matrix.determinant (m : Matrix) : Option ℚ := do
  let lu ← m.LU
  lu.determinant

end Verif.Mat
