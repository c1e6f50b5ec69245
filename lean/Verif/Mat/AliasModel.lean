import Verif.Mat.Model

/-!
# Model of products and transposes whose result shares memory with an argument

`math/mat/mat.go`. One list stands for a slice that is both an argument and the result.
-/

set_option autoImplicit false

namespace Verif.Mat

open Verif.Go

/-- `MultAt` (mat.go:60-79); `l` and `r` say that the left and the right factor share memory with `out`. -/
def Matrix.multAtShared (l r : Bool) (m1 m2 out : Matrix) : Option Matrix :=
  if m1.width ≠ m2.height then none
  else do
    let vals ← forRange 0 m1.height (fun i vals =>
      forRange 0 m2.width (fun j vals =>
        forRange 0 m1.width (fun k vals => do
          let o ← rd vals (i * m1.width + j)
          let a ← rd (if l then vals else m1.vals) (i * m1.width + k)
          let b ← rd (if r then vals else m2.vals) (k * m2.width + j)
          wr vals (i * m1.width + j) (o + a * b)) vals) vals) (List.replicate out.vals.length 0)
    some { out with vals := vals }

/-- `MultVec` (mat.go:82-95) for a result that is the vector itself. -/
def multVecSelf (m : Matrix) (v : List ℚ) : Option (List ℚ) :=
  if m.height ≠ v.length ∨ m.width ≠ v.length then none
  else do
    let r ← forRange 0 m.height (fun j (s : List ℚ × Int) => do
      let out ← forRange 0 m.width (fun i out => do
        let o ← rd out j
        let a ← rd m.vals (s.2 + i)
        let x ← rd out i
        wr out j (o + a * x)) s.1
      some (out, s.2 + m.width)) (List.replicate v.length 0, 0)
    some r.1

/-- `VecMult` (mat.go:98-110) for a result that is the vector itself. -/
def vecMultSelf (v : List ℚ) (m : Matrix) : Option (List ℚ) :=
  if m.height ≠ v.length ∨ m.width ≠ v.length then none
  else
    forRange 0 m.width (fun i out => do
      let sum ← forRange 0 m.height (fun j sum => do
        let x ← rd out j
        let a ← rd m.vals (i + m.width * j)
        some (sum + x * a)) 0
      wr out i sum) (List.replicate v.length 0)

/-- `TransposeAt` (mat.go:119-122) of a matrix into itself, when neither side is longer than `transposeRecWidth`
(mat.go:124): `baseTranspose` (mat.go:154-168) on one slice. Longer ones (more than 16 million rows or columns) are left
out. -/
def Matrix.transposeSelf (m : Matrix) : Option Matrix := do
  let vals ← forRange 0 m.height (fun y vals =>
    forRange 0 m.width (fun x vals => do
      let v ← rd vals (y * m.width + x)
      wr vals (x * m.height + y) v) vals) m.vals
  some { m with vals := vals }

end Verif.Mat
