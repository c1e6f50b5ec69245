import Verif.Mat.Model
import Verif.Go.Float

/-!
Model of `math/mat/mat.go` and `math/mat/mat32.go` with rounding.

The text of the two files is the same for what is modelled here, apart from the type of the numbers, so the arithmetic is a
parameter. Comparisons, absolute values and changes of sign are exact. The compiler may fuse a product with a sum or a
difference; here it does so everywhere or nowhere.
-/

set_option autoImplicit false

namespace Verif.Mat

open Verif.Go

/-- The arithmetic: rounding of the result of an operation, and `c + a * b`. math/mat/mat.go 75, 246, 265 and others. -/
structure FP where
  fl : ℚ → ℚ
  mac : ℚ → ℚ → ℚ → ℚ

/-- Numbers of `p` bits, with or without fused operations: `float64` (mat.go) has 53 bits, `float32` (mat32.go) has 24. -/
def fp (p : ℕ) (fused : Bool) : FP := ⟨rnd p, fun c a b => mulAdd fused p a b c⟩

/-- Exact arithmetic, as in `Model.lean` (mat.go). -/
def exactFP : FP := ⟨id, fun c a b => c + a * b⟩

/-- `MultAt` (mat.go:60-79, mat32.go:53-72). -/
def Matrix.multAtR (f : FP) (m1 m2 out : Matrix) : Option Matrix :=
  if m1.width ≠ m2.height then none
  else do
    let vals ← forRange 0 m1.height (fun i vals =>
      forRange 0 m2.width (fun j vals =>
        forRange 0 m1.width (fun k vals => do
          let o ← rd vals (i * m1.width + j)
          let a ← rd m1.vals (i * m1.width + k)
          let b ← rd m2.vals (k * m2.width + j)
          wr vals (i * m1.width + j) (f.mac o a b)) vals) vals) (List.replicate out.vals.length 0)
    some { out with vals := vals }

/-- `Mult` (mat.go:52-56, mat32.go:45-49). -/
def Matrix.multR (f : FP) (m1 m2 : Matrix) : Option Matrix := do
  let out ← newMatrix (List.replicate (m1.height * m2.width) 0) m2.width m1.height
  m1.multAtR f m2 out

/-- `MultVec` (mat.go:82-95). -/
def multVecR (f : FP) (m : Matrix) (v out : List ℚ) : Option (List ℚ) :=
  if m.height ≠ out.length ∨ m.width ≠ v.length then none
  else do
    let r ← forRange 0 m.height (fun j (s : List ℚ × Int) => do
      let out ← forRange 0 m.width (fun i out => do
        let o ← rd out j
        let a ← rd m.vals (s.2 + i)
        let x ← rd v i
        wr out j (f.mac o a x)) s.1
      some (out, s.2 + m.width)) (List.replicate out.length 0, 0)
    some r.1

/-- `VecMult` (mat.go:98-110). -/
def vecMultR (f : FP) (v : List ℚ) (m : Matrix) (out : List ℚ) : Option (List ℚ) :=
  if m.height ≠ v.length ∨ m.width ≠ out.length then none
  else
    forRange 0 m.width (fun i out => do
      let sum ← forRange 0 m.height (fun j sum => do
        let x ← rd v j
        let a ← rd m.vals (i + m.width * j)
        some (f.mac sum x a)) 0
      wr out i sum) (List.replicate out.length 0)

/-- The scale of row `i` (mat.go:232-238, mat32.go:136-142). -/
def rowScaleR (f : FP) (n : Nat) (m : List ℚ) (i : Int) : Option ℚ := do
  let big ← forRange 0 n (fun j big => do
    let x ← rd m (i * n + j)
    some (if |x| > big then |x| else big)) 0
  if big = 0 then none else some (f.fl (1 / big))

/-- The pivot search in column `k` (mat.go:243-250, mat32.go:147-154). -/
def findPivotR (f : FP) (n : Nat) (m vv : List ℚ) (k : Int) (imax : Int) : Option (ℚ × Int) :=
  forRange k n (fun i (s : ℚ × Int) => do
    let v ← rd vv i
    let x ← rd m (i * n + k)
    some (if f.fl (v * |x|) > s.1 then (f.fl (v * |x|), i) else s)) (0, imax)

/-- The elimination (mat.go:261-267, mat32.go:165-171). -/
def eliminateR (f : FP) (n : Nat) (k : Int) (m : List ℚ) : Option (List ℚ) :=
  forRange (k + 1) n (fun i m => do
    let a ← rd m (i * n + k)
    let p ← rd m (k * n + k)
    let m ← wr m (i * n + k) (f.fl (a / p))
    let tmp ← rd m (i * n + k)
    forRange (k + 1) n (fun j m => do
      let x ← rd m (i * n + j)
      let y ← rd m (k * n + j)
      wr m (i * n + j) (f.mac x (-tmp) y)) m) m

/-- The replacement of a zero pivot (mat.go:260, mat32.go:164). -/
def fixPivotR (f : FP) (n : Nat) (k : Int) (m : List ℚ) : Option (List ℚ) := do
  let p ← rd m (k * n + k)
  if p = 0 then wr m (k * n + k) (f.fl (1 / 10 ^ 20)) else some m

/-- One column (mat.go:243-267, mat32.go:147-171). -/
def luStepR (f : FP) (n : Nat) (k : Int) (s : FState) : Option FState := do
  let r ← findPivotR f n s.m s.vv k s.imax
  let s ← exchange n k r.2 s
  let pivot ← wr s.pivot k r.2
  let m ← fixPivotR f n k s.m
  let m ← eliminateR f n k m
  some { s with m := m, imax := r.2, pivot := pivot }

/-- `factorizeInPlace` (mat.go:227-269, mat32.go:131-173). -/
def factorizeR (f : FP) (n : Nat) (m : List ℚ) (pivot : List Int) : Option LUFactors := do
  let vv ← forRange 0 n (fun i vv => do
    let s ← rowScaleR f n m i
    wr vv i s) (List.replicate n 0)
  let s ← forRange 0 n (luStepR f n) ⟨m, vv, 0, pivot, 1⟩
  some ⟨s.m, n, s.pivot, s.d⟩

/-- `LUFactorsAt` (mat.go:219-225, mat32.go:123-129). -/
def Matrix.luFactorsAtR (f : FP) (m : Matrix) (luf : LUFactors) : Option LUFactors :=
  if luf.n ≠ m.width ∨ luf.n ≠ m.height then none
  else factorizeR f luf.n (goCopy luf.lu m.vals) luf.pivot

/-- `LU` (mat.go:209-215, mat32.go:113-119). -/
def Matrix.LUR (f : FP) (m : Matrix) : Option LUFactors :=
  if m.width ≠ m.height then none
  else m.luFactorsAtR f (newLUFactors m.width)

/-- `forwardSubst` (mat.go:299-310, mat32.go:203-214). -/
def forwardSubstR (f : FP) (n : Nat) (pivot : List Int) (lu bs ys : List ℚ) : Option (List ℚ) := do
  let ys ← forRange 0 n (fun i ys => do
    let p ← rd pivot i
    let b ← rd bs i
    wr ys p b) ys
  forRange 0 n (fun i ys => do
    let sum ← forRange 0 i (fun j sum => do
      let l ← rd lu (i * n + j)
      let y ← rd ys j
      some (f.mac sum l y)) 0
    let y ← rd ys i
    wr ys i (f.fl (y - sum))) ys

/-- `backSubst` (mat.go:314-322, mat32.go:218-226). -/
def backSubstR (f : FP) (n : Nat) (lu xs : List ℚ) : Option (List ℚ) :=
  forDown ((n : Int) - 1) 0 (fun i xs => do
    let sum ← forRange (i + 1) n (fun j sum => do
      let l ← rd lu (i * n + j)
      let x ← rd xs j
      some (f.mac sum l x)) 0
    let y ← rd xs i
    let l ← rd lu (i * n + i)
    wr xs i (f.fl (f.fl (y - sum) / l))) xs

/-- `LUFactors.SolveVector` (mat.go:274-295, mat32.go:178-199). -/
def LUFactors.solveVectorR (f : FP) (luf : LUFactors) (bs xs : List ℚ) : Option (List ℚ) :=
  if luf.n ≠ bs.length then none
  else if luf.n ≠ xs.length then none
  else if luf.n = 0 then none
  else do
    let ys ← forwardSubstR f luf.n luf.pivot luf.lu bs xs
    backSubstR f luf.n luf.lu ys

/-- `LUFactors.Determinant` (mat.go:379-388, mat32.go:283-292). -/
def LUFactors.determinantR (f : FP) (luf : LUFactors) : Option ℚ :=
  forRange 0 luf.n (fun i d => do
    let x ← rd luf.lu (i * luf.n + i)
    some (f.fl (d * x))) luf.d

/-- `Matrix.Determinant` (mat.go:178-181, mat32.go:82-85). -/
def Matrix.determinantR (f : FP) (m : Matrix) : Option ℚ := do
  let lu ← m.LUR f
  lu.determinantR f

/-- `LUFactors.SolveMatrix` (mat.go:327-354, mat32.go:231-258). Only the shape of `b` is looked at. -/
def LUFactors.solveMatrixR (f : FP) (luf : LUFactors) (b x : Matrix) : Option Matrix :=
  if b.width ≠ b.height then none
  else if x.width ≠ x.height then none
  else if luf.n ≠ b.width then none
  else if luf.n ≠ x.width then none
  else do
    let n := luf.n
    let r ← forRange 0 n (fun j (s : List ℚ × List ℚ) => do
      let col ← forRange 0 n (fun i col => do
        let v ← rd s.1 (i * n + j)
        wr col i v) s.2
      let col ← luf.solveVectorR f col col
      let xs ← forRange 0 n (fun i xs => do
        let c ← rd col i
        wr xs (i * n + j) c) s.1
      some (xs, col)) (x.vals, List.replicate n 0)
    some { x with vals := r.1 }

/-- `LUFactors.InvertAt` (mat.go:358-375, mat32.go:262-279). `b` and `x` are the same matrix in the call to `SolveMatrix`. -/
def LUFactors.invertAtR (f : FP) (luf : LUFactors) (out : Matrix) : Option Matrix :=
  if out.width ≠ out.height then none
  else if luf.n ≠ out.width then none
  else do
    let vals ← forRange 0 luf.n (fun i vals => wr vals (i * luf.n + i) 1) (List.replicate out.vals.length 0)
    luf.solveMatrixR f { out with vals := vals } { out with vals := vals }

/-- `Matrix.Invert` (mat.go:171-175, mat32.go:75-79); `NewMatrix` (mat.go:31-49, mat32.go:24-42). -/
def Matrix.invertR (f : FP) (m : Matrix) : Option Matrix := do
  let lu ← m.LUR f
  let inv ← newMatrix (List.replicate m.vals.length 0) m.width m.height
  lu.invertAtR f inv

/-- `Matrix.SolveVector` (mat.go:184-188, mat32.go:88-92). -/
def Matrix.solveVectorR (f : FP) (m : Matrix) (bs : List ℚ) : Option (List ℚ) := do
  let lu ← m.LUR f
  lu.solveVectorR f bs (List.replicate bs.length 0)

/-- `Matrix.SolveMatrix` (mat.go:191-195, mat32.go:95-99). -/
def Matrix.solveMatrixR (f : FP) (m b : Matrix) : Option Matrix := do
  let x ← newMatrix (List.replicate m.vals.length 0) m.width m.height
  let lu ← m.LUR f
  lu.solveMatrixR f b x

end Verif.Mat
