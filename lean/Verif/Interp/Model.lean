import Verif.Go.Loops

/-!
# Model of `/repo/math/interpolate`

Floats are exact rationals.  A division by zero, which gives an infinity or a NaN in Go, gives 0 here;
the theorems only speak about tables for which no denominator is zero, unless stated otherwise.
-/

namespace Verif.Interp

open Verif.Go

/-! ### Table search -/

/-- `math/interpolate/search.go:7-12`. -/
structure Searcher where
  xs : List ℚ
  x0 : ℚ
  dx : ℚ
  lim : ℚ
  n : Int
  unif : Bool
  incr : Bool
deriving DecidableEq

/-- `math/interpolate/search.go:14-22` (`init`). -/
def Searcher.init (xs : List ℚ) : Option Searcher := do
  let x0 ← rd xs 0
  let lim ← rd xs ((xs.length : Int) - 1)
  let dx := (lim - x0) / (((xs.length : Int) - 1 : Int) : ℚ)
  some { xs := xs, x0 := x0, lim := lim, dx := dx, n := xs.length, unif := false,
         incr := decide (dx > 0) }

/-- `math/interpolate/search.go:24-32` (`unifInit`). -/
def Searcher.unifInit (x0 dx : ℚ) (n : Int) : Searcher :=
  { xs := [], x0 := x0, lim := ((n - 1 : Int) : ℚ) * dx + x0, dx := dx, n := n, unif := true,
    incr := decide (dx > 0) }

/-- The binary search loop, `math/interpolate/search.go:60-68` and, word for word the same,
`math/interpolate/spline.go:176-184`. -/
def bisect (xs : List ℚ) (incr : Bool) (x : ℚ) (lo hi : Nat) : Option Nat :=
  if _h : hi - lo > 1 then do
    let m ← rd xs (((lo + hi) / 2 : Nat) : Int)
    if incr = decide (x ≥ m) then bisect xs incr x ((lo + hi) / 2) hi
    else bisect xs incr x lo ((lo + hi) / 2)
  else some lo
termination_by hi - lo
decreasing_by all_goals omega

/-- The test of the guess, `math/interpolate/search.go:52-54` and `math/interpolate/spline.go:169-171`,
with the short-circuit evaluation of `&&`. -/
def guessOk (xs : List ℚ) (incr : Bool) (x : ℚ) (guess : Int) : Option Bool :=
  if guess ≥ 0 ∧ guess < (xs.length : Int) - 1 then do
    let a ← rd xs guess
    if decide (a ≤ x) = incr then do
      let b ← rd xs (guess + 1)
      some (decide (decide (b ≥ x) = incr))
    else some false
  else some false

/-- `math/interpolate/search.go:49-70`: the search in a general table, for a given guess.  The Go code
computes the guess in floating point; theorems about `tableSearch` hold for every guess. -/
def tableSearch (xs : List ℚ) (n : Int) (incr : Bool) (x : ℚ) (guess : Int) : Option Int := do
  let ok ← guessOk xs incr x guess
  if ok then some guess
  else do
    let i ← bisect xs incr x 0 (n - 1).toNat
    some i

/-- `math/interpolate/search.go:35-71` (`search`). -/
def Searcher.search (s : Searcher) (x : ℚ) : Option Int :=
  if x > s.lim ∨ x < s.x0 then none
  else if s.unif then
    let idx := trunc ((x - s.x0) / s.dx)
    some (if idx = s.n - 1 then idx - 1 else idx)
  else do
    let a ← rd s.xs 0
    tableSearch s.xs s.n s.incr x (trunc ((x - a) / s.dx))

/-- `math/interpolate/search.go:73-79` (`val`). -/
def Searcher.val (s : Searcher) (i : Int) : Option ℚ :=
  if s.unif then some ((i : ℚ) * s.dx + s.x0) else rd s.xs i

/-! ### Linear -/

/-- `math/interpolate/linear_interpolators.go:12-15`. -/
structure Linear where
  xs : Searcher
  vals : List ℚ

/-- `math/interpolate/linear_interpolators.go:22-30` (`NewLinear`). -/
def newLinear (xs vals : List ℚ) : Option Linear :=
  if xs.length ≠ vals.length then none
  else do
    let s ← Searcher.init xs
    some ⟨s, vals⟩

/-- `math/interpolate/linear_interpolators.go:37-42` (`NewUniformLinear`). -/
def newUniformLinear (x0 dx : ℚ) (vals : List ℚ) : Linear :=
  ⟨Searcher.unifInit x0 dx vals.length, vals⟩

/-- `math/interpolate/linear_interpolators.go:47-54` (`Eval`). -/
def Linear.eval (lin : Linear) (x : ℚ) : Option ℚ := do
  let i1 ← lin.xs.search x
  let i2 := i1 + 1
  let x1 ← lin.xs.val i1
  let x2 ← lin.xs.val i2
  let v1 ← rd lin.vals i1
  let v2 ← rd lin.vals i2
  some (((v2 - v1) / (x2 - x1)) * (x - x1) + v1)

/-- The body shared by all `EvalAll` methods with one argument
(`math/interpolate/linear_interpolators.go:61-65`, `math/interpolate/spline.go:95-105`); `out` is the first
optional output slice, which must not share memory with `xs`. -/
def evalAll (eval : ℚ → Option ℚ) (xs : List ℚ) (out : Option (List ℚ)) : Option (List ℚ) :=
  let out := match out with
    | none => List.replicate xs.length 0
    | some o => o
  forRange 0 xs.length (fun i out => do
    let x ← rd xs i
    let v ← eval x
    wr out i v) out

/-! ### BiLinear -/

/-- `math/interpolate/linear_interpolators.go:93-97`. -/
structure BiLinear where
  xs : Searcher
  ys : Searcher
  vals : List ℚ
  nx : Int

/-- `math/interpolate/linear_interpolators.go:105-120` (`NewBiLinear`). -/
def newBiLinear (xs ys vals : List ℚ) : Option BiLinear := do
  let sx ← Searcher.init xs
  let sy ← Searcher.init ys
  if xs.length * ys.length ≠ vals.length then none
  else some ⟨sx, sy, vals, xs.length⟩

/-- `math/interpolate/linear_interpolators.go:128-148` (`NewUniformBiLinear`). -/
def newUniformBiLinear (x0 dx : ℚ) (nx : Int) (y0 dy : ℚ) (ny : Int) (vals : List ℚ) :
    Option BiLinear :=
  if nx * ny ≠ vals.length then none
  else some ⟨Searcher.unifInit x0 dx nx, Searcher.unifInit y0 dy ny, vals, nx⟩

/-- `math/interpolate/linear_interpolators.go:153-181` (`Eval`). -/
def BiLinear.eval (bi : BiLinear) (x y : ℚ) : Option ℚ := do
  let ix1 ← bi.xs.search x
  let iy1 ← bi.ys.search y
  let ix2 := ix1 + 1
  let iy2 := iy1 + 1
  let (ix1, ix2) := if ix2 = bi.xs.n then (ix1 - 1, ix2 - 1) else (ix1, ix2)
  let (iy1, iy2) := if iy2 = bi.ys.n then (iy1 - 1, iy2 - 1) else (iy1, iy2)
  let x1 ← bi.xs.val ix1
  let x2 ← bi.xs.val ix2
  let y1 ← bi.ys.val iy1
  let y2 ← bi.ys.val iy2
  let v11 ← rd bi.vals (ix1 + bi.nx * iy1)
  let v12 ← rd bi.vals (ix1 + bi.nx * iy2)
  let v21 ← rd bi.vals (ix2 + bi.nx * iy1)
  let v22 ← rd bi.vals (ix2 + bi.nx * iy2)
  let dx := x2 - x1
  let dy := y2 - y1
  let dx1 := x - x1
  let dx2 := x2 - x
  let dy1 := y - y1
  let dy2 := y2 - y
  some ((v11 * dx2 * dy2 + v12 * dx2 * dy1 + v21 * dx1 * dy2 + v22 * dx1 * dy1) / (dx * dy))

/-! ### TriLinear -/

/-- `math/interpolate/linear_interpolators.go:222-226`. -/
structure TriLinear where
  xs : Searcher
  ys : Searcher
  zs : Searcher
  vals : List ℚ
  nx : Int
  ny : Int

/-- `math/interpolate/linear_interpolators.go:234-252` (`NewTriLinear`). -/
def newTriLinear (xs ys zs vals : List ℚ) : Option TriLinear := do
  let sx ← Searcher.init xs
  let sy ← Searcher.init ys
  let sz ← Searcher.init zs
  if xs.length * ys.length * zs.length ≠ vals.length then none
  else some ⟨sx, sy, sz, vals, xs.length, ys.length⟩

/-- `math/interpolate/linear_interpolators.go:261-280` (`NewUniformTriLinear`). -/
def newUniformTriLinear (x0 dx : ℚ) (nx : Int) (y0 dy : ℚ) (ny : Int) (z0 dz : ℚ) (nz : Int)
    (vals : List ℚ) : Option TriLinear :=
  if nx * ny * nz ≠ vals.length then none
  else some ⟨Searcher.unifInit x0 dx nx, Searcher.unifInit y0 dy ny, Searcher.unifInit z0 dz nz, vals,
    nx, ny⟩

/-- `math/interpolate/linear_interpolators.go:282-316` (`Eval`).  Lines 285 and 301 search and read the
`ys` grid for the `z` coordinate, as here. -/
def TriLinear.eval (tri : TriLinear) (x y z : ℚ) : Option ℚ := do
  let ix ← tri.xs.search x
  let iy ← tri.ys.search y
  let iz ← tri.ys.search z
  let dix : Int := 1
  let diy := tri.nx
  let diz := tri.nx * tri.ny
  let i := ix + iy * tri.nx + iz * tri.ny * tri.nx
  let v111 ← rd tri.vals (i + 0 + 0 + 0)
  let v112 ← rd tri.vals (i + 0 + 0 + diz)
  let v121 ← rd tri.vals (i + 0 + diy + 0)
  let v122 ← rd tri.vals (i + 0 + diy + diz)
  let v211 ← rd tri.vals (i + dix + 0 + 0)
  let v212 ← rd tri.vals (i + dix + 0 + diz)
  let v221 ← rd tri.vals (i + dix + diy + 0)
  let v222 ← rd tri.vals (i + dix + diy + diz)
  let x1 ← tri.xs.val ix
  let x2 ← tri.xs.val (ix + 1)
  let y1 ← tri.ys.val iy
  let y2 ← tri.ys.val (iy + 1)
  let z1 ← tri.ys.val iz
  let z2 ← tri.ys.val (iz + 1)
  let xd := (x - x1) / (x2 - x1)
  let yd := (y - y1) / (y2 - y1)
  let zd := (z - z1) / (z2 - z1)
  let c11 := v111 * (1 - xd) + v211 * xd
  let c21 := v121 * (1 - xd) + v221 * xd
  let c12 := v112 * (1 - xd) + v212 * xd
  let c22 := v122 * (1 - xd) + v222 * xd
  let c1 := c11 * (1 - yd) + c21 * yd
  let c2 := c12 * (1 - yd) + c22 * yd
  some (c1 * (1 - zd) + c2 * zd)

/-! ### Tridiagonal systems -/

/-- `math/interpolate/spline.go:274-283`: body of the forward loop; state `(tmp, beta, out)`. -/
def triForward (as bs cs rs : List ℚ) (i : Int) (s : List ℚ × ℚ × List ℚ) :
    Option (List ℚ × ℚ × List ℚ) := do
  let (tmp, beta, out) := s
  let c ← rd cs (i - 1)
  let tmp ← wr tmp i (c / beta)
  let b ← rd bs i
  let a ← rd as i
  let t ← rd tmp i
  let beta := b - a * t
  if beta = 0 then none
  else do
    let r ← rd rs i
    let o ← rd out (i - 1)
    let out ← wr out i ((r - a * o) / beta)
    some (tmp, beta, out)

/-- `math/interpolate/spline.go:285-287`: body of the backward loop. -/
def triBackward (tmp : List ℚ) (i : Int) (out : List ℚ) : Option (List ℚ) := do
  let o ← rd out i
  let t ← rd tmp (i + 1)
  let o1 ← rd out (i + 1)
  wr out i (o - t * o1)

/-- `math/interpolate/spline.go:259-288` (`TriDiagAt`).  The slices are assumed not to share memory. -/
def triDiagAt (as bs cs rs out : List ℚ) : Option (List ℚ) :=
  if as.length ≠ bs.length ∨ as.length ≠ cs.length ∨ as.length ≠ out.length ∨
      as.length ≠ rs.length then none
  else do
    let tmp := List.replicate as.length (0 : ℚ)
    let beta ← rd bs 0
    if beta = 0 then none
    else do
      let r ← rd rs 0
      let out ← wr out 0 (r / beta)
      let (tmp, _, out) ← forRange 1 out.length (triForward as bs cs rs) (tmp, beta, out)
      forDown ((out.length : Int) - 2) 0 (triBackward tmp) out

/-- `math/interpolate/spline.go:298-302` (`TriDiag`). -/
def triDiag (as bs cs rs : List ℚ) : Option (List ℚ) :=
  triDiagAt as bs cs rs (List.replicate as.length 0)

/-! ### Splines -/

/-- `math/interpolate/spline.go:10-12`. -/
structure Coeff where
  a : ℚ
  b : ℚ
  c : ℚ
  d : ℚ
deriving DecidableEq

/-- `math/interpolate/spline.go:16-24`. -/
structure Spline where
  xs : List ℚ
  ys : List ℚ
  y2s : List ℚ
  coeffs : List Coeff
  incr : Bool
  dx : ℚ
deriving DecidableEq

/-- `math/interpolate/spline.go:58-61` and `66-69`: the sortedness check. -/
def checkSorted (xs : List ℚ) (bad : ℚ → ℚ → Bool) : Option Unit :=
  forRange 0 ((xs.length : Int) - 1) (fun i _ => do
    let b ← rd xs (i + 1)
    let a ← rd xs i
    if bad b a then none else some ()) ()

/-- `math/interpolate/spline.go:207-216`: filling the tridiagonal system, one row per iteration; state
`(as, bs, cs, rs)`. -/
def y2Row (xs ys : List ℚ) (i : Int) (s : List ℚ × List ℚ × List ℚ × List ℚ) :
    Option (List ℚ × List ℚ × List ℚ × List ℚ) := do
  let (as, bs, cs, rs) := s
  let j := i + 1
  let xj ← rd xs j
  let xm ← rd xs (j - 1)
  let xp ← rd xs (j + 1)
  let yj ← rd ys j
  let ym ← rd ys (j - 1)
  let yp ← rd ys (j + 1)
  let as ← wr as i ((xj - xm) / 6)
  let bs ← wr bs i ((xp - xm) / 3)
  let cs ← wr cs i ((xp - xj) / 6)
  let rs ← wr rs i ((yp - yj) / (xp - xj) - (yj - ym) / (xj - xm))
  some (as, bs, cs, rs)

/-- `math/interpolate/spline.go:196-219` (`calcY2s`).  The slice `sp.y2s[1:n-1]` handed to `TriDiagAt`
is modelled by its contents, put back between the two zero ends. -/
def calcY2s (xs ys y2s : List ℚ) : Option (List ℚ) :=
  let n : Int := xs.length
  if n - 2 < 0 then none
  else do
    let z := List.replicate (n - 2).toNat (0 : ℚ)
    let y2s ← wr y2s 0 0
    let y2s ← wr y2s (n - 1) 0
    let (as, bs, cs, rs) ← forRange 0 (n - 2) (y2Row xs ys) (z, z, z, z)
    let mid ← triDiagAt as bs cs rs ((y2s.drop 1).take (n - 2).toNat)
    some (y2s.take 1 ++ mid ++ y2s.drop (n - 1).toNat)

/-- `math/interpolate/spline.go:221-230` (`calcCoeffs`). -/
def calcCoeffs (xs ys y2s : List ℚ) (coeffs : List Coeff) : Option (List Coeff) :=
  forRange 0 coeffs.length (fun i coeffs => do
    let x1 ← rd xs (i + 1)
    let x0 ← rd xs i
    let dx := x1 - x0
    let s0 ← rd y2s i
    let s1 ← rd y2s (i + 1)
    let y1 ← rd ys (i + 1)
    let y0 ← rd ys i
    wr coeffs i
      { a := (-s0 / 6 + s1 / 6) / dx
        b := s0 / 2
        c := (y1 - y0) / dx + dx * (-s0 / 3 - s1 / 6)
        d := y0 }) coeffs

/-- `math/interpolate/spline.go:49-75` (`Init`). -/
def Spline.init (sp : Spline) (xs ys : List ℚ) : Option Spline :=
  if xs.length ≠ sp.xs.length ∨ ys.length ≠ sp.ys.length then none
  else do
    let a ← rd xs 0
    let b ← rd xs 1
    let incr := decide (a < b)
    checkSorted xs (if incr then (fun b a => decide (b < a)) else (fun b a => decide (b > a)))
    let l ← rd xs ((xs.length : Int) - 1)
    let dx := (l - a) / (((xs.length : Int) - 1 : Int) : ℚ)
    let y2s ← calcY2s xs ys sp.y2s
    let coeffs ← calcCoeffs xs ys y2s sp.coeffs
    some { xs := xs, ys := ys, y2s := y2s, coeffs := coeffs, incr := incr, dx := dx }

/-- `math/interpolate/spline.go:28-46` (`NewSpline`). -/
def newSpline (xs ys : List ℚ) : Option Spline :=
  if xs.length ≠ ys.length then none
  else if xs.length ≤ 1 then none
  else
    Spline.init { xs := xs, ys := ys, y2s := List.replicate xs.length 0,
                  coeffs := List.replicate (xs.length - 1) ⟨0, 0, 0, 0⟩, incr := false, dx := 0 } xs ys

/-- `math/interpolate/spline.go:166-192` (`bsearch`), for a given guess (line 168 computes it in floating
point). -/
def Spline.bsearchWith (sp : Spline) (x : ℚ) (guess : Int) : Option Int := do
  let ok ← guessOk sp.xs sp.incr x guess
  if ok then some guess
  else do
    let lo ← bisect sp.xs sp.incr x 0 (sp.xs.length - 1)
    if (lo : Int) = (sp.xs.length : Int) - 1 then none
    else some lo

/-- `math/interpolate/spline.go:166-192` (`bsearch`). -/
def Spline.bsearch (sp : Spline) (x : ℚ) : Option Int := do
  let a ← rd sp.xs 0
  sp.bsearchWith x (trunc ((x - a) / sp.dx))

/-- `math/interpolate/spline.go:80-93` (`Eval`). -/
def Spline.eval (sp : Spline) (x : ℚ) : Option ℚ := do
  let a ← rd sp.xs 0
  let l ← rd sp.xs ((sp.xs.length : Int) - 1)
  if decide (x ≤ a) = sp.incr ∨ decide (x ≥ l) = sp.incr then
    if x = a then rd sp.ys 0
    else if x = l then rd sp.ys ((sp.ys.length : Int) - 1)
    else none
  else do
    let i ← sp.bsearch x
    let xi ← rd sp.xs i
    let dx := x - xi
    let k ← rd sp.coeffs i
    some (k.a * dx * dx * dx + k.b * dx * dx + k.c * dx + k.d)

/-- `math/interpolate/spline.go:111-132` (`Deriv`). -/
def Spline.deriv (sp : Spline) (x : ℚ) (order : Int) : Option ℚ := do
  let a ← rd sp.xs 0
  let l ← rd sp.xs ((sp.xs.length : Int) - 1)
  if decide (x < a) = sp.incr ∨ decide (x > l) = sp.incr then none
  else do
    let i ← sp.bsearch x
    let xi ← rd sp.xs i
    let dx := x - xi
    let k ← rd sp.coeffs i
    some (if order = 0 then k.a * dx * dx * dx + k.b * dx * dx + k.c * dx + k.d
      else if order = 1 then 3 * k.a * dx * dx + 2 * k.b * dx + k.c
      else if order = 2 then 6 * k.a * dx + 2 * k.b
      else if order = 3 then 6 * k.a
      else 0)

/-- `math/interpolate/spline.go:158-162` (`integTerm`). -/
def integTerm (k : Coeff) (lo hi : ℚ) : ℚ :=
  let dx := hi - lo
  k.a * dx * dx * dx * dx / 4 + k.b * dx * dx * dx / 3 + k.c * dx * dx / 2 + k.d * dx

/-- `math/interpolate/spline.go:135-156` (`Integrate`) for `lo <= hi`. -/
def Spline.integrateOrdered (sp : Spline) (lo hi : ℚ) : Option ℚ := do
  let a ← rd sp.xs 0
  let l ← rd sp.xs ((sp.xs.length : Int) - 1)
  if decide (lo < a) = sp.incr ∨ decide (lo > l) = sp.incr then none
  else if decide (hi < a) = sp.incr ∨ decide (hi > l) = sp.incr then none
  else do
    let iLo ← sp.bsearch lo
    let iHi ← sp.bsearch hi
    if iLo = iHi then do
      let k ← rd sp.coeffs iLo
      some (integTerm k lo hi)
    else do
      let k ← rd sp.coeffs iLo
      let x1 ← rd sp.xs (iLo + 1)
      let k' ← rd sp.coeffs iHi
      let x2 ← rd sp.xs iHi
      forRange (iLo + 1) iHi (fun i sum => do
        let k ← rd sp.coeffs i
        let u ← rd sp.xs i
        let v ← rd sp.xs (i + 1)
        some (sum + integTerm k u v)) (integTerm k lo x1 + integTerm k' x2 hi)

/-- `math/interpolate/spline.go:135-156` (`Integrate`); the recursive call of line 136 has ordered
arguments. -/
def Spline.integrate (sp : Spline) (lo hi : ℚ) : Option ℚ :=
  if lo > hi then (sp.integrateOrdered hi lo).map (fun v => -v) else sp.integrateOrdered lo hi

/-! ### BiCubic -/

/-- The loop `for i := range xSplineVals { xSplineVals[i] = ySplines[i].Eval(y) }`
(`math/interpolate/cubic_interpolators.go:86-88`).  Returns the array as it is when the loop ends or
panics, and whether it ended. -/
def fillVals : List Spline → ℚ → List ℚ → List ℚ × Bool
  | [], _, _ :: vs => (0 :: vs, false)
  | _, _, [] => ([], true)
  | sp :: sps, y, v :: vs =>
    match sp.eval y with
    | none => (v :: vs, false)
    | some w => (w :: (fillVals sps y vs).1, (fillVals sps y vs).2)

/-- `math/interpolate/cubic_interpolators.go:11-20`. -/
structure BiCubic where
  xs : List ℚ
  ys : List ℚ
  lastY : ℚ
  ySplines : List Spline
  xSplineVals : List ℚ
  xSpline : Spline
deriving DecidableEq

/-- `math/interpolate/cubic_interpolators.go:66-83` (`initSplines`). -/
def biInitSplines (nx : Int) (xs ys vals : List ℚ) : Option BiCubic := do
  let ySplines ← (List.range xs.length).mapM (fun (xi : Nat) => do
    let yVals ← (List.range ys.length).mapM (fun (yi : Nat) => rd vals (nx * (yi : Int) + (xi : Int)))
    newSpline ys yVals)
  let lastY ← rd ys 0
  let xSplineVals ← ySplines.mapM (fun (sp : Spline) => sp.eval lastY)
  let xSpline ← newSpline xs xSplineVals
  some { xs := xs, ys := ys, lastY := lastY, ySplines := ySplines, xSplineVals := xSplineVals,
         xSpline := xSpline }

/-- `math/interpolate/cubic_interpolators.go:22-38` (`NewBiCubic`). -/
def newBiCubic (xs ys vals : List ℚ) : Option BiCubic :=
  if xs.length * ys.length ≠ vals.length then none
  else biInitSplines xs.length xs ys vals

/-- `math/interpolate/cubic_interpolators.go:85-96` (`Eval`): the state afterwards, also when the call
panics (`none`).  `xSpline.ys` is the slice `xSplineVals`, so it changes with it. -/
def BiCubic.eval (bi : BiCubic) (x y : ℚ) : BiCubic × Option ℚ :=
  if y ≠ bi.lastY then
    let bi := { bi with lastY := y }
    let (vals, ok) := fillVals bi.ySplines y bi.xSplineVals
    let bi := { bi with xSplineVals := vals, xSpline := { bi.xSpline with ys := vals } }
    if ok then
      match bi.xSpline.init bi.xs bi.xSplineVals with
      | none => (bi, none)
      | some sp =>
        let bi := { bi with xSpline := sp }
        (bi, bi.xSpline.eval x)
    else (bi, none)
  else (bi, bi.xSpline.eval x)

/-! ### TriCubic -/

/-- `math/interpolate/cubic_interpolators.go:130-140`. -/
structure TriCubic where
  xs : List ℚ
  ys : List ℚ
  lastY : ℚ
  lastZ : ℚ
  zSplines : List (List Spline)
  ySplines : List Spline
  xSpline : Spline
deriving DecidableEq

/-- `math/interpolate/cubic_interpolators.go:196-244` (`initSplines`).  The flat array `zSplines`, indexed
`yi*nx + xi`, is modelled as a list over `xi` of lists over `yi`.  `ySplineVals` and `xSplineVals` are
re-allocated before every use and are not part of the state. -/
def triInitSplines (nx ny : Int) (xs ys zs vals : List ℚ) : Option TriCubic := do
  let zSplines ← (List.range xs.length).mapM (fun (xi : Nat) =>
    (List.range ys.length).mapM (fun (yi : Nat) => do
      let zVals ← (List.range zs.length).mapM
        (fun (zi : Nat) => rd vals (nx * ny * (zi : Int) + nx * (yi : Int) + (xi : Int)))
      newSpline zs zVals))
  let lastZ ← rd zs 0
  let ySplines ← zSplines.mapM (fun col => do
    let yVals ← col.mapM (fun (sp : Spline) => sp.eval lastZ)
    newSpline ys yVals)
  let lastY ← rd ys 0
  let xVals ← ySplines.mapM (fun (sp : Spline) => sp.eval lastY)
  let xSpline ← newSpline xs xVals
  some { xs := xs, ys := ys, lastY := lastY, lastZ := lastZ, zSplines := zSplines,
         ySplines := ySplines, xSpline := xSpline }

/-- `math/interpolate/cubic_interpolators.go:143-160` (`NewTriCubic`). -/
def newTriCubic (xs ys zs vals : List ℚ) : Option TriCubic :=
  if xs.length * ys.length * zs.length ≠ vals.length then none
  else triInitSplines xs.length ys.length xs ys zs vals

/-- `math/interpolate/cubic_interpolators.go:251-259`: re-initialising the splines in `y`, in order; on a
panic the splines before it have been replaced.  Returns the splines and whether the loop ended. -/
def refillY (ys : List ℚ) (z : ℚ) : List (List Spline) → List Spline → List Spline × Bool
  | [], sps => (sps, true)
  | _ :: _, [] => ([], false)
  | col :: cols, sp :: sps =>
    match (col.mapM (fun (s : Spline) => s.eval z)).bind (fun vals => sp.init ys vals) with
    | none => (sp :: sps, false)
    | some sp' => (sp' :: (refillY ys z cols sps).1, (refillY ys z cols sps).2)

/-- `math/interpolate/cubic_interpolators.go:262-270`: the second half of `Eval`. -/
def TriCubic.finish (tri : TriCubic) (x y : ℚ) : TriCubic × Option ℚ :=
  let tri := { tri with lastY := y }
  match (tri.ySplines.mapM (fun (sp : Spline) => sp.eval y)).bind (fun vals => tri.xSpline.init tri.xs vals) with
  | none => (tri, none)
  | some sp =>
    let tri := { tri with xSpline := sp }
    (tri, tri.xSpline.eval x)

/-- `math/interpolate/cubic_interpolators.go:246-274` (`Eval`): the state afterwards, also when the call
panics (`none`). -/
def TriCubic.eval (tri : TriCubic) (x y z : ℚ) : TriCubic × Option ℚ :=
  if y ≠ tri.lastY ∨ z ≠ tri.lastZ then
    if z ≠ tri.lastZ then
      let tri := { tri with lastZ := z }
      let (ySplines, ok) := refillY tri.ys z tri.zSplines tri.ySplines
      let tri := { tri with ySplines := ySplines }
      if ok then tri.finish x y else (tri, none)
    else tri.finish x y
  else (tri, tri.xSpline.eval x)

/-! ### Kernels -/

/-- `math/interpolate/filter.go:22-28`; other values of the integer type are not modelled. -/
inductive Boundary where
  | periodic | reflection | zeroPad | extension
deriving DecidableEq

/-- `math/interpolate/filter.go:32-52` (`Get`). -/
def Boundary.get (b : Boundary) (xs : List ℚ) (i : Int) : Option ℚ :=
  let n : Int := xs.length
  if i < 0 then
    match b with
    | .periodic => rd xs (n - 1 + i)
    | .reflection => rd xs (-(i + 1))
    | .zeroPad => some 0
    | .extension => rd xs 0
  else if i ≥ n then
    match b with
    | .periodic => rd xs (i - n)
    | .reflection => rd xs ((n - 1) - (i - n - 1))
    | .zeroPad => some 0
    | .extension => rd xs (n - 1)
  else rd xs i

/-- `math/interpolate/filter.go:11-14`. -/
structure Kernel where
  cs : List ℚ
  center : Int
deriving DecidableEq

/-- `math/interpolate/filter.go:95-104`: the value used by the left loop. -/
def leftGet (b : Boundary) (xs : List ℚ) (idx : Int) : Option ℚ :=
  let n : Int := xs.length
  if idx < 0 then
    match b with
    | .periodic => rd xs ((n - 1) + idx)
    | .reflection => rd xs (-(idx - 1))
    | .zeroPad => some 0
    | .extension => rd xs 0
  else rd xs idx

/-- `math/interpolate/filter.go:121-130`: the value used by the right loop. -/
def rightGet (b : Boundary) (xs : List ℚ) (idx : Int) : Option ℚ :=
  let n : Int := xs.length
  if idx ≥ n then
    match b with
    | .periodic => rd xs (idx - n)
    | .reflection => rd xs (2 * (n - 1) - idx)
    | .zeroPad => some 0
    | .extension => rd xs (n - 1)
  else rd xs idx

/-- `math/interpolate/filter.go:92-107`, `110-115`, `118-133`: one weighted sum, the three loops differing
in how the input is read. -/
def Kernel.sumAt (k : Kernel) (get : Int → Option ℚ) (i : Int) : Option ℚ :=
  forRange 0 k.cs.length (fun j sum => do
    let c ← rd k.cs j
    let x ← get (i + j - k.center)
    some (sum + x * c)) 0

/-- `math/interpolate/filter.go:86-135` (`ConvolveAt`); `out` must not share memory with `xs`. -/
def Kernel.convolveAt (k : Kernel) (xs : List ℚ) (b : Boundary) (out : List ℚ) :
    Option (List ℚ) := do
  let n : Int := xs.length
  let nl := k.center
  let nr := (k.cs.length : Int) - 1 - k.center
  let out ← forRange 0 (nl + 1) (fun i out => do
    let s ← k.sumAt (leftGet b xs) i
    wr out i s) out
  let out ← forRange (nl + 1) (n - nr) (fun i out => do
    let s ← k.sumAt (rd xs) i
    wr out i s) out
  forRange (n - nr) n (fun i out => do
    let s ← k.sumAt (rightGet b xs) i
    wr out i s) out

/-- `math/interpolate/filter.go:77-81` (`Convolve`). -/
def Kernel.convolve (k : Kernel) (xs : List ℚ) (b : Boundary) : Option (List ℚ) :=
  k.convolveAt xs b (List.replicate xs.length 0)

/-- `math/interpolate/filter.go:137-141` (`normalize`). -/
def normalize (cs : List ℚ) : List ℚ :=
  let sum := cs.foldl (fun s c => s + c) 0
  cs.map (fun c => c / sum)

/-- `math/interpolate/filter.go:168-180` (`NewTophatKernel`).  `width % 2 != 1` with Go's remainder. -/
def newTophat (width : Int) : Option Kernel :=
  if width.tmod 2 ≠ 1 then none
  else
    let cs := List.replicate width.toNat (1 : ℚ)
    some { cs := normalize cs, center := width.tdiv 2 }

/-- `math/interpolate/filter.go:145-165` (`NewGaussianKernel`); `exp` stands for `math.Exp` and is an
arbitrary function. -/
def newGaussian (exp : ℚ → ℚ) (width : Int) (sigma dx : ℚ) : Option Kernel :=
  if width.tmod 2 ≠ 1 then none
  else do
    let center := width.tdiv 2
    let cs := List.replicate width.toNat (0 : ℚ)
    let cs ← forRange 0 (center + 1) (fun i cs =>
      let x := ((i - center : Int) : ℚ) * dx
      wr cs i (exp (-x * x / (2 * sigma * sigma)))) cs
    let cs ← forRange (center + 1) cs.length (fun i cs => do
      let c ← rd cs ((cs.length : Int) - 1 - i)
      wr cs i c) cs
    some { cs := normalize cs, center := center }

end Verif.Interp
