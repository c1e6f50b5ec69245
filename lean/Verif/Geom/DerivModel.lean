import Verif.Geom.Model

/-!
# Model of `render/geom/deriv.go`

`vals` and `out` are separate slices; using one slice for both is not modelled. `log.Fatalf` and panics are
`none`. The arithmetic is a parameter: exact rationals (`exactD`, the default) or rounded (`Verif.Fp.DerivModel`).
-/

set_option autoImplicit false

namespace Verif.Geom

open Verif.Go

/-- `GridLocation`, render/geom/grid.go 11-17. -/
structure GridLocation extends Grid where
  cells : ℤ
  boxWidth : ℚ

/-- `NewGridLocation`, `GridLocation.Init`, render/geom/grid.go 46-61. -/
def newGridLocation (origin width : IVec) (boxWidth : ℚ) (cells : ℤ) : GridLocation where
  toGrid := newGrid origin width
  cells := cells
  boxWidth := boxWidth

/-- `DerivOp`, render/geom/deriv.go 13-18. -/
inductive DerivOp where
  | add
  | subtract
  | none
deriving DecidableEq

/-- `DerivOptions`, render/geom/deriv.go 7-11. -/
structure DerivOptions where
  periodic : Bool
  op : DerivOp
  order : ℤ
deriving DecidableEq

/-- Initial value of `DerivOptionsDefault`, render/geom/deriv.go 20. -/
def derivOptionsDefault : DerivOptions := ⟨false, .none, 4⟩

/-- How a derivative value is combined with the old output, render/geom/deriv.go 250-284. -/
def DerivOp.apply : DerivOp → ℚ → ℚ → ℚ
  | .add, old, v => old + v
  | .subtract, old, v => old - v
  | .none, _, v => v

/-- The expressions that are evaluated: inside, at a face with one-sided differences (one expression for each of the four
positions), and at a face with periodic neighbours. render/geom/deriv.go 165-238. -/
inductive DerivSite where
  | flat
  | edge (pos : ℤ)
  | wrap
deriving DecidableEq

/-- Arithmetic of the derivatives, render/geom/deriv.go 165-319. -/
structure DArith where
  /-- A sum of products of constants and values, added from the left and divided by the third argument; 165-238. -/
  comb : DerivSite → List (ℚ × ℚ) → ℚ → ℚ
  /-- The denominator for an order, the width of the box and the number of cells; 41, 295 and 305. -/
  denom : ℤ → ℚ → ℤ → ℚ
  /-- `+=`, 250-284. -/
  add : ℚ → ℚ → ℚ
  /-- `-=`, 250-284. -/
  sub : ℚ → ℚ → ℚ

/-- How a derivative value is combined with the old output, render/geom/deriv.go 250-284. -/
def DArith.ap (A : DArith) : DerivOp → ℚ → ℚ → ℚ
  | .add, old, v => A.add old v
  | .subtract, old, v => A.sub old v
  | .none, _, v => v

/-- Exact arithmetic: a simplification of render/geom/deriv.go 165-319, which rounds. -/
def exactD : DArith where
  comb _ ts d := (ts.map fun t => t.1 * t.2).sum / d
  denom order boxWidth cells := if order = 2 then boxWidth / cells * 2 else boxWidth / cells * 12
  add a b := a + b
  sub a b := a - b

/-- `deriv2Base.flat`, `deriv4Base.flat`, render/geom/deriv.go 165-172. -/
def flat (A : DArith) (order : ℤ) (vals : List ℚ) (denom : ℚ) (idx di : ℤ) : Option ℚ :=
  if order = 2 then do
    let a ← rd vals (idx + di)
    let b ← rd vals (idx - di)
    some (A.comb .flat [(1, a), (-1, b)] denom)
  else do
    let a ← rd vals (idx + 2 * di)
    let b ← rd vals (idx + di)
    let c ← rd vals (idx - di)
    let d ← rd vals (idx - 2 * di)
    some (A.comb .flat [(-1, a), (8, b), (-8, c), (1, d)] denom)

/-- `deriv2Base.edge`, render/geom/deriv.go 174-184. -/
def edge2 (A : DArith) (vals : List ℚ) (denom : ℚ) (idx di pos : ℤ) : Option ℚ :=
  if pos = 1 then do
    let a ← rd vals idx
    let b ← rd vals (idx + di)
    let c ← rd vals (idx + 2 * di)
    some (A.comb (.edge pos) [(-3, a), (4, b), (-1, c)] denom)
  else if pos = -1 then do
    let a ← rd vals idx
    let b ← rd vals (idx - di)
    let c ← rd vals (idx - 2 * di)
    some (A.comb (.edge pos) [(-3, a), (4, b), (-1, c)] (-denom))
  else none

/-- `deriv4Base.edge`, render/geom/deriv.go 221-238. -/
def edge4 (A : DArith) (v : List ℚ) (denom : ℚ) (idx di pos : ℤ) : Option ℚ :=
  if pos = 1 then do
    let a ← rd v (idx + 4 * di)
    let b ← rd v (idx + 3 * di)
    let c ← rd v (idx + 2 * di)
    let d ← rd v (idx + 1 * di)
    let e ← rd v idx
    some (A.comb (.edge pos) [(-3, a), (16, b), (-36, c), (48, d), (-25, e)] denom)
  else if pos = 2 then do
    let a ← rd v (idx - di)
    let b ← rd v idx
    let c ← rd v (idx + di)
    let d ← rd v (idx + 2 * di)
    let e ← rd v (idx + 3 * di)
    some (A.comb (.edge pos) [(-3, a), (-10, b), (18, c), (-6, d), (1, e)] denom)
  else if pos = -2 then do
    let a ← rd v (idx + di)
    let b ← rd v idx
    let c ← rd v (idx - di)
    let d ← rd v (idx - 2 * di)
    let e ← rd v (idx - 3 * di)
    some (A.comb (.edge pos) [(-3, a), (-10, b), (18, c), (-6, d), (1, e)] (-denom))
  else if pos = -1 then do
    let a ← rd v (idx - 4 * di)
    let b ← rd v (idx - 3 * di)
    let c ← rd v (idx - 2 * di)
    let d ← rd v (idx - di)
    let e ← rd v idx
    some (A.comb (.edge pos) [(-3, a), (16, b), (-36, c), (48, d), (-25, e)] (-denom))
  else none

/-- `edge` of the derivative taker chosen by `newDerivTaker`. render/geom/deriv.go 174-184, 221-238 and 286-319. -/
def edge (A : DArith) (order : ℤ) (vals : List ℚ) (denom : ℚ) (idx di pos : ℤ) : Option ℚ :=
  if order = 2 then edge2 A vals denom idx di pos else edge4 A vals denom idx di pos

/-- `deriv2Base.wrap`, render/geom/deriv.go 186-197. -/
def wrap2 (A : DArith) (vals : List ℚ) (denom : ℚ) (idx di pos width : ℤ) : Option ℚ :=
  if pos = 1 then do
    let h ← rd vals (idx + di)
    let l ← rd vals (idx + (width - 1) * di)
    some (A.comb .wrap [(1, h), (-1, l)] denom)
  else if pos = -1 then do
    let h ← rd vals (idx - (width - 1) * di)
    let l ← rd vals (idx - di)
    some (A.comb .wrap [(1, h), (-1, l)] denom)
  else none

/-- The four indices of `deriv4Base.wrap`, render/geom/deriv.go 200-216: `(im2, im1, ip1, ip2)`. -/
def wrap4Idx (idx di pos width : ℤ) : Option (ℤ × ℤ × ℤ × ℤ) :=
  if pos = 1 then some (idx + (width - 2) * di, idx + (width - 1) * di, idx + di, idx + 2 * di)
  else if pos = 2 then some (idx + (width - 2) * di, idx - di, idx + di, idx + 2 * di)
  else if pos = -2 then some (idx - 2 * di, idx - di, idx + di, idx - (width - 2) * di)
  else if pos = -1 then some (idx - 2 * di, idx - di, idx - (width - 1) * di, idx - (width - 2) * di)
  else none

/-- `deriv4Base.wrap`, render/geom/deriv.go 199-219. -/
def wrap4 (A : DArith) (vals : List ℚ) (denom : ℚ) (idx di pos width : ℤ) : Option ℚ := do
  let i ← wrap4Idx idx di pos width
  let p2 ← rd vals i.2.2.2
  let p1 ← rd vals i.2.2.1
  let m1 ← rd vals i.2.1
  let m2 ← rd vals i.1
  some (A.comb .wrap [(-1, p2), (8, p1), (-8, m1), (1, m2)] denom)

/-- `wrap` of the derivative taker chosen by `newDerivTaker`. render/geom/deriv.go 186-219 and 286-319. -/
def wrap (A : DArith) (order : ℤ) (vals : List ℚ) (denom : ℚ) (idx di pos width : ℤ) : Option ℚ :=
  if order = 2 then wrap2 A vals denom idx di pos width else wrap4 A vals denom idx di pos width

/-- `d.out[idx] = v`, `+= v`, `-= v`, render/geom/deriv.go 250-284. -/
def put (op : ℚ → ℚ → ℚ) (out : List ℚ) (idx : ℤ) (v : ℚ) : Option (List ℚ) := do
  let old ← rd out idx
  wr out idx (op old v)

/-- `out[idx] op= v` where computing `v` may panic. render/geom/deriv.go 250-284. -/
def putM (op : ℚ → ℚ → ℚ) (out : List ℚ) (idx : ℤ) (v : Option ℚ) : Option (List ℚ) := do
  let x ← v
  put op out idx x

/-- Index of a cell, as written out in the loops, e.g. render/geom/deriv.go 55. -/
def Grid.cellIdx (g : Grid) (x y z : ℤ) : ℤ := x + y * g.length + z * g.area

/-- `aIdx`, render/geom/deriv.go 74-75 and 111-112. -/
def aIdx (w pos : ℤ) : ℤ := if pos > 0 then pos - 1 else w + pos

/-- Body of the `pos` loop of `wrapDeriv` and `edgesDeriv`, render/geom/deriv.go 73-101 and 110-138: `f pos di idx`
is the stencil applied (with the increment `di` the code passes: for axis 2 it is 1). -/
def Grid.faceBody (g : Grid) (axis : ℤ) (op : ℚ → ℚ → ℚ) (lB uB : IVec) (f : ℤ → ℤ → ℤ → Option ℚ) (pos : ℤ)
    (out : List ℚ) : Option (List ℚ) :=
  if pos = 0 then some out
  else if axis = 0 then
    let x := aIdx (g.width 0) pos
    forRange (lB 2) (uB 2) (fun z out =>
      forRange (lB 1) (uB 1) (fun y out =>
        putM op out (g.cellIdx x y z) (f pos 1 (g.cellIdx x y z))) out) out
  else if axis = 1 then
    let y := aIdx (g.width 1) pos
    forRange (lB 2) (uB 2) (fun z out =>
      forRange (lB 0) (uB 0) (fun x out =>
        putM op out (g.cellIdx x y z) (f pos g.length (g.cellIdx x y z))) out) out
  else
    let z := aIdx (g.width 2) pos
    forRange (lB 1) (uB 1) (fun y out =>
      forRange (lB 0) (uB 0) (fun x out =>
        putM op out (g.cellIdx x y z) (f pos 1 (g.cellIdx x y z))) out) out

/-- `g.Width[axis]` for an axis known to be 0, 1 or 2. render/geom/deriv.go 82, 90 and 98. -/
def widthOf (g : Grid) (axis : ℤ) : ℤ := if axis = 0 then g.width 0 else if axis = 1 then g.width 1 else g.width 2

/-- `wrapDeriv`, render/geom/deriv.go 68-103. -/
def Grid.wrapDeriv (A : DArith) (g : Grid) (axis : ℤ) (opt : DerivOptions) (lB uB : IVec) (vals : List ℚ) (denom : ℚ)
    (out : List ℚ) : Option (List ℚ) :=
  forRange (-(opt.order / 2)) (opt.order / 2 + 1)
    (g.faceBody axis (A.ap opt.op) lB uB (fun pos di idx => wrap A opt.order vals denom idx di pos (widthOf g axis))) out

/-- `edgesDeriv`, render/geom/deriv.go 105-140. -/
def Grid.edgesDeriv (A : DArith) (g : Grid) (axis : ℤ) (opt : DerivOptions) (lB uB : IVec) (vals : List ℚ) (denom : ℚ)
    (out : List ℚ) : Option (List ℚ) :=
  forRange (-(opt.order / 2)) (opt.order / 2 + 1)
    (g.faceBody axis (A.ap opt.op) lB uB (fun pos di idx => edge A opt.order vals denom idx di pos)) out

/-- Bounds with `d` cells taken off on the axis, render/geom/deriv.go 37-40. -/
def lowBounds (axis d : ℤ) : IVec := fun i => if (i.val : ℤ) = axis then d else 0

/-- See `lowBounds`. render/geom/deriv.go 38 and 40. -/
def highBounds (g : Grid) (axis d : ℤ) : IVec := fun i => if (i.val : ℤ) = axis then g.width i - d else g.width i

/-- Stride of an axis, render/geom/deriv.go 45-50. -/
def stride (g : Grid) (axis : ℤ) : ℤ := if axis = 1 then g.length else if axis = 2 then g.area else 1

/-- The loop over interior cells, render/geom/deriv.go 52-59. -/
def Grid.flatLoop (A : DArith) (g : Grid) (axis : ℤ) (opt : DerivOptions) (lB uB : IVec) (vals : List ℚ) (denom : ℚ)
    (out : List ℚ) : Option (List ℚ) :=
  forRange (lB 0) (uB 0) (fun x out =>
    forRange (lB 1) (uB 1) (fun y out =>
      forRange (lB 2) (uB 2) (fun z out =>
        putM (A.ap opt.op) out (g.cellIdx x y z) (flat A opt.order vals denom (g.cellIdx x y z) (stride g axis))) out) out) out

/-- `Deriv`, render/geom/deriv.go 21-66, for given options (a nil argument means the current value of the
global `DerivOptionsDefault`): new contents of `out`. -/
def GridLocation.deriv (g : GridLocation) (vals out : List ℚ) (axis : ℤ) (opt : DerivOptions)
    (A : DArith := exactD) : Option (List ℚ) :=
  if axis > 2 ∨ axis < 0 then none
  else if widthOf g.toGrid axis < 3 then none
  else if opt.order ≠ 2 ∧ opt.order ≠ 4 then none
  else do
    let lB := lowBounds axis (opt.order / 2)
    let uB := highBounds g.toGrid axis (opt.order / 2)
    let denom := A.denom opt.order g.boxWidth g.cells
    let out ← g.flatLoop A axis opt lB uB vals denom out
    if opt.periodic = false ∨ g.cells ≠ widthOf g.toGrid axis then
      g.edgesDeriv A axis opt lB uB vals denom out
    else
      g.wrapDeriv A axis opt lB uB vals denom out

/-- Result of an operator that may change its options: the output, the caller's options record (if one was passed) and
the global default record afterwards. render/geom/deriv.go 322-366. -/
structure OpResult (α : Type) where
  out : α
  caller : Option DerivOptions
  dflt : DerivOptions

/-- The record an operator works on: the caller's, or the global one when nil is passed; render/geom/deriv.go
327-331 and 347-351 (`*op = *tmp` copies the record onto itself). -/
def workOpts (op : Option DerivOptions) (dflt : DerivOptions) : DerivOptions := op.getD dflt

/-- Where the record is stored back. render/geom/deriv.go 327-331 and 347-351. -/
def storeOpts {α : Type} (op : Option DerivOptions) (dflt o : DerivOptions) (out : α) : OpResult α :=
  match op with
  | some _ => ⟨out, some o, dflt⟩
  | none => ⟨out, none, o⟩

/-- `Curl`, render/geom/deriv.go 322-341. -/
def GridLocation.curl (g : GridLocation) (vecs out : Fin 3 → List ℚ) (op : Option DerivOptions)
    (dflt : DerivOptions) (A : DArith := exactD) : Option (OpResult (Fin 3 → List ℚ)) := do
  let o := workOpts op dflt
  let o0 ← g.deriv (vecs 2) (out 0) 1 o A
  let o1 ← g.deriv (vecs 0) (out 1) 2 o A
  let o2 ← g.deriv (vecs 1) (out 2) 0 o A
  let o' := { o with op := DerivOp.subtract }
  let o0 ← g.deriv (vecs 1) o0 2 o' A
  let o1 ← g.deriv (vecs 2) o1 0 o' A
  let o2 ← g.deriv (vecs 0) o2 1 o' A
  some (storeOpts op dflt o' ![o0, o1, o2])

/-- `Divergence`, render/geom/deriv.go 343-356. -/
def GridLocation.divergence (g : GridLocation) (vecs : Fin 3 → List ℚ) (out : List ℚ) (op : Option DerivOptions)
    (dflt : DerivOptions) (A : DArith := exactD) : Option (OpResult (List ℚ)) := do
  let o := workOpts op dflt
  let out ← g.deriv (vecs 0) out 0 o A
  let o' := { o with op := DerivOp.add }
  let out ← g.deriv (vecs 1) out 1 o' A
  let out ← g.deriv (vecs 2) out 2 o' A
  some (storeOpts op dflt o' out)

/-- `Gradient`, render/geom/deriv.go 358-366. -/
def GridLocation.gradient (g : GridLocation) (vals : List ℚ) (out : Fin 3 → List ℚ) (op : Option DerivOptions)
    (dflt : DerivOptions) (A : DArith := exactD) : Option (OpResult (Fin 3 → List ℚ)) := do
  let o := workOpts op dflt
  let o0 ← g.deriv vals (out 0) 0 o A
  let o1 ← g.deriv vals (out 1) 1 o A
  let o2 ← g.deriv vals (out 2) 2 o A
  some (storeOpts op dflt o ![o0, o1, o2])

end Verif.Geom
