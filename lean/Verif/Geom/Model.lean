import Verif.Go.Loops
import Mathlib.Data.Fin.VecNotation
import Mathlib.Algebra.Order.Ring.Abs

/-!
# Model of `render/geom/vec.go`, `grid.go`, `tetra.go`

`float32`/`float64` components are exact rationals (no rounding, no NaN, no signed zero). Go arrays of fixed
length `[3]T`, `[4]T` are functions on `Fin 3`, `Fin 4`; a loop `for i := 0; i < 3; i++` that treats every
component separately is written as a function of the component. `int`/`int64` are unbounded.
The `...At`, `...Self` variants of a vector operation (result written into an argument) compute every
component from the inputs of the same component (or, for `CrossAt`, from temporaries), so one pure function
stands for all three variants.
-/

set_option autoImplicit false

namespace Verif.Geom

open Verif.Go

/-- `type Vec [3]float32`, render/geom/vec.go 8-13. -/
abbrev Vec := Fin 3 → ℚ

/-- `[3]int`. As in render/geom/grid.go 21. -/
abbrev IVec := Fin 3 → ℤ

/-! ## vec.go -/

/-- `Scale`, `ScaleSelf`, `ScaleAt`, render/geom/vec.go 15-30. -/
def Vec.scale (v : Vec) (k : ℚ) : Vec := fun i => v i * k

/-- Loop body of `ModAt`, render/geom/vec.go 45-50. -/
def modC (w x : ℚ) : ℚ :=
  if x ≥ w then x - w else if x < 0 then x + w else x

/-- `Mod`, `ModSelf`, `ModAt`, render/geom/vec.go 32-53. -/
def Vec.mod (v : Vec) (width : ℚ) : Vec := fun i => modC width (v i)

/-- `Add`, `AddSelf`, `AddAt`, render/geom/vec.go 55-70. -/
def Vec.add (v1 v2 : Vec) : Vec := fun i => v1 i + v2 i

/-- First correction in `SubAt`, render/geom/vec.go 87-91. -/
def subFold1 (w diff : ℚ) : ℚ :=
  if diff < -w then diff + w else if diff ≥ w then diff - w else diff

/-- Second correction in `SubAt`, render/geom/vec.go 93-97. -/
def subFold2 (w diff : ℚ) : ℚ :=
  let w2 := w / 2
  if diff > w2 then diff - w else if diff < -w2 then diff + w else diff

/-- `Sub`, `SubSelf`, `SubAt`, render/geom/vec.go 72-103. -/
def Vec.sub (v1 v2 : Vec) (width : ℚ) : Vec := fun i =>
  subFold2 width (subFold1 width (v1 i - v2 i))

/-- `Dot`, render/geom/vec.go 110-117. -/
def Vec.dot (v1 v2 : Vec) : ℚ := 0 + v1 0 * v2 0 + v1 1 * v2 1 + v1 2 * v2 2

/-- `Cross`, `CrossSelf`, `CrossAt`, render/geom/vec.go 119-134. The receiver of `CrossAt` is called `v2` and
its argument `v1`; `recv.Cross(arg)`. -/
def Vec.cross (recv arg : Vec) : Vec :=
  let v2 := recv
  let v1 := arg
  ![v1 1 * v2 2 - v1 2 * v2 1, v1 2 * v2 0 - v1 0 * v2 2, v1 0 * v2 1 - v1 1 * v2 0]

/-! ## grid.go -/

/-- `CellBounds`, render/geom/grid.go 19-22. -/
structure CellBounds where
  origin : IVec
  width : IVec

/-- `Grid`, render/geom/grid.go 5-9. -/
structure Grid extends CellBounds where
  length : ℤ
  area : ℤ
  volume : ℤ
  uBounds : IVec

/-- `NewGrid`, `Init`, render/geom/grid.go 24-43. -/
def newGrid (origin width : IVec) : Grid where
  origin := origin
  width := width
  length := width 0
  area := width 0 * width 1
  volume := width 0 * width 1 * width 2
  uBounds := fun i => origin i + width i

/-- `Idx`, render/geom/grid.go 61-66. -/
def Grid.idx (g : Grid) (x y z : ℤ) : ℤ :=
  (x - g.origin 0) + (y - g.origin 1) * g.length + (z - g.origin 2) * g.area

/-- `BoundsCheck`, render/geom/grid.go 78-84. -/
def Grid.boundsCheck (g : Grid) (x y z : ℤ) : Bool :=
  (g.origin 0 ≤ x && g.origin 1 ≤ y && g.origin 2 ≤ z) &&
    (x < g.uBounds 0 && y < g.uBounds 1 && z < g.uBounds 2)

/-- `IdxCheck`, render/geom/grid.go 68-76. -/
def Grid.idxCheck (g : Grid) (x y z : ℤ) : ℤ × Bool :=
  if !g.boundsCheck x y z then (-1, false) else (g.idx x y z, true)

/-- `Coords`, render/geom/grid.go 86-92; integer division by zero panics. -/
def Grid.coords (g : Grid) (idx : ℤ) : Option (ℤ × ℤ × ℤ) :=
  if g.length = 0 ∨ g.area = 0 then none
  else some (idx.tmod g.length, (idx.tmod g.area).tdiv g.length, idx.tdiv g.area)

/-- `bound`, render/geom/grid.go 146-151. -/
def bound (x origin width : ℤ) : ℤ :=
  let diff := x - origin
  if diff < 0 then diff + width
  else if diff > width then diff - width
  else diff

/-- Loop body of `Intersect` once the smaller box is known, render/geom/grid.go 119-123. -/
def intersectSB (oSmall wSmall oBig wBig width : ℤ) : Bool :=
  let eSmall := oSmall + wSmall
  let beSmall := bound eSmall oBig width
  let boSmall := bound oSmall oBig width
  beSmall < wBig || boSmall < wBig

/-- Loop body of `Intersect`, render/geom/grid.go 111-123. -/
def intersectAxis (o1 w1 o2 w2 width : ℤ) : Bool :=
  if w1 < w2 then intersectSB o1 w1 o2 w2 width else intersectSB o2 w2 o1 w1 width

/-- `Intersect`, render/geom/grid.go 104-126. The loop stops at the first axis that fails. -/
def CellBounds.intersect (cb1 cb2 : CellBounds) (width : ℤ) : Bool :=
  intersectAxis (cb1.origin 0) (cb1.width 0) (cb2.origin 0) (cb2.width 0) width &&
  (intersectAxis (cb1.origin 1) (cb1.width 1) (cb2.origin 1) (cb2.width 1) width &&
   intersectAxis (cb1.origin 2) (cb1.width 2) (cb2.origin 2) (cb2.width 2) width)

/-- Loop body of `IntersectUnbounded`, render/geom/grid.go 135-141. -/
def unboundedAxis (o1 w1 o2 w2 : ℤ) : Bool :=
  if o1 < o2 then o1 + w1 > o2 else o2 + w2 > o1

/-- `IntersectUnbounded`, render/geom/grid.go 129-144. -/
def CellBounds.intersectUnbounded (cb1 cb2 : CellBounds) : Bool :=
  unboundedAxis (cb1.origin 0) (cb1.width 0) (cb2.origin 0) (cb2.width 0) &&
  (unboundedAxis (cb1.origin 1) (cb1.width 1) (cb2.origin 1) (cb2.width 1) &&
   unboundedAxis (cb1.origin 2) (cb1.width 2) (cb2.origin 2) (cb2.width 2))

/-- Inner loop body of `ScaleVecsSegment`, render/geom/grid.go 168-170. -/
def scaleSegC (cells : ℤ) (boxWidth : ℚ) (o : ℤ) (x : ℚ) : ℚ :=
  let scale := (cells : ℚ) / boxWidth
  let y := x * scale - o
  if y < 0 then y + cells else y

/-- `ScaleVecsSegment`, render/geom/grid.go 153-173 (the new contents of `vs`). -/
def CellBounds.scaleVecsSegment (vcb : CellBounds) (vs : List Vec) (cells : ℤ) (boxWidth : ℚ) : List Vec :=
  vs.map fun v j => scaleSegC cells boxWidth (vcb.origin j) (v j)

/-- The origin difference of `ScaleVecsDomain` folded by one period, render/geom/grid.go 187-199. -/
def domainDiff (cells o1 o2 : ℤ) : ℚ :=
  let d : ℚ := ((o1 - o2 : ℤ) : ℚ)
  if d < -(cells : ℚ) / 2 then d + cells
  else if d > (cells : ℚ) / 2 then d - cells
  else d

/-- `ScaleVecsDomain`, render/geom/grid.go 175-209 (the new contents of `vs`). -/
def CellBounds.scaleVecsDomain (vcb cb : CellBounds) (vs : List Vec) (cells : ℤ) (boxWidth : ℚ) : List Vec :=
  vs.map fun v j =>
    scaleSegC cells boxWidth (vcb.origin j) (v j) + domainDiff cells (vcb.origin j) (cb.origin j)

/-! ## tetra.go: indices -/

/-- `Dirs`, render/geom/tetra.go 54-62. -/
def dirs : Fin 6 → Fin 2 → IVec := ![
  ![![1, 0, 0], ![1, 1, 0]],
  ![![1, 0, 0], ![1, 0, 1]],
  ![![0, 1, 0], ![1, 1, 0]],
  ![![0, 0, 1], ![1, 0, 1]],
  ![![0, 1, 0], ![0, 1, 1]],
  ![![0, 0, 1], ![0, 1, 1]]]

/-- `centers`, render/geom/tetra.go 64-73. -/
def centers : Fin 8 → Fin 3 → IVec := ![
  ![![0, 0, 1], ![0, 1, 0], ![1, 0, 0]],
  ![![0, 0, 1], ![0, 1, 0], ![-1, 0, 0]],
  ![![0, 0, 1], ![0, -1, 0], ![1, 0, 0]],
  ![![0, 0, 1], ![0, -1, 0], ![-1, 0, 0]],
  ![![0, 0, -1], ![0, 1, 0], ![1, 0, 0]],
  ![![0, 0, -1], ![0, 1, 0], ![-1, 0, 0]],
  ![![0, 0, -1], ![0, -1, 0], ![1, 0, 0]],
  ![![0, 0, -1], ![0, -1, 0], ![-1, 0, 0]]]

/-- `compressCoords`, render/geom/tetra.go 108-114. -/
def compressCoords (x y z dx dy dz countWidth : ℤ) : ℤ :=
  let newX := x + dx
  let newY := y + dy
  let newZ := z + dz
  newX + newY * countWidth + newZ * countWidth * countWidth

/-- `compressCoordsCheck`, render/geom/tetra.go 116-132 (the three tests all look at `newX`). -/
def compressCoordsCheck (x y z dx dy dz countWidth : ℤ) : ℤ × Bool :=
  let newX := x + dx
  let newY := y + dy
  let newZ := z + dz
  if newX ≥ countWidth ∨ newX < 0 then (-1, false)
  else if newX ≥ countWidth ∨ newX < 0 then (-1, false)
  else if newX ≥ countWidth ∨ newX < 0 then (-1, false)
  else (newX + newY * countWidth + newZ * countWidth * countWidth, true)

/-- `TetraIdxs.InitCartesian`, render/geom/tetra.go 136-150; an index outside `Dirs` panics. -/
def initCartesian (x y z countWidth : ℤ) (dir : ℤ) : Option (Fin 4 → ℤ) :=
  if h : 0 ≤ dir ∧ dir < 6 then
    let d := dirs ⟨dir.toNat, by omega⟩
    let countArea := countWidth * countWidth
    some ![
      compressCoords x y z (d 0 0) (d 0 1) (d 0 2) countWidth,
      compressCoords x y z (d 1 0) (d 1 1) (d 1 2) countWidth,
      compressCoords x y z 1 1 1 countWidth,
      x + y * countWidth + z * countArea]
  else none

/-- `TetraIdxs.Init`, render/geom/tetra.go 152-178; an unknown direction is fatal, a zero count width
divides by zero. -/
def initIdxs (idx countWidth skip : ℤ) (dir : ℤ) : Option (Fin 4 → ℤ) :=
  if h : 0 ≤ dir ∧ dir < 6 then
    if countWidth = 0 then none
    else
      let d := dirs ⟨dir.toNat, by omega⟩
      let countArea := countWidth * countWidth
      let x := idx.tmod countWidth
      let y := (idx.tmod countArea).tdiv countWidth
      let z := idx.tdiv countArea
      some ![
        compressCoords x y z (skip * d 0 0) (skip * d 0 1) (skip * d 0 2) countWidth,
        compressCoords x y z (skip * d 1 0) (skip * d 1 1) (skip * d 1 2) countWidth,
        compressCoords x y z skip skip skip countWidth,
        idx]
  else none

/-- `TetraIdxs.InitCentered`, render/geom/tetra.go 180-224. `idxs` is the previous contents of the receiver;
on failure the entries written so far stay written. -/
def initCentered (idxs : Fin 4 → ℤ) (idx countWidth skip : ℤ) (dir : ℤ) : Option ((Fin 4 → ℤ) × Bool) :=
  if h : 0 ≤ dir ∧ dir < 8 then
    if countWidth = 0 then none
    else
      let c := centers ⟨dir.toNat, by omega⟩
      let countArea := countWidth * countWidth
      let x := idx.tmod countWidth
      let y := (idx.tmod countArea).tdiv countWidth
      let z := idx.tdiv countArea
      let r0 := compressCoordsCheck x y z (skip * c 0 0) (skip * c 0 1) (skip * c 0 2) countWidth
      let r1 := compressCoordsCheck x y z (skip * c 1 0) (skip * c 1 1) (skip * c 1 2) countWidth
      let r2 := compressCoordsCheck x y z (skip * c 2 0) (skip * c 2 1) (skip * c 2 2) countWidth
      if !r0.2 then some (![r0.1, idxs 1, idxs 2, idxs 3], false)
      else if !r1.2 then some (![r0.1, r1.1, idxs 2, idxs 3], false)
      else if !r2.2 then some (![r0.1, r1.1, r2.1, idxs 3], false)
      else some (![r0.1, r1.1, r2.1, idx], true)
  else none

/-! ## tetra.go: tetrahedra -/

/-- `Tetra`, render/geom/tetra.go 20-27, without the scratch buffers `vb`, `sb` (every function that reads
them writes them first). -/
structure Tetra where
  corners : Fin 4 → Vec
  volume : ℚ
  bary : Vec
  volumeValid : Bool
  baryValid : Bool

/-- `eps`, render/geom/tetra.go 45. -/
def eps : ℚ := 5 / 100000

/-- `Tetra.Init`, render/geom/tetra.go 83-96; the previous value of the receiver is kept in the fields not
assigned. -/
def Tetra.init (t : Tetra) (c0 c1 c2 c3 : Vec) : Tetra :=
  { t with volumeValid := false, baryValid := false, corners := ![c0, c1, c2, c3] }

/-- `NewTetra`, render/geom/tetra.go 76-81. -/
def newTetra (c0 c1 c2 c3 : Vec) : Tetra :=
  Tetra.init { corners := fun _ _ => 0, volume := 0, bary := fun _ => 0, volumeValid := false,
               baryValid := false } c0 c1 c2 c3

/-- `signedVolume`, render/geom/tetra.go 285-296. -/
def signedVolume (c0 c1 c2 c3 : Vec) : ℚ :=
  let leg1 : Vec := fun i => c1 i - c0 i
  let leg2 : Vec := fun i => c2 i - c0 i
  let leg3 : Vec := fun i => c3 i - c0 i
  leg1.dot (leg2.cross leg3) / 6

/-- `Volume`, render/geom/tetra.go 226-238: result and new state. -/
def Tetra.volumeM (t : Tetra) : ℚ × Tetra :=
  if t.volumeValid then (t.volume, t)
  else
    let v := |signedVolume (t.corners 0) (t.corners 1) (t.corners 2) (t.corners 3)|
    (v, { t with volume := v, volumeValid := true })

/-- `epsEq`, render/geom/tetra.go 280-283. -/
def epsEq (x y eps : ℚ) : Bool :=
  (x = 0 && y = 0) || (x ≠ 0 && y ≠ 0 && |(x - y) / x| ≤ eps)

/-- `math.Signbit` on an exact number: true iff negative (no negative zero). Used in render/geom/tetra.go 248-272. -/
def signbit (x : ℚ) : Bool := x < 0

/-- `Contains` after the volume has been found, render/geom/tetra.go 245-277. -/
def containsWith (c : Fin 4 → Vec) (vol : ℚ) (v : Vec) : Bool :=
  let v0 := signedVolume v (c 0) (c 1) (c 2)
  let sign := signbit v0
  let s0 := |v0|
  if s0 > vol * (1 + eps) then false
  else
    let v1 := signedVolume v (c 1) (c 3) (c 2)
    if signbit v1 != sign then false
    else
      let s1 := s0 + |v1|
      if s1 > vol * (1 + eps) then false
      else
        let v2 := signedVolume v (c 0) (c 3) (c 1)
        if signbit v2 != sign then false
        else
          let s2 := s1 + |v2|
          if s2 > vol * (1 + eps) then false
          else
            let v3 := signedVolume v (c 0) (c 2) (c 3)
            if signbit v3 != sign then false
            else epsEq (|v3| + s2) vol eps

/-- `Contains`, render/geom/tetra.go 240-278: result and new state. -/
def Tetra.containsM (t : Tetra) (v : Vec) : Bool × Tetra :=
  let r := t.volumeM
  (containsWith r.2.corners r.1 v, r.2)

/-- `Barycenter`, render/geom/tetra.go 449-461: result and new state. -/
def Tetra.barycenterM (t : Tetra) : Vec × Tetra :=
  if t.baryValid then (t.bary, t)
  else
    let b : Vec := fun i => (t.corners 0 i + t.corners 1 i + t.corners 2 i) / 4
    (b, { t with bary := b, baryValid := true })

/-- The folding of the unit cube, render/geom/tetra.go 346-354 and 379-387. -/
def fold (s t u : ℚ) : ℚ × ℚ × ℚ :=
  let p : ℚ × ℚ := if s + t > 1 then (1 - s, 1 - t) else (s, t)
  let s := p.1
  let t := p.2
  if t + u > 1 then (s, 1 - u, 1 - s - t)
  else if s + t + u > 1 then (1 - t - u, t, s + t + u - 1)
  else (s, t, u)

/-- The corner sum, render/geom/tetra.go 355-369, 410-420 and 435-445, with the displacements
`tet.sb.c` of lines 333-337, 399-403, 427-431. -/
def cornerSum (corners : Fin 4 → Vec) (bary : Vec) (s t u : ℚ) : Vec := fun j =>
  let v := 1 - s - t - u
  let d0 := (corners 0 j - bary j) * s
  let d1 := (corners 1 j - bary j) * t
  let d2 := (corners 2 j - bary j) * u
  let d3 := (corners 3 j - bary j) * v
  bary j + d0 + d1 + d2 + d3

/-- `Distribute`, render/geom/tetra.go 326-371: new contents of `vecBuf` and new state; panics when a
coordinate slice is shorter than `vecBuf`. -/
def Tetra.distribute (tet : Tetra) (xs ys zs : List ℚ) (vecBuf : List Vec) : Option (List Vec × Tetra) := do
  let r := tet.barycenterM
  let out ← forRange 0 vecBuf.length (fun i (buf : List Vec) => do
    let s ← rd xs i
    let t ← rd ys i
    let u ← rd zs i
    let f := fold s t u
    wr buf i (cornerSum r.2.corners r.1 f.1 f.2.1 f.2.2)) vecBuf
  some (out, r.2)

/-- `RandomSample`, render/geom/tetra.go 308-324. `randBuf` is the buffer after `gen.UniformAt(0, 1, randBuf)`
(the generator is modelled in `Verif.Rand`); panics when its length is not three times that of `vecBuf`. -/
def Tetra.randomSample (tet : Tetra) (randBuf : List ℚ) (vecBuf : List Vec) : Option (List Vec × Tetra) :=
  let n := vecBuf.length
  if randBuf.length ≠ n * 3 then none
  else tet.distribute (randBuf.take n) ((randBuf.drop n).take n) ((randBuf.drop (2 * n)).take n) vecBuf

/-- `DistributeUnit`, render/geom/tetra.go 373-391. -/
def distributeUnit (vecBuf : List Vec) : List Vec :=
  vecBuf.map fun p =>
    let f := fold (p 0) (p 1) (p 2)
    ![f.1, f.2.1, f.2.2]

/-- `DistributeTetra` and `DistributeTetra64`, render/geom/tetra.go 393-447; `out` may be longer than `pts`
and panics when shorter. -/
def Tetra.distributeTetra (tet : Tetra) (pts out : List Vec) : Option (List Vec × Tetra) := do
  let r := tet.barycenterM
  let out ← forRange 0 pts.length (fun i (buf : List Vec) => do
    let p ← rd pts i
    wr buf i (cornerSum r.2.corners r.1 (p 0) (p 1) (p 2))) out
  some (out, r.2)

/-- One step of the minimum/maximum search, render/geom/tetra.go 482-486. -/
def minMaxStep (m : ℚ × ℚ) (x : ℚ) : ℚ × ℚ :=
  if x < m.1 then (x, m.2) else if x > m.2 then (m.1, x) else m

/-- Minimum and maximum of one coordinate over the corners, render/geom/tetra.go 475-488. -/
def cornerMinMax (c : Fin 4 → Vec) (i : Fin 3) : ℚ × ℚ :=
  minMaxStep (minMaxStep (minMaxStep (c 0 i, c 0 i) (c 1 i)) (c 2 i)) (c 3 i)

/-- `CellBounds`, `CellBoundsAt`, render/geom/tetra.go 463-504. -/
def Tetra.cellBounds (t : Tetra) (cellWidth : ℚ) : CellBounds where
  origin := fun i => ⌊(cornerMinMax t.corners i).1 / cellWidth⌋
  width := fun i =>
    let m := cornerMinMax t.corners i
    let w := m.2 - m.1
    1 + ⌊(w + m.1) / cellWidth⌋ - ⌊m.1 / cellWidth⌋

end Verif.Geom
