import Verif.Geom.Model

/-!
# Model of the index arithmetic in 64-bit words

The other models have integers without bounds. Here `int` and `int64` are 64-bit words: sums, differences and products wrap
around, `/` and `%` truncate, comparisons are signed. `none` is a division by zero.
-/

set_option autoImplicit false

namespace Verif.Word

open Verif.Geom

/-- `int` on a 64-bit machine and `int64`; render/geom/grid.go 7 and 21, render/geom/tetra.go 108. -/
abbrev Word := BitVec 64

/-- The number as a word; for constants of render/geom/tetra.go 54-73. -/
abbrev word (n : ℤ) : Word := BitVec.ofInt 64 n

/-- `Grid`, render/geom/grid.go 5-9 and 19-22. -/
structure Grid64 where
  origin : Fin 3 → Word
  width : Fin 3 → Word
  length : Word
  area : Word
  volume : Word
  uBounds : Fin 3 → Word

/-- `NewGrid`, `Init`, render/geom/grid.go 24-43. -/
def newGrid64 (origin width : Fin 3 → Word) : Grid64 where
  origin := origin
  width := width
  length := width 0
  area := width 0 * width 1
  volume := width 0 * width 1 * width 2
  uBounds := fun i => origin i + width i

/-- `Idx`, render/geom/grid.go 61-66. -/
def Grid64.idx (g : Grid64) (x y z : Word) : Word :=
  (x - g.origin 0) + (y - g.origin 1) * g.length + (z - g.origin 2) * g.area

/-- `BoundsCheck`, render/geom/grid.go 78-84. -/
def Grid64.boundsCheck (g : Grid64) (x y z : Word) : Bool :=
  ((g.origin 0).sle x && (g.origin 1).sle y && (g.origin 2).sle z) &&
    (x.slt (g.uBounds 0) && y.slt (g.uBounds 1) && z.slt (g.uBounds 2))

/-- `IdxCheck`, render/geom/grid.go 68-76. -/
def Grid64.idxCheck (g : Grid64) (x y z : Word) : Word × Bool :=
  if !g.boundsCheck x y z then (word (-1), false) else (g.idx x y z, true)

/-- `Coords`, render/geom/grid.go 86-92. -/
def Grid64.coords (g : Grid64) (idx : Word) : Option (Word × Word × Word) :=
  if g.length = 0 ∨ g.area = 0 then none
  else some (idx.srem g.length, (idx.srem g.area).sdiv g.length, idx.sdiv g.area)

/-- `bound`, render/geom/grid.go 146-151. -/
def bound64 (x origin width : Word) : Word :=
  let diff := x - origin
  if diff.slt 0 then diff + width
  else if width.slt diff then diff - width
  else diff

/-- As `intersectSB`, render/geom/grid.go 119-123. -/
def intersectSB64 (oSmall wSmall oBig wBig width : Word) : Bool :=
  let eSmall := oSmall + wSmall
  let beSmall := bound64 eSmall oBig width
  let boSmall := bound64 oSmall oBig width
  beSmall.slt wBig || boSmall.slt wBig

/-- As `intersectAxis`, render/geom/grid.go 111-123. -/
def intersectAxis64 (o1 w1 o2 w2 width : Word) : Bool :=
  if w1.slt w2 then intersectSB64 o1 w1 o2 w2 width else intersectSB64 o2 w2 o1 w1 width

/-- `compressCoords`, render/geom/tetra.go 108-114. -/
def compressCoords64 (x y z dx dy dz countWidth : Word) : Word :=
  let newX := x + dx
  let newY := y + dy
  let newZ := z + dz
  newX + newY * countWidth + newZ * countWidth * countWidth

/-- `TetraIdxs.Init`, render/geom/tetra.go 152-178. -/
def initIdxs64 (idx countWidth skip : Word) (dir : ℤ) : Option (Fin 4 → Word) :=
  if h : 0 ≤ dir ∧ dir < 6 then
    let countArea := countWidth * countWidth
    if countWidth = 0 ∨ countArea = 0 then none
    else
      let d := dirs ⟨dir.toNat, by omega⟩
      let x := idx.srem countWidth
      let y := (idx.srem countArea).sdiv countWidth
      let z := idx.sdiv countArea
      some ![
        compressCoords64 x y z (skip * word (d 0 0)) (skip * word (d 0 1)) (skip * word (d 0 2)) countWidth,
        compressCoords64 x y z (skip * word (d 1 0)) (skip * word (d 1 1)) (skip * word (d 1 2)) countWidth,
        compressCoords64 x y z skip skip skip countWidth,
        idx]
  else none

/-- The first particle of a segment along each axis, render/main/main.go 465-467. -/
def segStart64 (segmentWidth idx cells : Word) : Option (Word × Word × Word) :=
  if cells = 0 ∨ cells * cells = 0 then none
  else some (segmentWidth * idx.srem cells, segmentWidth * (idx.sdiv cells).srem cells,
    segmentWidth * idx.sdiv (cells * cells))

/-- `if zIdx == shd.CountWidth { zIdx = 0 }`, render/main/main.go 480-487. -/
def wrapIdx64 (n i : Word) : Word := if i = n then 0 else i

/-- `largeIdx`, render/main/main.go 469 and 480-490. -/
def largeIdx64 (n x y z : Word) : Word :=
  wrapIdx64 n x + wrapIdx64 n y * n + wrapIdx64 n z * (n * n)

end Verif.Word
