import Verif.Render.Model

/-!
# Model of `mcarlo.Interpolate`, render/density/interpolator.go

The buffer a point is deposited in, and how, is left to `sub`: `intr.subIntr.Interpolate(buf, vecBuf, nil, ptVal,
bweights, 0, points, 1)` as a function of `vecBuf`, of the contents of the vector buffer `bweights` (not looked at
for densities) and of the cells. The bookkeeping of `maxWidth` (lines 108, 123-125) has no effect and is left out.
-/

set_option autoImplicit false

namespace Verif.Render

open Verif.Go Verif.Geom

/-- The operations of `mcarlo.Interpolate` that compute with coordinates: `CellBoundsAt(1.0, _)` (render/geom/tetra.go
471-489), `DistributeTetra` and `DistributeTetra64` (393-447), the sum in `modCoord`
(render/density/interpolator.go 192), and `intFloor` (render/box.go 685-691). -/
structure Arith where
  cellBounds : Tetra → CellBounds
  distribute : Tetra → List Vec → List Vec → Option (List Vec × Tetra)
  shift : ℤ → ℚ → ℚ
  floor : ℚ → ℤ

/-- Exact arithmetic, for the definitions of `Verif.Geom.Model`; `Verif.Fp.machine` is the one with rounding. -/
def Arith.exact : Arith := ⟨fun t => t.cellBounds 1, Tetra.distributeTetra, fun n x => x + n, intFloor⟩

/-- The constant fields of `mcarlo`, render/density/interpolator.go 26-41, and the cell bounds of its `subIntr`.
`cells` stands for the field and for `intr.Cells()`: both are `Cells()` of the box (render/render.go 203,
render/box.go 82-88 and 112-118). `arith` says which arithmetic is used. -/
structure MC where
  segWidth : ℤ
  points : ℤ
  cells : ℤ
  skip : ℤ
  unitBufs : List (List Vec)
  dom : CellBounds
  buf : CellBounds
  arith : Arith := .exact

/-- The variables of `mcarlo` that change, the number of unit buffers drawn so far and the target buffer; `wbuf` is
the vector buffer of `b.weights`. render/density/interpolator.go 26-41. -/
structure MCState (M : Type) where
  tet : Tetra
  vtet : Tetra
  vecBuf : List Vec
  wbuf : List Vec
  draws : ℕ
  cells : List M

/-- `relCb`, render/density/interpolator.go 92-95 with `cbSubtr` 207-212. -/
def MC.relCb (mc : MC) : CellBounds where
  origin := fun j => mc.dom.origin j - mc.buf.origin j
  width := mc.dom.width

/-- Two cell bounds are the same, Go's `==` of structures of arrays. Used for render/density/interpolator.go 102-106.
-/
def sameBounds (a b : CellBounds) : Bool :=
  a.origin 0 = b.origin 0 ∧ a.origin 1 = b.origin 1 ∧ a.origin 2 = b.origin 2 ∧
    a.width 0 = b.width 0 ∧ a.width 1 = b.width 1 ∧ a.width 2 = b.width 2

/-- `neverMod`, render/density/interpolator.go 102-106. -/
def MC.neverMod (mc : MC) : Bool :=
  !sameBounds mc.dom mc.buf ||
    (mc.cells.tdiv 2 > mc.relCb.width 0 && mc.cells.tdiv 2 > mc.relCb.width 1 && mc.cells.tdiv 2 > mc.relCb.width 2)

/-- `coordNeg`, render/density/interpolator.go 183-188. -/
def coordNeg (c : Fin 4 → Vec) (j : Fin 3) : Bool := c 0 j < 0 || c 1 j < 0 || c 2 j < 0 || c 3 j < 0

/-- The loop of lines 148-152 with `modCoord` (190-194): every axis and every point is treated separately. -/
def modCoords (A : Arith) (c : Fin 4 → Vec) (cells : ℤ) (buf : List Vec) : List Vec :=
  buf.map fun p j => if coordNeg c j && decide (p j < 0) then A.shift cells (p j) else p j

/-- `ptVal` of `Interpolate`, render/density/interpolator.go 84-88. -/
def mcPtVal (reqVel : Bool) (points skip : ℤ) (ptVal : ℚ) : ℚ :=
  if reqVel then ptVal else ptVal / points / 6 * ((skip * skip * skip : ℤ) : ℚ)

/-- `ptVal` of the renderer, render/render.go 182-189. -/
def rendererPtVal (reqVel : Bool) (cells countWidth : ℤ) : ℚ :=
  if reqVel then 1
  else
    let frac := (cells : ℚ) / countWidth
    frac * frac * frac

variable {M : Type}

/-- `intr.vtet.Init(..)`, render/density/interpolator.go 127-134. -/
def velTetra (reqVel : Bool) (vs : List Vec) (idxs : Fin 4 → ℤ) (vtet : Tetra) : Option Tetra :=
  if reqVel then do
    let v0 ← rd vs (idxs 0)
    let v1 ← rd vs (idxs 1)
    let v2 ← rd vs (idxs 2)
    let v3 ← rd vs (idxs 3)
    some (vtet.init v0 v1 v2 v3)
  else some vtet

/-- The switch of render/density/interpolator.go 156-174: contents of `b.weights` and state of `intr.vtet`. -/
def velWeights (A : Arith) (reqVel : Bool) (vtet : Tetra) (unit wbuf : List Vec) : Option (List Vec × Tetra) :=
  if reqVel then A.distribute vtet unit wbuf else some (wbuf, vtet)

/-- One iteration of the inner loop, render/density/interpolator.go 114-178, for the tetrahedron `v`. `reqVel` is
`buf.Quantity().RequiresVelocity()`, true exactly for the buffers whose case of the switch 156-174 fills `b.weights`
(render/density/quantity.go 54-62). `pick n` is the result of the call number `n` of `intr.gen.UniformInt(0,
len(intr.unitBufs))`. -/
def mcVisit (mc : MC) (reqVel : Bool) (sub : List Vec → List Vec → List M → Option (List M)) (pick : ℕ → ℤ)
    (xs vs : List Vec) (v : TetVisit) (s : MCState M) : Option (MCState M) := do
  let idxs ← initIdxs v.1 (mc.segWidth + 1) mc.skip v.2
  let c0 ← rd xs (idxs 0)
  let c1 ← rd xs (idxs 1)
  let c2 ← rd xs (idxs 2)
  let c3 ← rd xs (idxs 3)
  let tet := s.tet.init c0 c1 c2 c3
  let vtet ← velTetra reqVel vs idxs s.vtet
  if !(mc.arith.cellBounds tet).intersect mc.relCb mc.cells then some { s with tet := tet, vtet := vtet }
  else do
    let unit ← rd mc.unitBufs (pick s.draws)
    let (vecBuf, tet) ← mc.arith.distribute tet unit s.vecBuf
    let vecBuf := if mc.neverMod then vecBuf else modCoords mc.arith tet.corners mc.cells vecBuf
    let (wbuf, vtet) ← velWeights mc.arith reqVel vtet unit s.wbuf
    let cells ← sub vecBuf wbuf s.cells
    some ⟨tet, vtet, vecBuf, wbuf, s.draws + 1, cells⟩

/-- `mcarlo.Interpolate`, render/density/interpolator.go 72-181. -/
def mcInterpolate (mc : MC) (reqVel : Bool) (sub : List Vec → List Vec → List M → Option (List M)) (pick : ℕ → ℤ)
    (xs vs : List Vec) (low high jump : ℤ) (s : MCState M) : Option (MCState M) :=
  let idxWidth := mc.segWidth.tdiv mc.skip
  forStep low high jump (fun idx (s : MCState M) =>
    let (x, y, z) := coords idx idxWidth
    let gridIdx := index (x * mc.skip) (y * mc.skip) (z * mc.skip) (mc.segWidth + 1)
    forRange 0 6 (fun dir (s : MCState M) => mcVisit mc reqVel sub pick xs vs (gridIdx, dir) s) s) s

end Verif.Render
