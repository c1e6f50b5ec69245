import Verif.Go.Slice
import Verif.Go.Loops
import Verif.Geom.Model
import Verif.Io.Model

/-!
# Model of `render/main/main.go`

The command line program: choosing the mode, converting snapshots to sheet segments, and turning a
configuration into pixel and particle counts.

Simplifications: `int` and `int64` are unbounded integers; `float32` and `float64` are exact rationals (the
floating point cube root is a parameter); logging, profiling, `runtime.GC` and memory statistics are left out;
`log.Fatal` and panics are both `none`. A directory is the list of writes made to it, in order.
-/

set_option autoImplicit false

namespace Verif.Main
open Verif.Go Verif.Geom

/-! ## The mode -/

/-- `getModeName`, render/main/main.go 219-239. `vars` lists the entries of the map in the order in which
`range` visits them, which Go leaves open. The error message is left out. -/
def getModeName (vars : List (String × String)) : Option String :=
  let setNames := vars.foldl (fun s v => if v.2 ≠ "" then s ++ [v.1] else s) []
  if setNames.length = 0 then none
  else if setNames.length > 1 then none
  else setNames[0]?

/-! ## Snapshot iteration -/

/-- The fields of `io.ConvertSnapshotConfig` used by `lGadget2Main`, render/io/config.go 240-251. -/
structure ConvertConfig where
  input : String
  output : String
  iteratedInput : String
  iteratedOutput : String
  iterationStart : ℤ
  iterationEnd : ℤ
  cells : ℤ

/-- `DefaultConvertSnapshotWrapper`, render/io/config.go 253-262. -/
def defaultConvert : ConvertConfig := ⟨"", "", "", "", 0, -1, 0⟩

/-- `ValidIteratedInput`, render/io/config.go 274-276. -/
def ConvertConfig.validIteratedInput (con : ConvertConfig) : Bool := decide (con.iteratedInput ≠ "")

/-- `lGadget2Main`, render/main/main.go 243-277, with `fmt.Sprintf(f, i)` as `sprintf f i` and the conversion
of one snapshot (258-275) as `convert input output`. -/
def lGadget2Main {σ : Type} (sprintf : String → ℤ → String) (convert : String → String → σ → Option σ)
    (con : ConvertConfig) (s : σ) : Option σ :=
  let con := if con.validIteratedInput then con else { con with iterationStart := 0, iterationEnd := 0 }
  forRange con.iterationStart (con.iterationEnd + 1) (fun i s =>
    let io := if con.validIteratedInput then (sprintf con.iteratedInput i, sprintf con.iteratedOutput i)
      else (con.input, con.output)
    convert io.1 io.2 s) s

/-! ## Small integer helpers -/

/-- `validCellNum`, render/main/main.go 520-523. -/
def validCellNum (cells : ℤ) : Bool :=
  if cells > 1 then validCellNum (cells.tdiv 2) else decide (cells = 1)
termination_by cells.toNat
decreasing_by
  rw [Int.tdiv_eq_ediv_of_nonneg (by omega)]
  omega

/-- `round`, render/main/main.go 681-688. -/
def round (x : ℚ) : ℤ := if (⌈x⌉ : ℚ) - x < x - (⌊x⌋ : ℚ) then ⌈x⌉ else ⌊x⌋

/-- `intCubeRoot`, render/main/main.go 356-360, with `math.Pow(float64(x), 1.0 / 3.0)` as `pow x`. -/
def intCubeRoot (pow : ℤ → ℚ) (x : ℤ) : Option ℤ :=
  let cr := round (pow x)
  if cr * cr * cr ≠ x then none else some cr

/-! ## Bounding boxes -/

/-- `boundingBox`, render/main/main.go 418-422. -/
structure BBox where
  width : ℚ
  center : Vec
  toMax : Vec
  toMin : Vec
  toPt : Vec

/-- A zero `boundingBox` after `Init`, render/main/main.go 426-429 and 471-472. -/
def BBox.init (pt : Vec) (width : ℚ) : BBox := ⟨width, pt, 0, 0, 0⟩

/-- `minMax`, render/main/main.go 451-459. -/
def minMax (min max x : ℚ) : ℚ × ℚ :=
  if x > max then (min, x) else if x < min then (x, max) else (min, max)

/-- `boundingBox.Add`, render/main/main.go 432-448. -/
def BBox.add (box : BBox) (pt : Vec) : BBox :=
  let toPt := pt.sub box.center box.width
  let toMin : Vec := fun i => (minMax (box.toMin i) (box.toMax i) (toPt i)).1
  let toMax : Vec := fun i => (minMax (box.toMin i) (box.toMax i) (toPt i)).2
  let toPt := (toMax.add toMin).scale (1 / 2)
  { box with
    center := box.center.add toPt
    toMax := toMax.sub toPt box.width
    toMin := toMin.sub toPt box.width
    toPt := toPt }

/-! ## Segments -/

/-- The fields of `io.SheetHeader` set by `writeGrids` and `copyToSegment`, render/io/io.go 54-65 (the
cosmology is left out). -/
structure Sheet where
  count : ℤ
  countWidth : ℤ
  segmentWidth : ℤ
  gridWidth : ℤ
  gridCount : ℤ
  idx : ℤ
  cells : ℤ
  mass : ℚ
  totalWidth : ℚ
  origin : Vec
  width : Vec
  velocityOrigin : Vec
  velocityWidth : Vec

/-- The variables of `copyToSegment`. render/main/main.go 464-490. -/
structure Copy where
  smallIdx : ℤ
  box : BBox
  vMin : Vec
  vMax : Vec
  xsSeg : List Vec
  vsSeg : List Vec

/-- Velocity bounds along one axis, render/main/main.go 499-503. -/
def vBound (min max v : ℚ) : ℚ × ℚ :=
  if v < min then (v, max) else if v > max then (min, v) else (min, max)

/-- Innermost statements of `copyToSegment`, render/main/main.go 493-506. -/
def copyStep (xs vs : List Vec) (largeIdx : ℤ) (s : Copy) : Option Copy := do
  let x ← rd xs largeIdx
  let xsSeg ← wr s.xsSeg s.smallIdx x
  let v ← rd vs largeIdx
  let vsSeg ← wr s.vsSeg s.smallIdx v
  some {
    smallIdx := s.smallIdx + 1
    box := s.box.add x
    vMin := fun d => (vBound (s.vMin d) (s.vMax d) (v d)).1
    vMax := fun d => (vBound (s.vMin d) (s.vMax d) (v d)).2
    xsSeg := xsSeg
    vsSeg := vsSeg }

/-- `if zIdx == shd.CountWidth { zIdx = 0 }`, render/main/main.go 480-487. -/
def wrapIdx (n i : ℤ) : ℤ := if i = n then 0 else i

/-- `copyToSegment`, render/main/main.go 464-517. Division by `Cells` panics when it is zero. -/
def copyToSegment (shd : Sheet) (xs vs xsSeg vsSeg : List Vec) : Option (Sheet × List Vec × List Vec) :=
  if shd.cells = 0 then none else do
    let xStart := shd.segmentWidth * shd.idx.tmod shd.cells
    let yStart := shd.segmentWidth * (shd.idx.tdiv shd.cells).tmod shd.cells
    let zStart := shd.segmentWidth * shd.idx.tdiv (shd.cells * shd.cells)
    let N := shd.countWidth
    let N2 := shd.countWidth * shd.countWidth
    let p ← rd xs (xStart + N * yStart + N2 * zStart)
    let v0 ← rd vs 0
    let s ← forRange zStart (zStart + shd.gridWidth) (fun z s =>
      forRange yStart (yStart + shd.gridWidth) (fun y s =>
        forRange xStart (xStart + shd.gridWidth) (fun x s =>
          copyStep xs vs (wrapIdx shd.countWidth x + wrapIdx shd.countWidth y * N +
            wrapIdx shd.countWidth z * N2) s) s) s)
      ⟨0, BBox.init p shd.totalWidth, v0, v0, xsSeg, vsSeg⟩
    some ({ shd with
      origin := (s.box.center.add s.box.toMin).mod shd.totalWidth
      width := s.box.toMax.scale 2
      velocityOrigin := s.vMin
      velocityWidth := fun d => s.vMax d - s.vMin d }, s.xsSeg, s.vsSeg)

/-- The fields of `io.CatalogHeader` used here, render/io/io.go 28-40. -/
structure Catalog where
  count : ℤ
  totalCount : ℤ
  countWidth : ℤ
  mass : ℚ
  totalWidth : ℚ

/-- One sheet file: its name inside the output directory and what `io.WriteSheet` is given. render/main/main.go
393-395. -/
structure SheetFile where
  name : String
  header : Sheet
  xs : List Vec
  vs : List Vec

/-- The header prepared by `writeGrids`, render/main/main.go 368-385. -/
def sheetHeader (hd : Catalog) (cells : ℤ) : Sheet where
  count := hd.count
  countWidth := hd.countWidth
  segmentWidth := hd.countWidth.tdiv cells
  gridWidth := hd.countWidth.tdiv cells + 1
  gridCount := (hd.countWidth.tdiv cells + 1) * (hd.countWidth.tdiv cells + 1) * (hd.countWidth.tdiv cells + 1)
  idx := 0
  cells := cells
  mass := hd.mass
  totalWidth := hd.totalWidth
  origin := 0
  width := 0
  velocityOrigin := 0
  velocityWidth := 0

/-- `fmt.Sprintf("sheet%d%d%d.dat", x, y, z)`, render/main/main.go 392-394. -/
def sheetName (x y z : ℤ) : String := "sheet" ++ toString x ++ toString y ++ toString z ++ ".dat"

/-- The variables of `writeGrids`. render/main/main.go 363-390. -/
structure Writing where
  shd : Sheet
  xsSeg : List Vec
  vsSeg : List Vec
  files : List SheetFile

/-- `writeGrids`, render/main/main.go 363-412: the files written, in order. A zero `cells` or a negative
buffer length panics. -/
def writeGrids (hd : Catalog) (cells : ℤ) (xs vs : List Vec) : Option (List SheetFile) :=
  if cells = 0 then none else
  let shd := sheetHeader hd cells
  if shd.gridCount < 0 then none else do
    let seg : List Vec := List.replicate shd.gridCount.toNat 0
    let s ← forRange 0 cells (fun z (s : Writing) =>
      forRange 0 cells (fun y (s : Writing) =>
        forRange 0 cells (fun x (s : Writing) => do
          let (shd, xsSeg, vsSeg) ← copyToSegment s.shd xs vs s.xsSeg s.vsSeg
          some ⟨{ shd with idx := shd.idx + 1 }, xsSeg, vsSeg, s.files ++ [⟨sheetName x y z, shd, xsSeg, vsSeg⟩]⟩)
          s) s) ⟨shd, seg, seg, []⟩
    some s.files

/-! ## Reading snapshots -/

/-- One snapshot file as delivered by `ReadGadgetHeader` and `ReadGadgetParticlesAt` (modelled in `Verif.Io`): the
header and its particles. Used in render/main/main.go 285 and 330. -/
structure Snapshot where
  hd : Catalog
  particles : List (Vec × Vec × ℤ)

/-- The buffer length, render/main/main.go 25-27. -/
def catalogBufLen : ℕ := 4096

/-- `createGrids`, render/main/main.go 280-353. Reading the particles of a file needs exactly `Count` of them
(`ReadGadgetParticlesAt` panics otherwise); the scratch buffers `xBuf`, `vBuf`, `idBuf`, overwritten for each
file, are left out. -/
def createGrids (pow : ℤ → ℚ) (xUnits vUnits mUnits : ℚ) (catalogs : List Snapshot) :
    Option (Catalog × List Vec × List Vec) := do
  let hs := catalogs.map fun c => { c.hd with mass := c.hd.mass * mUnits }
  let h0 ← hs[0]?
  if h0.totalCount < 0 then none else
  let grid : List Vec := List.replicate h0.totalCount.toNat 0
  let buf ← forRange 0 catalogs.length (fun i buf => do
    let c ← rd catalogs i
    if c.hd.count ≠ c.particles.length then none else
    buf.append (c.particles.map fun p => p.1.scale xUnits) (c.particles.map fun p => p.2.1.scale vUnits)
      (c.particles.map fun p => p.2.2)) (Io.newParticleBuffer 0 grid grid catalogBufLen)
  let buf ← buf.flush
  let cw ← intCubeRoot pow h0.totalCount
  some ({ h0 with countWidth := cw }, buf.xs, buf.vs)

/-! ## Pixels and particles -/

/-- The fields of `io.BoxConfig` used here, render/io/config.go 417-427. -/
structure BoxCon where
  xWidth : ℚ
  yWidth : ℚ
  zWidth : ℚ
  projectionAxis : String

/-- The fields of `io.RenderConfig` used here, render/io/config.go 287-300. -/
structure RenderCon where
  imagePixels : ℤ
  totalPixels : ℤ
  particles : ℤ
  projectionDepth : ℤ
  subsampleLength : ℤ
  autoParticles : Bool

/-- `maxWidth`, render/main/main.go 709-722. -/
def maxWidth (box : BoxCon) : ℚ :=
  let max := if box.xWidth > box.yWidth then box.xWidth else box.yWidth
  if max > box.zWidth then max else box.zWidth

/-- `totalPixels`, render/main/main.go 691-706; `ValidImagePixels` is render/io/config.go 327-329. -/
def totalPixels (con : RenderCon) (box : BoxCon) (boxWidth : ℚ) : Option ℤ :=
  if con.imagePixels > 0 then
    let w := maxWidth box
    if w > boxWidth then none else some (round (boxWidth / w * con.imagePixels))
  else some con.totalPixels

/-- `particles`, render/main/main.go 726-759; the second result is the configuration it leaves behind.
`ValidProjectionDepth` is render/io/config.go 330-332. -/
def particles (con : RenderCon) (box : BoxCon) (boxWidth : ℚ) : Option (ℤ × RenderCon) := do
  let con ← if con.autoParticles then do
      let cells ← totalPixels con box boxWidth
      let cellWidth := boxWidth / cells
      let depth := if box.projectionAxis = "X" then ⌈box.xWidth / cellWidth⌉
        else if box.projectionAxis = "Y" then ⌈box.yWidth / cellWidth⌉
        else if box.projectionAxis = "Z" then ⌈box.zWidth / cellWidth⌉
        else 1
      some { con with projectionDepth := depth }
    else some con
  if con.projectionDepth > 0 then do
    let pixels ← totalPixels con box boxWidth
    some (⌈5 * ((pixels : ℚ) / 500) ^ 3 * ((con.subsampleLength : ℚ) / 1) ^ 3 * (1 / con.projectionDepth)⌉, con)
  else some (con.particles, con)

end Verif.Main
