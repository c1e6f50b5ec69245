import Verif.Main.Pipeline
import Verif.Io.GridModel
import Verif.Io.ConfigModel
import Verif.Render.BufModel
import Verif.Cosmo.Model

/-!
# Model of `renderMain`: from bounds files to image files

Parsing of the bounds files is not modelled: a bounds file is given by the entries of its two maps, in the order in which
the `range` loops visit them. Any stop of the program (`log.Fatal`, a panic) is `none`. `path.Join` and the output directory
are left out: a name is the last element of a path. What is in the buffer of a box after rendering is a parameter. A
`float64` in a header is the word `enc x`.
-/

set_option autoImplicit false

namespace Verif.Main

open Verif.Go Verif.Io Verif.Geom Verif.Render

/-- The entries of a bounds file: names and balls, names and boxes. `BoundsConfig`, render/io/config.go 481-484. -/
structure BoundsFile where
  balls : List (List Char × BallConfig)
  boxes : List (List Char × BoxConfig)

/-- One turn of the loop over the balls, render/io/config.go 494-499. -/
def addBall (totalWidth : ℚ) (boxes : List BoxConfig) (e : List Char × BallConfig) : Option (List BoxConfig) :=
  let r := e.2.checkInit e.1 totalWidth
  if r.2 then some (boxes ++ [r.1.box totalWidth]) else none

/-- One turn of the loop over the boxes, render/io/config.go 500-505. -/
def addBox (totalWidth : ℚ) (boxes : List BoxConfig) (e : List Char × BoxConfig) : Option (List BoxConfig) :=
  let r := e.2.checkInit e.1 totalWidth
  if r.2 then some (boxes ++ [r.1]) else none

/-- `ReadBoundsConfig` after parsing, render/io/config.go 493-508. -/
def readBounds (totalWidth : ℚ) (f : BoundsFile) : Option (List BoxConfig) := do
  let boxes ← f.balls.foldlM (addBall totalWidth) []
  f.boxes.foldlM (addBox totalWidth) boxes

/-- The boxes of all bounds files, render/main/main.go 532-537. -/
def readAllBounds (totalWidth : ℚ) (fs : List BoundsFile) : Option (List BoxConfig) :=
  fs.foldlM (fun acc f => do
    let boxes ← readBounds totalWidth f
    some (acc ++ boxes)) []

/-- `b.proj` in `newBox2D`, render/box.go 146-154. -/
def axisNumber (axis : List Char) : Option ℤ :=
  if axis = ['X'] then some 0 else if axis = ['Y'] then some 1 else if axis = ['Z'] then some 2 else none

/-- `NewBox`, render/box.go 126-137; a number of particles below zero fails later, when buffers are made. -/
def newBox (boxWidth : ℚ) (pts cells q : ℤ) (config : BoxConfig) : Option RBox := do
  let can ← if config.isProjection then canProject q else some false
  let origin : Vec := ![config.x, config.y, config.z]
  let width : Vec := ![config.xWidth, config.yWidth, config.zWidth]
  if config.isProjection ∧ can then do
    let a ← axisNumber config.projectionAxis
    some (RBox.new boxWidth pts.toNat cells origin width (some a))
  else some (RBox.new boxWidth pts.toNat cells origin width none)

/-- `len` in render/box.go 172-176 and 208: the length of the buffer of values. -/
def RBox.len (b : RBox) : ℤ :=
  match b.proj with
  | none => boxLen3 b.cb
  | some a => boxLen2 b.cb a

/-- The fields of a box which `totalPixels` and `particles` look at, render/main/main.go 548-549. -/
def BoxConfig.con (c : BoxConfig) : BoxCon := ⟨c.xWidth, c.yWidth, c.zWidth, String.ofList c.projectionAxis⟩

/-- One turn of the loop that makes the boxes, render/main/main.go 545-557. `particles` may change the configuration. -/
def makeBox (boxWidth : ℚ) (q : ℤ) (s : RenderCon × List RBox) (c : BoxConfig) : Option (RenderCon × List RBox) := do
  let cells ← totalPixels s.1 (BoxConfig.con c) boxWidth
  let r ← particles s.1 (BoxConfig.con c) boxWidth
  let b ← newBox boxWidth r.1 cells q c
  some (r.2, s.2 ++ [b])

/-- `projectionDepth`, render/io/output.go 118-124. -/
def projectionDepth (particles totalCells skip : ℤ) : ℤ :=
  ⌈20000 / (particles : ℚ) * ((totalCells : ℚ) / 5000) ^ 3 / (skip : ℚ) ^ 3⌉

/-- The word of an `int64`, render/io/output.go 32-57. -/
def word (n : ℤ) : Word 8 := BitVec.ofInt (8 * 8) n

/-- `NewRenderInfo`, render/io/output.go 103-116. -/
def newRenderInfo (particles totalCells skip : ℤ) (axisStr : List Char) : RenderInfo :=
  let projDepth := projectionDepth particles totalCells skip
  let axis : ℤ := -1
  let axis := if axisStr = ['X'] then 0 else axis
  let axis := if axisStr = ['Y'] then 1 else axis
  let axis := if axisStr = ['Z'] then 2 else axis
  ⟨word particles, word totalCells, word skip, word projDepth, word axis⟩

/-- `NewLocationInfo`, render/io/output.go 126-139. -/
noncomputable def newLocationInfo (enc : ℝ → Word 8) (origin span : IVec) (cellWidth : ℚ) : LocationInfo where
  origin := ⟨enc (origin 0 * cellWidth : ℚ), enc (origin 1 * cellWidth : ℚ), enc (origin 2 * cellWidth : ℚ)⟩
  span := ⟨enc (span 0 * cellWidth : ℚ), enc (span 1 * cellWidth : ℚ), enc (span 2 * cellWidth : ℚ)⟩
  pixelOrigin := ⟨word (origin 0), word (origin 1), word (origin 2)⟩
  pixelSpan := ⟨word (span 0), word (span 1), word (span 2)⟩
  pixelWidth := enc cellWidth

/-- `CosmologyHeader`, render/io/io.go 69-74, as real numbers. -/
structure Cosmology where
  z : ℝ
  omegaM : ℝ
  omegaL : ℝ
  h100 : ℝ

/-- `NewCosmoInfo`, render/io/output.go 94-101. -/
noncomputable def newCosmoInfo (enc : ℝ → Word 8) (h0 omegaM omegaL z boxWidth : ℝ) : CosmoInfo :=
  let a := 1 / (1 + z)
  let rhoC := Cosmo.rhoCritical h0 omegaM omegaL z
  let rhoM := Cosmo.rhoAverage h0 omegaM omegaL z
  ⟨enc z, enc a, enc omegaM, enc omegaL, enc h0, enc rhoM, enc rhoC, enc boxWidth⟩

/-- The name of an image, render/main/main.go 570-571. -/
def imageName (pre name app : List Char) : List Char := pre ++ name ++ app ++ ".gtet".toList

/-- One turn of the loop that writes the images, render/main/main.go 567-593: name and content of the file. -/
noncomputable def writeImage (enc : ℝ → Word 8) (con : RenderCon) (pre app : List Char) (q : ℤ) (totalWidth : ℚ)
    (cosmo : Cosmology) (c : BoxConfig) (b : RBox) (vals : Finalized) : Option (List Char × List Byte) :=
  let loc := newLocationInfo enc b.cb.origin b.cb.width b.cellWidth
  let renderInfo := newRenderInfo con.particles con.totalPixels con.subsampleLength c.projectionAxis
  let cos := newCosmoInfo enc (cosmo.h100 * 100) cosmo.omegaM cosmo.omegaL cosmo.z totalWidth
  match writeBuffer (word q) vals cos renderInfo loc with
  | .ok bytes => some (imageName pre c.name app, bytes)
  | _ => none

/-- `renderMain`, render/main/main.go 526-594: the files in the order in which they are written. `vals i b` are the values
of box number `i` after rendering. -/
noncomputable def renderMain (enc : ℝ → Word 8) (con : RenderCon) (pre app : List Char) (quantity : String) (totalWidth : ℚ)
    (cosmo : Cosmology) (bounds : List BoundsFile) (vals : ℕ → RBox → Finalized) :
    Option (List (List Char × List Byte)) := do
  let configBoxes ← readAllBounds totalWidth bounds
  let q ← Io.quantityFromString quantity
  let r ← configBoxes.foldlM (makeBox totalWidth q) (con, [])
  (configBoxes.zip r.2).zipIdx.mapM fun e => writeImage enc r.1 pre app q totalWidth cosmo e.1.1 e.1.2 (vals e.2 e.1.2)

end Verif.Main
