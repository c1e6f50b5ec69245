import Verif.Hist.Model
import Verif.Main.OutputModel

/-!
# Model of the histogram program: `tetraHistMain` and `HistManager`

Sheet files, the density grid and the bounds files are given by their contents; reading them is modelled elsewhere. Any
stop of the program is `none`. Scratch buffers are written before they are read and appear as fresh lists. The order in which
workers finish and the unit buffers drawn at random are parameters. `path.Join` and the output directory are left out, the
format of the numbers in the files too.
-/

set_option autoImplicit false

namespace Verif.Hist

open Verif.Go Verif.Geom Verif.Render Verif.Io Verif.Main

/-- What is read from a sheet file: parts of the header and the positions. render/hist.go 163 and 170. -/
structure Sheet where
  origin : Vec
  width : Vec
  totalWidth : ℚ
  segWidth : ℤ
  gridWidth : ℤ
  xs : List Vec

/-- The density grid: parts of its header and its values. render/hist.go 93-96. -/
structure DensityGrid where
  boxWidth : ℚ
  origin : Vec
  span : Vec
  pixelSpan : IVec
  pixelWidth : ℚ
  values : List ℚ

/-- `HistBox`, render/hist.go 21-26. -/
structure HistBox where
  origin : Vec
  span : Vec
  centers : List ℝ
  counts : List ℤ

/-- `NewHistBox`, render/hist.go 28-36. -/
noncomputable def newHistBox (con : BoxConfig) (bins : ℕ) : HistBox :=
  ⟨![con.x, con.y, con.z], ![con.xWidth, con.yWidth, con.zWidth], List.replicate bins 0, List.replicate bins 0⟩

/-- `getDensities`, render/hist.go 335-384: the pairs of entries of `densities` and `inBox`. `unit` is the unit buffer of
line 357; all unit buffers and `vecBuf` have the same length. -/
def getDensities (s : Sheet) (g : DensityGrid) (skip : ℤ) (boxOrigin boxSpan : Vec) (unit : List Vec) (i dir : ℤ) :
    Option (List (ℚ × Bool)) := do
  let idxBuf ← initIdxs i s.gridWidth skip dir
  let c0 ← rd s.xs (idxBuf 0)
  let c1 ← rd s.xs (idxBuf 1)
  let c2 ← rd s.xs (idxBuf 2)
  let c3 ← rd s.xs (idxBuf 3)
  let r ← (newTetra c0 c1 c2 c3).distributeTetra unit (List.replicate unit.length (fun _ => 0))
  r.1.mapM (density s.totalWidth boxOrigin boxSpan g.boxWidth g.origin g.span g.pixelSpan g.pixelWidth g.values)

/-- `chanHistogram`, render/hist.go 227-263, for the quantity "density" (any other stops the program): what is in the
worker's buffer at the end. `pick idx dir` is the number of the unit buffer drawn for a tetrahedron, line 356. -/
noncomputable def chanHistogram (info : HistInfo) (s : Sheet) (g : DensityGrid) (skip workers : ℤ)
    (unitBufs : List (List Vec)) (box : HistBox) (pick : ℤ → ℤ → ℤ) (worker : ℤ) : Option (List ℤ) :=
  (histVisits s.segWidth s.gridWidth skip workers worker).foldlM (fun hist (idx : ℤ) => do
    let h ← cubeIntersects s.xs s.gridWidth skip s.totalWidth s.origin s.width idx
    if h = false then some hist
    else forRange 0 6 (fun dir hist => do
      let unit ← rd unitBufs (pick idx dir)
      let ds ← getDensities s g skip box.origin box.span unit idx dir
      histogram info (ds.map fun d => (d.1 : ℝ)) (ds.map fun d => d.2) hist) hist) (List.replicate info.bins 0)

/-- The body of the loop over the boxes in `HistFromFile`, render/hist.go 168-182; `order` are the workers in the order in
which they finish. -/
noncomputable def histOneBox (info : HistInfo) (s : Sheet) (g : DensityGrid) (skip : ℤ) (workers : ℕ)
    (unitBufs : List (List Vec)) (order : List ℕ) (pick : ℤ → ℤ → ℤ) (box : HistBox) : Option HistBox :=
  if histIntersect s.origin s.width box.origin box.span s.totalWidth = false then some box
  else do
    let hists ← (List.range workers).mapM fun (id : ℕ) => chanHistogram info s g skip workers unitBufs box pick id
    let counts ← mergeHists info.bins (fun id => hists.getD id []) order box.counts
    some { box with counts := counts }

/-- `HistFromFile`, render/hist.go 162-190, with the orders and random numbers of every box. -/
noncomputable def histFromFile (info : HistInfo) (g : DensityGrid) (skip : ℤ) (workers : ℕ) (unitBufs : List (List Vec))
    (order : ℕ → List ℕ) (pick : ℕ → ℤ → ℤ → ℤ) (s : Sheet) (boxes : List HistBox) : Option (List HistBox) :=
  boxes.zipIdx.mapM fun p => histOneBox info s g skip workers unitBufs (order p.2) (pick p.2) p.1

/-- `Hist`, render/hist.go 112-140. -/
noncomputable def hist (info : HistInfo) (g : DensityGrid) (skip : ℤ) (workers : ℕ) (unitBufs : List (List Vec))
    (order : ℕ → ℕ → List ℕ) (pick : ℕ → ℕ → ℤ → ℤ → ℤ) (files : List Sheet) (boxes : List HistBox) :
    Option (List HistBox) :=
  let boxes := boxes.map fun b => { b with counts := List.replicate info.bins 0, centers := histCenters info }
  files.zipIdx.foldlM (fun boxes f => histFromFile info g skip workers unitBufs (order f.2) (pick f.2) f.1 boxes) boxes

/-- The name of a histogram file, render/main/main.go 802-803. -/
def histName (pre name app : List Char) : List Char := pre ++ name ++ app ++ ".txt".toList

/-- The rows of a histogram file, render/main/main.go 815-817. -/
noncomputable def histRows (box : HistBox) : Option (List (ℝ × ℤ)) :=
  (List.range box.counts.length).mapM fun (j : ℕ) => do
    let c ← rd box.centers j
    let n ← rd box.counts j
    some (c, n)

/-- `tetraHistMain`, render/main/main.go 761-819: names and rows of the files in the order in which they are written.
`totalWidth` is that of the first file, line 763. -/
noncomputable def tetraHistMain (info : HistInfo) (pre app : List Char) (g : DensityGrid) (skip : ℤ) (workers : ℕ)
    (unitBufs : List (List Vec)) (order : ℕ → ℕ → List ℕ) (pick : ℕ → ℕ → ℤ → ℤ → ℤ) (files : List Sheet)
    (bounds : List BoundsFile) : Option (List (List Char × List (ℝ × ℤ))) := do
  let first ← files[0]?
  let configBoxes ← readAllBounds first.totalWidth bounds
  let boxes := configBoxes.map fun c => newHistBox c info.bins
  let boxes ← hist info g skip workers unitBufs order pick files boxes
  (configBoxes.zip boxes).mapM fun p => do
    let rows ← histRows p.2
    some (histName pre p.1.name app, rows)

end Verif.Hist
