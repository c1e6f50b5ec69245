import Verif.Render.Model
import Mathlib.Analysis.SpecialFunctions.Log.Base

/-!
# Model of `render/hist.go`

Positions are exact rationals as elsewhere; histogrammed values are exact real numbers, because of the logarithmic
scale. Goroutines appear through the order in which the workers' results are merged.
-/

set_option autoImplicit false

namespace Verif.Hist

open Verif.Go Verif.Geom Verif.Render

/-! ## Overlap tests -/

/-- `contains1D`, render/hist.go 218-222. -/
def contains1D (a aSpan b L : ℚ) : Bool :=
  let b := if b ≥ L then b - L else b
  (b > a && a + aSpan > b) || (b < a && a + aSpan - L > b)

/-- `intersect1D`, render/hist.go 208-213. -/
def intersect1D (a aSpan b bSpan L : ℚ) : Bool :=
  contains1D a aSpan b L || contains1D a aSpan (b + bSpan) L ||
    contains1D b bSpan a L || contains1D b bSpan (a + aSpan) L

/-- `HistBox.Contains`, render/hist.go 37-44; the loop stops at the first axis that fails. -/
def boxContains (origin span v : Vec) (L : ℚ) : Bool :=
  contains1D (origin 0) (span 0) (v 0) L &&
    (contains1D (origin 1) (span 1) (v 1) L && contains1D (origin 2) (span 2) (v 2) L)

/-- `histIntersect`, render/hist.go 193-203, and the loop of `cubeIntersects`, lines 283-290. -/
def histIntersect (aOrigin aWidth bOrigin bSpan : Vec) (L : ℚ) : Bool :=
  intersect1D (aOrigin 0) (aWidth 0) (bOrigin 0) (bSpan 0) L &&
    (intersect1D (aOrigin 1) (aWidth 1) (bOrigin 1) (bSpan 1) L &&
      intersect1D (aOrigin 2) (aWidth 2) (bOrigin 2) (bSpan 2) L)

/-- Update of one axis of the bounding box, render/hist.go 309-324. -/
def growAxis (L v : ℚ) (os : ℚ × ℚ) : ℚ × ℚ :=
  let delta := v - os.1
  let delta := if delta > L / 2 then delta - L else if delta < -L / 2 then delta + L else delta
  if delta > 0 ∧ delta > os.2 then (os.1, delta)
  else if delta < 0 then
    let o := os.1 - delta
    (if o < 0 then o + L else o, os.2 + delta)
  else os

/-- `cubeBoundingBox`, render/hist.go 294-329: origin and span of every axis. -/
def cubeBoundingBox (xs : List Vec) (w jump : ℤ) (L : ℚ) (ix iy iz : ℤ) : Option (Fin 3 → ℚ × ℚ) := do
  let o ← rd xs (ix + iy * w + iz * w * w)
  forStep 0 jump jump (fun dz os =>
    forStep 0 jump jump (fun dy os =>
      forStep 0 jump jump (fun dx (os : Fin 3 → ℚ × ℚ) => do
        let x := ix + dx
        let y := iy + dy
        let z := iz + dz
        let vec ← rd xs (x + y * w + z * w * w)
        some fun k => growAxis L (vec k) (os k)) os) os) (fun k => (o k, 0))

/-- `cubeIntersects`, render/hist.go 267-292: the sheet's bounding box is `origin`, `width`. -/
def cubeIntersects (xs : List Vec) (w skip : ℤ) (L : ℚ) (origin width : Vec) (idx : ℤ) : Option Bool :=
  if w = 0 then none
  else
    let ix := idx.tmod w
    let iy := (idx.tdiv w).tmod w
    let iz := idx.tdiv (w * w)
    if ix < 0 ∨ skip + ix ≥ w ∨ iy < 0 ∨ skip + iy ≥ w ∨ iz < 0 ∨ skip + iz ≥ w then none
    else do
      let os ← cubeBoundingBox xs w skip L ix iy iz
      some (histIntersect origin width (fun k => (os k).1) (fun k => (os k).2) L)

/-! ## The cubes of a worker -/

/-- The values taken by `for z := 0; z < segWidth; z += skip`. render/hist.go 242. -/
def steps (segWidth skip : ℤ) : List ℤ :=
  (List.range ((segWidth + skip - 1) / skip).toNat).map fun (k : ℕ) => (k : ℤ) * skip

/-- The cubes a worker looks at, in order: the loops and the test of `chanHistogram`, render/hist.go 244-251. -/
def histVisits (segWidth gridWidth skip workers worker : ℤ) : List ℤ :=
  (steps segWidth skip).flatMap fun (z : ℤ) =>
    (steps segWidth skip).flatMap fun (y : ℤ) =>
      ((steps segWidth skip).map fun (x : ℤ) => x + y * gridWidth + z * gridWidth * gridWidth).filter fun (idx : ℤ) =>
        idx.tmod (skip * skip * skip * workers) = worker

/-! ## Density lookup -/

/-- One axis of `gridIndex`, render/hist.go 390-396: `none` stands for the early `return -1`. -/
def gridAxis (L origin span pixelWidth v : ℚ) : Option ℤ :=
  let delta := v - origin
  let delta := if delta < 0 then delta + L else delta
  let delta := if delta ≥ span then delta - L else delta
  if delta < 0 ∨ delta ≥ span then none else some (trunc (delta / pixelWidth))

/-- `gridIndex`, render/hist.go 386-401. -/
def gridIndex (L : ℚ) (origin span : Vec) (pixelSpan : IVec) (pixelWidth : ℚ) (v : Vec) : ℤ :=
  match gridAxis L (origin 0) (span 0) pixelWidth (v 0), gridAxis L (origin 1) (span 1) pixelWidth (v 1),
      gridAxis L (origin 2) (span 2) pixelWidth (v 2) with
  | some i, some j, some k => i + j * pixelSpan 0 + k * (pixelSpan 0 * pixelSpan 1)
  | _, _, _ => -1

/-- The part of `getDensities` after the points have been drawn, for one point, render/hist.go 359-382: the density
and the flag; `none` when the grid is shorter than the index. -/
def density (L : ℚ) (boxOrigin boxSpan : Vec) (gL : ℚ) (origin span : Vec) (pixelSpan : IVec) (pixelWidth : ℚ)
    (grid : List ℚ) (v : Vec) : Option (ℚ × Bool) :=
  let v : Vec := fun k =>
    let x := if v k ≥ L then v k - L else v k
    if x < 0 then x + L else x
  if boxContains boxOrigin boxSpan v L = false then some (-1, false)
  else
    let idx := gridIndex gL origin span pixelSpan pixelWidth v
    if idx ≥ 0 then do
      let d ← rd grid idx
      some (d, true)
    else some (-1, false)

/-! ## Histograms -/

/-- `HistInfo`, render/hist.go 15-19; `isLog` is `strings.ToLower(Scale) == "log"`. -/
structure HistInfo where
  min : ℝ
  max : ℝ
  bins : ℕ
  isLog : Bool

/-- `int(x)`. As in render/hist.go 395, 428 and 439. -/
noncomputable def truncR (x : ℝ) : ℤ := if 0 ≤ x then ⌊x⌋ else ⌈x⌉

/-- `math.Log10` on positive numbers. As in render/hist.go 147, 419 and 425. -/
noncomputable def log10 (x : ℝ) : ℝ := Real.logb 10 x

/-- `histogram`, render/hist.go 413-442. `math.Log10(0)` is `-Inf`, which is never in range; `math.Log10` of a
negative number is NaN, for which both comparisons in line 426 are false, so that the array is indexed with
`int(NaN)`, a panic (on amd64 the smallest integer). -/
noncomputable def histogram (info : HistInfo) (xs : List ℝ) (ok : List Bool) (counts : List ℤ) : Option (List ℤ) :=
  if info.isLog then
    let mn := log10 info.min
    let mx := log10 info.max
    let dx := (mx - mn) / info.bins
    forRange 0 xs.length (fun i counts => do
      let o ← rd ok i
      if o = false then some counts
      else do
        let x ← rd xs i
        if x < 0 then none
        else if x = 0 then some counts
        else
          let idx := (log10 x - mn) / dx
          if idx < 0 ∨ idx ≥ info.bins then some counts else accum counts (truncR idx) 1) counts
  else
    let dx := (info.max - info.min) / info.bins
    forRange 0 xs.length (fun i counts => do
      let o ← rd ok i
      if o = false then some counts
      else do
        let x ← rd xs i
        let idx := (x - info.min) / dx
        if idx < 0 ∨ idx ≥ info.bins then some counts else accum counts (truncR idx) 1) counts

/-- `histCenters`, render/hist.go 143-158. -/
noncomputable def histCenters (info : HistInfo) : List ℝ :=
  let mn := if info.isLog then log10 info.min else info.min
  let mx := if info.isLog then log10 info.max else info.max
  let dx := (mx - mn) / info.bins
  (List.range info.bins).map fun (i : ℕ) =>
    let c := mn + dx * ((i : ℝ) + 1 / 2)
    if info.isLog then (10 : ℝ) ^ c else c

/-- Histogram of one worker: `chanHistogram`, render/hist.go 227-263, from a cleared buffer. `hits` is
`cubeIntersects`, `draw idx dir` are the values and flags `getDensities` produces. -/
noncomputable def workerHist (info : HistInfo) (hits : ℤ → Option Bool) (draw : ℤ → ℤ → List ℝ × List Bool)
    (visits : List ℤ) : Option (List ℤ) :=
  visits.foldlM (fun hist (idx : ℤ) => do
    let h ← hits idx
    if h = false then some hist
    else forRange 0 6 (fun dir hist => histogram info (draw idx dir).1 (draw idx dir).2 hist) hist)
    (List.replicate info.bins 0)

/-- Merging in the order in which the workers finish, render/hist.go 176-181. -/
def mergeHists (bins : ℕ) (hists : ℕ → List ℤ) (order : List ℕ) (counts : List ℤ) : Option (List ℤ) :=
  order.foldlM (fun counts (id : ℕ) =>
    forRange 0 bins (fun j counts => do
      let v ← rd (hists id) j
      accum counts j v) counts) counts

end Verif.Hist
