import Verif.Fp.RandModel
import Verif.Hist.Model

/-!
# Histograms and density lookup in machine arithmetic

Versions of definitions of `Verif/Hist/Model.lean` in which every operation is rounded. `math.Log10` is a parameter
`lg`, of which nothing is assumed.
-/

set_option autoImplicit false

namespace Verif.Fp

open Verif.Go Verif.Geom Verif.Render

/-- `HistInfo`, render/hist.go 15-19; `isLog` is `strings.ToLower(Scale) == "log"`. -/
structure HistInfo64 where
  min : ℚ
  max : ℚ
  bins : ℕ
  isLog : Bool

/-- The variable `idx` for a value with parameters `min` and `max`, all three already replaced by their logarithms
when the scale is logarithmic, render/hist.go 420-425 and 432-437. -/
def histIdx64 (min max : ℚ) (bins : ℕ) (x : ℚ) : ℚ :=
  let fBins := f64 bins
  let dx := f64 (f64 (max - min) / fBins)
  f64 (f64 (x - min) / dx)

/-- `histogram`, render/hist.go 413-442, in `float64`. As in `Hist.histogram`, a logarithm of zero is never in range and
one of a negative number stops the program. -/
def histogram64 (lg : ℚ → ℚ) (info : HistInfo64) (xs : List ℚ) (ok : List Bool) (counts : List ℤ) :
    Option (List ℤ) :=
  let fBins := f64 info.bins
  if info.isLog then
    forRange 0 xs.length (fun i counts => do
      let o ← rd ok i
      if o = false then some counts
      else do
        let x ← rd xs i
        if x < 0 then none
        else if x = 0 then some counts
        else
          let idx := histIdx64 (lg info.min) (lg info.max) info.bins (lg x)
          if idx < 0 ∨ idx ≥ fBins then some counts else accum counts (trunc idx) 1) counts
  else
    forRange 0 xs.length (fun i counts => do
      let o ← rd ok i
      if o = false then some counts
      else do
        let x ← rd xs i
        let idx := histIdx64 info.min info.max info.bins x
        if idx < 0 ∨ idx ≥ fBins then some counts else accum counts (trunc idx) 1) counts

/-- `histCenters` for a linear scale, render/hist.go 143-158; `fused` tells whether the compiler joins the product and
the sum in line 153 into one operation. -/
def histCenters64 (fused : Bool) (info : HistInfo64) : List ℚ :=
  let dx := f64 (f64 (info.max - info.min) / f64 info.bins)
  (List.range info.bins).map fun (i : ℕ) => mulAdd fused 53 dx (f64 (f64 i + 1 / 2)) info.min

/-- `contains1D`, render/hist.go 218-222. -/
def contains64 (a aSpan b L : ℚ) : Bool :=
  let b := if b ≥ L then f64 (b - L) else b
  (b > a && f64 (a + aSpan) > b) || (b < a && f64 (f64 (a + aSpan) - L) > b)

/-- `HistBox.Contains`, render/hist.go 37-44; the loop stops at the first axis that fails. -/
def boxContains64 (origin span v : Vec) (L : ℚ) : Bool :=
  contains64 (origin 0) (span 0) (v 0) L &&
    (contains64 (origin 1) (span 1) (v 1) L && contains64 (origin 2) (span 2) (v 2) L)

/-- An axis of `Origin` or `Span` in `NewLocationInfo`, render/io/output.go 129-131. -/
def locAxis64 (cells : ℤ) (cellWidth : ℚ) : ℚ := f64 (f64 cells * cellWidth)

/-- One axis of `gridIndex`, render/hist.go 390-396: `none` stands for the early `return -1`. -/
def gridAxis64 (L origin span pixelWidth v : ℚ) : Option ℤ :=
  let delta := f64 (v - origin)
  let delta := if delta < 0 then f64 (delta + L) else delta
  let delta := if delta ≥ span then f64 (delta - L) else delta
  if delta < 0 ∨ delta ≥ span then none else some (trunc (f64 (delta / pixelWidth)))

/-- `gridIndex`, render/hist.go 386-401, with the header `NewLocationInfo` makes for an image of the cells from
`pixelOrigin`, `pixelSpan` cells per side, render/io/output.go 126-139. -/
def gridIndex64 (L : ℚ) (pixelOrigin pixelSpan : IVec) (pixelWidth : ℚ) (v : Vec) : ℤ :=
  let axis (k : Fin 3) :=
    gridAxis64 L (locAxis64 (pixelOrigin k) pixelWidth) (locAxis64 (pixelSpan k) pixelWidth) pixelWidth (v k)
  match axis 0, axis 1, axis 2 with
  | some i, some j, some k => i + j * pixelSpan 0 + k * (pixelSpan 0 * pixelSpan 1)
  | _, _, _ => -1

/-- One coordinate of a sampled point put back into the box, render/hist.go 362-363, in `float32`. -/
def wrapHist32 (L x : ℚ) : ℚ :=
  let w := f32 L
  let x := if x ≥ w then f32 (x - w) else x
  if x < 0 then f32 (x + w) else x

/-- The part of `getDensities` after the points have been drawn, for one point, render/hist.go 359-382: the density
and the flag; `none` when the grid is shorter than the index. -/
def density64 (L : ℚ) (boxOrigin boxSpan : Vec) (pixelOrigin pixelSpan : IVec) (pixelWidth : ℚ) (grid : List ℚ) (v : Vec) :
    Option (ℚ × Bool) :=
  let v : Vec := fun k => wrapHist32 L (v k)
  if boxContains64 boxOrigin boxSpan v L = false then some (-1, false)
  else
    let idx := gridIndex64 L pixelOrigin pixelSpan pixelWidth v
    if idx ≥ 0 then do
      let d ← rd grid idx
      some (d, true)
    else some (-1, false)

end Verif.Fp
