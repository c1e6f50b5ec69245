import Verif.Render.BufModel

/-!
# Model of the sample points shared by the boxes of one manager, render/render.go

`NewManager` draws the sample points once, as many as the box that asks for most; before every pass `initWorkspaces`
cuts the slices to the number the box of the pass asks for, and leaves them cut.
-/

set_option autoImplicit false

namespace Verif.Render

open Verif.Go Verif.Geom

/-- `maxPoints`, render/render.go 62-65. -/
def maxPoints (points : List ℤ) : ℤ := points.foldl (fun m p => if p > m then p else m) 0

/-- The points of one buffer before `DistributeUnit`, render/render.go 153-157: `draw n` is the result of the call
number `n` of `gen.Uniform(0, 1)`, and `first` calls came before. (The conversion to `float32` is left out here; it is
in `Verif.Fp.unitBuf32`.) -/
def drawPoints (draw : ℕ → ℚ) (first pts : ℕ) : List Vec :=
  (List.range pts).map fun j k => draw (first + 3 * j + k.val)

/-- `unitBufs`, render/render.go 146-162. `make` panics for a negative length; here the length is a natural number,
which `maxPoints` always is. -/
def unitBufs (draw : ℕ → ℚ) (nUnit pts : ℕ) : List (WBuf Vec) :=
  (List.range nUnit).map fun bi => ⟨distributeUnit (drawPoints draw (3 * pts * bi) pts), 0, pts⟩

/-- The loop over the buffers in `initWorkspaces`, render/render.go 195-197. -/
def resliceUnits (bufs : List (WBuf Vec)) (points : ℤ) : Option (List (WBuf Vec)) :=
  bufs.mapM fun b => b.slice 0 points

/-- What the samplers of the passes are given as `unitBufs`, pass by pass: `box` lists the box of each pass, in any order,
and `points` the number of points of each box. render/render.go 195-205, called for every file and box that needs it. -/
def passUnits (points : List ℤ) : List ℤ → List (WBuf Vec) → Option (List (List (List Vec)))
  | [], _ => some []
  | i :: box, bufs => do
    let p ← rd points i
    let bufs ← resliceUnits bufs p
    let rest ← passUnits points box bufs
    some (bufs.map WBuf.visible :: rest)

/-- The length of the buffer of sampled velocities that each worker is given, render/render.go 135-139 with
render/density/buffer.go 36-62. -/
def weightsLen (points : List ℤ) : ℤ := maxPoints points

end Verif.Render
