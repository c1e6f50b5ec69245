import Verif.Fp.WrapModel
import Verif.Geom.Model

/-!
# Sample points in machine arithmetic

Versions of the definitions of `Verif.Geom.Model` about barycentres and samples with the rounding of `float32`. Every
product is assigned to a variable before it is added, so that no product is fused with a sum.
-/

set_option autoImplicit false

namespace Verif.Fp

open Verif.Go Verif.Geom

/-- `Barycenter`, render/geom/tetra.go 449-461, with the state it leaves. -/
def barycenter32 (t : Tetra) : Vec × Tetra :=
  if t.baryValid then (t.bary, t)
  else
    let b : Vec := fun i => f32 (f32 (f32 (t.corners 0 i + t.corners 1 i) + t.corners 2 i) / 4)
    (b, { t with bary := b, baryValid := true })

/-- The folding of the unit cube, render/geom/tetra.go 346-354 and 379-387. -/
def fold32 (s t u : ℚ) : ℚ × ℚ × ℚ :=
  let p : ℚ × ℚ := if f32 (s + t) > 1 then (f32 (1 - s), f32 (1 - t)) else (s, t)
  let s := p.1
  let t := p.2
  if f32 (t + u) > 1 then (s, f32 (1 - u), f32 (f32 (1 - s) - t))
  else if f32 (f32 (s + t) + u) > 1 then (f32 (f32 (1 - t) - u), t, f32 (f32 (f32 (s + t) + u) - 1))
  else (s, t, u)

/-- The corner sum, render/geom/tetra.go 355-369, 410-420 and 435-445, with the displacements `tet.sb.c` of lines
333-337, 399-403, 427-431. -/
def cornerSum32 (corners : Fin 4 → Vec) (bary : Vec) (s t u : ℚ) : Vec := fun j =>
  let v := f32 (f32 (f32 (1 - s) - t) - u)
  let d0 := f32 (f32 (corners 0 j - bary j) * s)
  let d1 := f32 (f32 (corners 1 j - bary j) * t)
  let d2 := f32 (f32 (corners 2 j - bary j) * u)
  let d3 := f32 (f32 (corners 3 j - bary j) * v)
  f32 (f32 (f32 (f32 (bary j + d0) + d1) + d2) + d3)

/-- `Distribute`, render/geom/tetra.go 326-371. -/
def distribute32 (tet : Tetra) (xs ys zs : List ℚ) (vecBuf : List Vec) : Option (List Vec × Tetra) := do
  let r := barycenter32 tet
  let out ← forRange 0 vecBuf.length (fun i (buf : List Vec) => do
    let s ← rd xs i
    let t ← rd ys i
    let u ← rd zs i
    let f := fold32 (f32 s) (f32 t) (f32 u)
    wr buf i (cornerSum32 r.2.corners r.1 f.1 f.2.1 f.2.2)) vecBuf
  some (out, r.2)

/-- `DistributeUnit`, render/geom/tetra.go 373-391. -/
def distributeUnit32 (vecBuf : List Vec) : List Vec :=
  vecBuf.map fun p =>
    let f := fold32 (p 0) (p 1) (p 2)
    ![f.1, f.2.1, f.2.2]

/-- One buffer of `unitBufs`, render/render.go 153-172: `draws` are the results of `gen.Uniform(0, 1)` in the order in
which they are drawn. -/
def unitBuf32 (draws : List (ℚ × ℚ × ℚ)) : List Vec :=
  distributeUnit32 (draws.map fun d => ![f32 d.1, f32 d.2.1, f32 d.2.2])

/-- `DistributeTetra` and `DistributeTetra64`, render/geom/tetra.go 393-447. -/
def distributeTetra32 (tet : Tetra) (pts out : List Vec) : Option (List Vec × Tetra) := do
  let r := barycenter32 tet
  let out ← forRange 0 pts.length (fun i (buf : List Vec) => do
    let p ← rd pts i
    wr buf i (cornerSum32 r.2.corners r.1 (p 0) (p 1) (p 2))) out
  some (out, r.2)

/-- `CellBounds`, `CellBoundsAt`, render/geom/tetra.go 463-504. -/
def cellBounds32 (t : Tetra) (cellWidth : ℚ) : CellBounds where
  origin := fun i => ⌊f64 ((cornerMinMax t.corners i).1 / cellWidth)⌋
  width := fun i =>
    let m := cornerMinMax t.corners i
    let w := f32 (m.2 - m.1)
    1 + ⌊f64 (f32 (w + m.1) / cellWidth)⌋ - ⌊f64 (m.1 / cellWidth)⌋

end Verif.Fp
