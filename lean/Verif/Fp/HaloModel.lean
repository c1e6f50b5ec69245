import Verif.Fp.RandModel
import Verif.Halo.Model

/-!
# The halo grid and the subhalo finder in machine arithmetic

The parts of `Verif.Halo.Model` that compute with `float64`, with every result rounded to 53 bits. Exponents are unbounded;
there are no infinities, no underflow and no NaN. The parts of the finder that only work on indices (`crossMatch` and the
functions that read the lists) are those of `Verif.Halo.Model`.
-/

set_option autoImplicit false

namespace Verif.Fp

open Verif.Go Verif.Halo

/-- `render/halo/grid.go:17-29` (`NewGrid`). -/
def haloGrid64 (cells : ℤ) (width : ℚ) (dataLen : ℤ) : Option Grid :=
  if cells * cells * cells < 0 ∨ dataLen < 0 then none
  else some ⟨cells, f64 (width / f64 cells), width, List.replicate (cells * cells * cells).toNat tail,
    List.replicate dataLen.toNat 0⟩

/-- `render/halo/grid.go:44-58`: one coordinate. -/
def haloWrap64 (width x : ℚ) : ℚ :=
  if x > width then f64 (x - width)
  else if x < 0 then f64 (x + width)
  else x

/-- `render/halo/grid.go:61`: one coordinate. -/
def haloCell64 (width cw x : ℚ) : ℤ := trunc (f64 (haloWrap64 width x / cw))

/-- `render/halo/grid.go:61-62`. -/
def haloIndex64 (g : Grid) (x y z : ℚ) : ℤ :=
  haloCell64 g.width g.cw x + haloCell64 g.width g.cw y * g.cells + haloCell64 g.width g.cw z * g.cells * g.cells

/-- `render/halo/grid.go:41-67` (`Insert`). -/
def haloInsert64 (g : Grid) (xs ys zs : List ℚ) : Option Grid :=
  forRange 0 xs.length (fun i g => do
    let x ← rd xs i
    let y ← rd ys i
    let z ← rd zs i
    let h ← rd g.heads (haloIndex64 g x y z)
    let next ← wr g.next i h
    let heads ← wr g.heads (haloIndex64 g x y z) i
    some { g with next := next, heads := heads }) g

/-- One coordinate of `render/halo/finder.go:22-29`: first cell and number of cells. -/
def sphereBounds64 (pos r cw width : ℚ) : ℤ × ℤ :=
  let min := f64 (pos - r)
  let max := f64 (pos + r)
  let min := if min < 0 then f64 (min + width) else min
  let max := if min > max then f64 (max + width) else max
  (trunc (f64 (min / cw)), trunc (f64 (max / cw)) - trunc (f64 (min / cw)) + 1)

/-- `render/halo/finder.go:21-30` (`SphereBounds`). -/
def haloBounds64 (pos : Fin 3 → ℚ) (r cw width : ℚ) : Bounds :=
  ⟨fun i => (sphereBounds64 (pos i) r cw width).1, fun i => (sphereBounds64 (pos i) r cw width).2⟩

/-- Which of the products of `render/halo/finder.go:221` are not rounded because the compiler has fused them with the
addition. -/
structure Fusing where
  x : Bool
  y : Bool
  z : Bool
deriving DecidableEq

/-- `dx*dx + dy*dy + dz*dz`, `render/halo/finder.go:221`. -/
def sumSq64 (f : Fusing) (dx dy dz : ℚ) : ℚ :=
  let s := if f.y then f64 (f64 (dx * dx) + dy * dy) else if f.x then f64 (dx * dx + f64 (dy * dy))
    else f64 (f64 (dx * dx) + f64 (dy * dy))
  if f.z then f64 (s + dz * dz) else f64 (s + f64 (dz * dz))

/-- `render/halo/finder.go:214-226` (`markSubhalos`). -/
def markSubhalos64 (f : Fusing) (ih : ℤ) (idxs : List ℤ) (xs ys zs rs : List ℚ) (subs : List ℤ) : Option (List ℤ) := do
  let hx ← rd xs ih
  let hy ← rd ys ih
  let hz ← rd zs ih
  let hr ← rd rs ih
  idxs.foldlM (fun subs j =>
    if j ≤ ih then some subs
    else do
      let sx ← rd xs j
      let sy ← rd ys j
      let sz ← rd zs j
      let sr ← rd rs j
      let dx := f64 (hx - sx)
      let dy := f64 (hy - sy)
      let dz := f64 (hz - sz)
      let dr := f64 (hr + sr)
      if f64 (dr * dr) ≥ sumSq64 f dx dy dz then some (subs ++ [j]) else some subs) subs

/-- The loops over the cells, `render/halo/finder.go:88-106`. -/
def markCells64 (f : Fusing) (g : Grid) (cap : ℤ) (b : Bounds) (ih : ℤ) (xs ys zs rs : List ℚ) (subs : List ℤ) :
    Option (List ℤ) :=
  forRange 0 (b.span 2) (fun dz subs =>
    forRange 0 (b.span 1) (fun dy subs =>
      forRange 0 (b.span 0) (fun dx subs => do
        let idx := periodic (b.origin 2) dz g.cells * g.cells * g.cells + periodic (b.origin 1) dy g.cells * g.cells +
          periodic (b.origin 0) dx g.cells
        let buf ← g.readIndexes idx cap
        markSubhalos64 f ih buf xs ys zs rs subs) subs) subs) subs

/-- One iteration of `render/halo/finder.go:80-107`. -/
def findOne64 (f : Fusing) (g : Grid) (cap : ℤ) (cMax xs ys zs rs : List ℚ) (ih : ℤ) (sf : Finder) : Option Finder := do
  let rh ← rd rs ih
  let starts ← wr sf.starts ih sf.subs.length
  let maxSR ← rd cMax ih
  let x ← rd xs ih
  let y ← rd ys ih
  let z ← rd zs ih
  let subs ← markCells64 f g cap (haloBounds64 ![x, y, z] (f64 (rh + maxSR)) g.cw g.width) ih xs ys zs rs sf.subs
  some ⟨starts, subs⟩

/-- `render/halo/finder.go:68-111` (`FindSubhalos`): the finder and the radii afterwards. -/
def findSubhalos64 (f : Fusing) (g : Grid) (sf : Finder) (xs ys zs rs : List ℚ) (mult : ℚ) :
    Option (Finder × List ℚ) := do
  let cap ← g.maxLength
  let rs := rs.map fun r => f64 (r * mult)
  let cMax ← cumulativeMax rs
  let sf ← forRange 0 rs.length (findOne64 f g cap cMax xs ys zs rs) sf
  let sf ← crossMatch sf
  some (sf, rs.map fun r => f64 (r / mult))

/-- A grid and a finder for a catalogue and one search, render/halo/grid.go 17-67 and render/halo/finder.go 57-111. -/
def haloSearch64 (f : Fusing) (cells : ℤ) (width : ℚ) (xs ys zs rs : List ℚ) (mult : ℚ) : Option (Finder × List ℚ) := do
  let g ← haloGrid64 cells width xs.length
  let g ← haloInsert64 g xs ys zs
  findSubhalos64 f g (newFinder g) xs ys zs rs mult

end Verif.Fp
