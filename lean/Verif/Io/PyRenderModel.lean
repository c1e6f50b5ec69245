import Verif.Go.Slice
import Verif.Geom.Model

/-!
# Model of `python/render.py`, the program that shows an image

The grid has been read by `read_grid` (C98). Colours, labels and the size of the figure are left out; `f` stands for what is
done to each value (logarithm and clipping, lines 58-71). The program is Python 2: `/` on integers rounds down.
-/

set_option autoImplicit false

namespace Verif.Io

open Verif.Go Verif.Geom

/-- The parts of the header that the program uses. python/gotetra.py 186-188, python/render.py 17-31. -/
structure ShowHeader where
  axis : ℤ
  dim : Fin 3 → ℕ
  origin : Vec
  span : Vec
  pw : ℚ
  minDepth : ℤ

/-- What is drawn: a value for every row and column (`none` is NaN), the coordinates of the left, right, lower and upper
edge, and position and thickness from the title. python/render.py 94-149. -/
structure Picture where
  rows : ℕ
  cols : ℕ
  value : ℕ → ℕ → Option ℚ
  left : ℚ
  right : ℚ
  bottom : ℚ
  top : ℚ
  mid : ℚ
  thickness : ℚ

/-- `a[lo: hi]` of a Python sequence of length `n`: the positions taken. python/render.py 88, 104, 121. -/
def pySlice (n : ℕ) (lo hi : ℤ) : List ℕ :=
  let fix : ℤ → ℤ := fun i => if i < 0 then max (i + n) 0 else min i n
  (List.range (fix hi - fix lo).toNat).map fun i => (fix lo).toNat + i

/-- `np.mean` over the given values: NaN if there are none. python/render.py 138. -/
def pyMean (l : List ℚ) : Option ℚ := if l = [] then none else some (l.sum / l.length)

/-- An element `[k, j, i]` of the array returned by `read_grid`. python/gotetra.py 132. -/
def pyAt (grid : List ℚ) (dim : Fin 3 → ℕ) (k j i : ℕ) : ℚ := grid.getD ((k * dim 1 + j) * dim 0 + i) 0

/-- `python/render.py` 14-31 and 70-144 for an image that is not projected: `ax` is the axis of the second argument (`axis_x`),
`depth` the third argument. -/
def pyShow3 (f : ℚ → ℚ) (hd : ShowHeader) (grid : List ℚ) (ax : Fin 3) (depthArg : Option ℤ) : Picture :=
  let depth := depthArg.getD hd.minDepth
  -- The array has the shape (dim[2], dim[1], dim[0]); `axis` is `2 - axis_x`.
  let shape : Fin 3 → ℕ := ![hd.dim 2, hd.dim 1, hd.dim 0]
  let axis : Fin 3 := 2 - ax
  let c : Fin 3 → ℤ := fun k => (shape k : ℤ) / 2
  let mid := hd.origin ax + c ax * hd.pw
  let ls := pySlice (shape axis) (c axis - depth / 2) (c axis + depth / 2 + 1)
  let at' := fun k j i => f (pyAt grid hd.dim k j i)
  let e : Fin 4 → ℚ :=
    if ax = 2 then ![hd.origin 1, hd.origin 1 + hd.span 1, hd.origin 0, hd.origin 0 + hd.span 0]
    else if ax = 1 then ![hd.origin 2, hd.origin 2 + hd.span 2, hd.origin 0, hd.origin 0 + hd.span 0]
    else ![hd.origin 2, hd.origin 2 + hd.span 2, hd.origin 1, hd.origin 1 + hd.span 1]
  let value : ℕ → ℕ → Option ℚ := fun r q =>
    if ax = 2 then pyMean (ls.map fun l => at' l r q)
    else if ax = 1 then pyMean (ls.map fun l => at' r l q)
    else pyMean (ls.map fun l => at' r q l)
  { rows := if ax = 2 then shape 1 else shape 0
    cols := if ax = 0 then shape 1 else shape 2
    value := value
    -- extent[0], extent[1], extent[2], extent[3] = extent[2], extent[3], extent[1], extent[0]; imshow's extent is
    -- left, right, bottom, top.
    left := e 2, right := e 3, bottom := e 1, top := e 0
    mid := mid, thickness := hd.pw * depth }

/-- `python/render.py` 17-31 and 70-144 for a projected image, whose array has the shape (dim[k], dim[j]) with the two axes
other than the projected one. `none` if the axis asked for is another one. -/
def pyShow2 (f : ℚ → ℚ) (hd : ShowHeader) (grid : List ℚ) (ax : Fin 3) : Option Picture :=
  if hd.axis ≠ (ax.val : ℤ) then none
  else
    let j : Fin 3 := if hd.axis = 0 then 1 else 0
    let k : Fin 3 := if hd.axis = 2 then 1 else 2
    let depth := hd.span ax / hd.pw
    let mid := hd.origin ax + hd.span ax / 2
    let e : Fin 4 → ℚ :=
      if ax = 2 then ![hd.origin 1, hd.origin 1 + hd.span 1, hd.origin 0, hd.origin 0 + hd.span 0]
      else if ax = 1 then ![hd.origin 2, hd.origin 2 + hd.span 2, hd.origin 0, hd.origin 0 + hd.span 0]
      else ![hd.origin 2, hd.origin 2 + hd.span 2, hd.origin 1, hd.origin 1 + hd.span 1]
    some
      { rows := hd.dim k
        cols := hd.dim j
        value := fun r q => some (f (grid.getD (r * hd.dim j + q) 0))
        left := e 2, right := e 3, bottom := e 1, top := e 0
        mid := mid, thickness := hd.pw * depth }

end Verif.Io
