import Verif.Io.GridModel

/-!
# Model of the header of `python/gotetra.py`

The layout of the header as the Python module has it, for both versions, and `read_grid` with byte order and shape of the
arrays. Python 2 on a little endian machine. `none` is an exception or `exit(1)`. Floating point numbers are bit patterns.
-/

set_option autoImplicit false

namespace Verif.Io

open Verif.Go

/-- `Sizes`, python/gotetra.py 34-52: an attribute that version 1 does not have is `none`. -/
structure PySizes where
  header : ℕ
  typeInfo : ℕ
  cosmoInfo : ℕ
  renderInfo : ℕ
  locationInfo : ℕ
  velocityInfo : Option ℕ

/-- `Sizes.__init__`, python/gotetra.py 35-52. -/
def pySizes (ver : ℕ) : Option PySizes :=
  if ver = 1 then some ⟨232, 24, 64, 40, 104, none⟩
  else if ver = 2 then some ⟨336, 24, 64, 40, 104, some 104⟩
  else none

/-- `s[a: b]` of a string, python/gotetra.py 182-193, for `a ≤ b`. -/
def pySub (s : List Byte) (a b : ℕ) : List Byte := (s.take b).drop a

/-- `endian_unpack`, python/gotetra.py 210-213, for `n` values of 8 bytes. -/
def pyUnpack (e : ℤ) (n : ℕ) (s : List Byte) : Option (List (Word 8)) :=
  if s.length = 8 * n then some (ofMem 8 (decode (if e = -1 then .le else .be) 8) n s) else none

/-- `Header`, python/gotetra.py 138-200, and its parts, 215-372. `headerBytes` is `sizes.header`. -/
structure PyHeader where
  version : ℕ
  headerBytes : ℕ
  endianness : ℤ
  headerSize : ℤ
  gridType : ℤ
  isVector : Bool
  cosmo : CosmoInfo
  render : RenderInfo
  loc : LocationInfo
deriving DecidableEq

/-- `CosmoInfo.__init__`, python/gotetra.py 277-287. -/
def pyCosmo (d : List (Word 8)) : CosmoInfo where
  redshift := d.getD 0 0
  scaleFactor := d.getD 1 0
  omegaM := d.getD 2 0
  omegaL := d.getD 3 0
  hubble := d.getD 4 0
  rhoMean := d.getD 5 0
  rhoCritical := d.getD 6 0
  boxWidth := d.getD 7 0

/-- `RenderInfo.__init__`, python/gotetra.py 318-326. -/
def pyRender (d : List (Word 8)) : RenderInfo where
  particles := d.getD 0 0
  totalPixels := d.getD 1 0
  subsampleLength := d.getD 2 0
  minProjectionDepth := d.getD 3 0
  projectionAxis := d.getD 4 0

/-- `LocationInfo.__init__`, python/gotetra.py 363-371. -/
def pyLoc (d : List (Word 8)) : LocationInfo where
  origin := ⟨d.getD 0 0, d.getD 1 0, d.getD 2 0⟩
  span := ⟨d.getD 3 0, d.getD 4 0, d.getD 5 0⟩
  pixelOrigin := ⟨d.getD 6 0, d.getD 7 0, d.getD 8 0⟩
  pixelSpan := ⟨d.getD 9 0, d.getD 10 0, d.getD 11 0⟩
  pixelWidth := d.getD 12 0

/-- `Header.__init__`, python/gotetra.py 158-200. The second component says whether the warning of lines 183-187 is printed. -/
def pyHeader (s : List Byte) (sz : PySizes) : Option (PyHeader × Bool) :=
  let ev := pyEndiannessVersion .le (pySub s 0 8)
  let e := ev.1
  let ver := ev.2
  if s.length ≠ sz.header + 8 then none
  else
    let typeStart := 8
    let typeEnd := sz.typeInfo + typeStart
    let cosmoStart := typeEnd
    let cosmoEnd := cosmoStart + sz.cosmoInfo
    let renderStart := cosmoEnd
    let renderEnd := renderStart + sz.renderInfo
    let locStart := renderEnd
    let locEnd := renderEnd + sz.locationInfo
    if ver = 1 ∧ locEnd ≠ sz.header + 8 then none
    else if 2 ≤ ver ∧ sz.velocityInfo.map (locEnd + ·) ≠ some (sz.header + 8) then none
    else do
      let t ← pyUnpack e 3 (pySub s typeStart typeEnd)
      let c ← pyUnpack e 8 (pySub s cosmoStart cosmoEnd)
      let r ← pyUnpack e 5 (pySub s renderStart renderEnd)
      let l ← pyUnpack e 13 (pySub s locStart locEnd)
      let headerSize := (t.getD 0 0).toInt
      let gridType := (t.getD 1 0).toInt
      some (⟨ver, sz.header, e, headerSize, gridType, !(gridType == 0 || gridType == 3), pyCosmo c, pyRender r, pyLoc l⟩,
        headerSize != 8 + (sz.header : ℤ))

/-- `read_header`, python/gotetra.py 67-76; a file that is too short gives shorter strings. -/
def pyReadHeader (file : List Byte) : Option (PyHeader × Bool) :=
  let flag := file.take 8
  if flag.length ≠ 8 then none
  else do
    let sz ← pySizes (pyEndiannessVersion .le flag).2
    pyHeader (flag ++ (file.drop 8).take sz.header) sz

/-- An array with its shape, elements in the order of C. python/gotetra.py 112-135. -/
structure PyArray where
  shape : List ℤ
  values : List (Word 4)
deriving DecidableEq

/-- `np.reshape`, python/gotetra.py 113-119 and 132-134. -/
def pyReshape (xs : List (Word 4)) (shape : List ℤ) : Option PyArray :=
  if shape.prod = xs.length ∧ ∀ n ∈ shape, 0 ≤ n then some ⟨shape, xs⟩ else none

/-- `xs.fromfile(fp, n)` and `maybe_swap(xs)`, python/gotetra.py 87-94 and 106-110: the values and what is left of the file. -/
def pyFloats (e : ℤ) (n : ℤ) (rest : List Byte) : Option (List (Word 4) × List Byte) :=
  if n < 0 ∨ (rest.length : ℤ) < 4 * n then none
  else some (ofMem 4 (decode (if e = -1 then .le else .be) 4) n.toNat rest, rest.drop (4 * n.toNat))

/-- The shape of the arrays, python/gotetra.py 100-102 and 112-119. `none`: `j` and `k` are not defined. -/
def pyShape (axis : ℤ) (dim : W3) : Option (List ℤ) :=
  if axis = -1 then some [dim.c.toInt, dim.b.toInt, dim.a.toInt]
  else if axis = 0 then some [dim.c.toInt, dim.b.toInt]
  else if axis = 1 then some [dim.c.toInt, dim.a.toInt]
  else if axis = 2 then some [dim.b.toInt, dim.a.toInt]
  else none

/-- `read_grid`, python/gotetra.py 78-135: one array or three. -/
def pyGrid (file : List Byte) : Option (List PyArray) := do
  let h ← pyReadHeader file
  let hd := h.1
  let axis := hd.render.projectionAxis.toInt
  let n := pyCount axis hd.loc.pixelSpan
  let body := file.drop (hd.headerBytes + 8)
  if hd.isVector then do
    let x ← pyFloats hd.endianness n body
    let y ← pyFloats hd.endianness n x.2
    let z ← pyFloats hd.endianness n y.2
    let shape ← pyShape axis hd.loc.pixelSpan
    some [← pyReshape x.1 shape, ← pyReshape y.1 shape, ← pyReshape z.1 shape]
  else do
    let x ← pyFloats hd.endianness n body
    let shape ← pyShape axis hd.loc.pixelSpan
    some [← pyReshape x.1 shape]

/-- `a[idx]` of an array in the order of C, as in `vals[z, y, x]`: python/example.py 74-87. Negative indices are left out. -/
def PyArray.at (a : PyArray) (idx : List ℕ) : Option (Word 4) :=
  if idx.length = a.shape.length ∧ (idx.zip a.shape).all (fun p => decide ((p.1 : ℤ) < p.2)) then
    a.values[((idx.zip a.shape).foldl (fun (acc : ℤ) p => acc * p.2 + (p.1 : ℤ)) 0).toNat]?
  else none

/-- `TypeInfo.grid_type_str`, python/gotetra.py 252-262; `none` is the value `None`. -/
def pyGridTypeStr (q : ℤ) : Option String :=
  if q = 0 then some "Density"
  else if q = 1 then some "Density Gradient"
  else if q = 2 then some "Velocity"
  else if q = 3 then some "Velocity Divergence"
  else if q = 4 then some "Velocity Curl"
  else none

/-- `RenderInfo._projection_axis_str`, python/gotetra.py 337-347; `none` is the failed assertion. -/
def pyAxisStr (axis : ℤ) : Option String :=
  if axis = -1 then some "None"
  else if axis = 0 then some "X"
  else if axis = 1 then some "Y"
  else if axis = 2 then some "Z"
  else none

end Verif.Io
