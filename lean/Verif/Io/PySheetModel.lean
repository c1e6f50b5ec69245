import Verif.Io.Model

/-!
# Model of `python/gtet.py`, the Python reader of sheet files

The machine is little endian and `struct` uses native order and alignment (none of the formats needs padding). Words keep
their bits. An exception is `err`.
-/

set_option autoImplicit false

namespace Verif.Io

/-- A NumPy array of shape `(dim 0, dim 1, dim 2, 3)`: `get i j k` is the vector at `[i, j, k]`, nothing outside the shape.
python/gtet.py 75-78. -/
structure NpGrid where
  dim : ℕ × ℕ × ℕ
  get : ℕ → ℕ → ℕ → Option V3

/-- `a.reshape((n, n, n, 3))` in NumPy's default order: the last index moves fastest. python/gtet.py 75-76. -/
def npReshape (data : List V3) (n : ℕ) : NpGrid :=
  ⟨(n, n, n), fun i j k => if i < n ∧ j < n ∧ k < n then data[(i * n + j) * n + k]? else none⟩

/-- `a[:-1,:-1,:-1,:]`. python/gtet.py 77-78. -/
def NpGrid.init (a : NpGrid) : NpGrid :=
  ⟨(a.dim.1 - 1, a.dim.2.1 - 1, a.dim.2.2 - 1),
    fun i j k => if i < a.dim.1 - 1 ∧ j < a.dim.2.1 - 1 ∧ k < a.dim.2.2 - 1 then a.get i j k else none⟩

/-- The fields of the class `File`, python/gtet.py 53-78. -/
structure PySheet where
  z : Word 8
  scale : Word 8
  omegaM : Word 8
  h100 : Word 8
  count : Word 8
  countWidth : Word 8
  segmentWidth : Word 8
  gridWidth : Word 8
  gridCount : Word 8
  fileIdx : Word 8
  fileCells : Word 8
  boxWidth : Word 8
  xWidth : Word 8
  xnWidth : Word 8
  xOrigin : V3
  xSpan : V3
  vOrigin : V3
  vSpan : V3
  x : NpGrid
  xn : NpGrid
  v : NpGrid
  vn : NpGrid

/-- `array.array("f").fromfile(fp, 3*n)`, three words to a vector. python/gtet.py 66-72. -/
def pyVecs (r : Rdr) (n : ℕ) : Res (List V3 × Rdr) := do
  let (bs, r) ← r.readFull (12 * n)
  Res.ok (ofMem 12 (decV .le) n bs, r)

/-- `struct.unpack` of a number of 8-byte items: item `i`. python/gtet.py 47-49. -/
def pyItem (bs : List Byte) (i : ℕ) : Word 8 := decode .le 8 ((bs.drop (8 * i)).take 8)

/-- `struct.unpack("ffffff", ...)`: items 0-2 or 3-5. python/gtet.py 50-51 and 61-64. -/
def pyVecItem (bs : List Byte) (i : ℕ) : V3 := decV .le ((bs.drop (12 * i)).take 12)

/-- `File.__init__`, python/gtet.py 44-80. -/
def pyReadSheet (file : List Byte) : Res PySheet := do
  let r : Rdr := ⟨file, 0⟩
  let (_, r) ← r.readFull 8
  let (cosmo, r) ← r.readFull (4 * 8)
  let (index, r) ← r.readFull (7 * 8)
  let (misc, r) ← r.readFull (2 * 8)
  let (pb, r) ← r.readFull (6 * 4)
  let (vb, r) ← r.readFull (6 * 4)
  let gw := pyItem index 3
  let n := gw.toInt ^ 3
  if n < 0 then Res.err
  else do
    let (x, r) ← pyVecs r n.toNat
    let (v, _) ← pyVecs r n.toNat
    let xn := npReshape x gw.toInt.toNat
    let vn := npReshape v gw.toInt.toNat
    Res.ok {
      z := pyItem cosmo 0, scale := pyItem cosmo 1, omegaM := pyItem cosmo 2, h100 := pyItem cosmo 3
      count := pyItem index 0, countWidth := pyItem index 1, segmentWidth := pyItem index 2, gridWidth := gw
      gridCount := pyItem index 4, fileIdx := pyItem index 5, fileCells := pyItem index 6
      boxWidth := pyItem misc 1
      xWidth := pyItem index 2, xnWidth := gw
      xOrigin := pyVecItem pb 0, xSpan := pyVecItem pb 1, vOrigin := pyVecItem vb 0, vSpan := pyVecItem vb 1
      x := xn.init, xn := xn, v := vn.init, vn := vn }

end Verif.Io
