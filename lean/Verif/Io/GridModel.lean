import Verif.Io.Model

/-!
# Model of `render/io/output.go` (grid files) and of the reader in `python/gotetra.py`

Floating point numbers are bit patterns, as in `Verif.Io.Model`. The conversion `float64(x)` is an unspecified function.
-/

set_option autoImplicit false

namespace Verif.Io

open Verif.Go

/-- `render/io/output.go:84-85` (`Vector`, `IntVector`). -/
structure W3 where
  a : Word 8
  b : Word 8
  c : Word 8
deriving DecidableEq

/-- `render/io/output.go:32-36` (`TypeInfo`). -/
structure TypeInfo where
  headerSize : Word 8
  gridType : Word 8
  isVectorGrid : Word 8
deriving DecidableEq

/-- `render/io/output.go:38-43` (`CosmoInfo`). -/
structure CosmoInfo where
  redshift : Word 8
  scaleFactor : Word 8
  omegaM : Word 8
  omegaL : Word 8
  hubble : Word 8
  rhoMean : Word 8
  rhoCritical : Word 8
  boxWidth : Word 8
deriving DecidableEq

/-- `render/io/output.go:45-51` (`RenderInfo`). -/
structure RenderInfo where
  particles : Word 8
  totalPixels : Word 8
  subsampleLength : Word 8
  minProjectionDepth : Word 8
  projectionAxis : Word 8
deriving DecidableEq

/-- `render/io/output.go:53-57` (`LocationInfo`). -/
structure LocationInfo where
  origin : W3
  span : W3
  pixelOrigin : W3
  pixelSpan : W3
  pixelWidth : Word 8
deriving DecidableEq

/-- `render/io/output.go:23-30` (`GridHeader`): 43 words of 8 bytes, no padding. -/
structure GridHeader where
  endiannessVersion : Word 8
  type : TypeInfo
  cosmo : CosmoInfo
  render : RenderInfo
  loc : LocationInfo
  vel : LocationInfo
deriving DecidableEq

/-- The fields of a vector. render/io/output.go 53-57. -/
def W3.words (v : W3) : List (Word 8) := [v.a, v.b, v.c]

/-- The fields of a `LocationInfo` in order of declaration. render/io/output.go 53-57. -/
def LocationInfo.words (l : LocationInfo) : List (Word 8) :=
  l.origin.words ++ l.span.words ++ l.pixelOrigin.words ++ l.pixelSpan.words ++ [l.pixelWidth]

/-- The fields in order of declaration, as `binary.Write` visits them. render/io/output.go 23-57 and 155. -/
def GridHeader.words (h : GridHeader) : List (Word 8) :=
  [h.endiannessVersion] ++ [h.type.headerSize, h.type.gridType, h.type.isVectorGrid] ++
  [h.cosmo.redshift, h.cosmo.scaleFactor, h.cosmo.omegaM, h.cosmo.omegaL, h.cosmo.hubble, h.cosmo.rhoMean,
    h.cosmo.rhoCritical, h.cosmo.boxWidth] ++
  [h.render.particles, h.render.totalPixels, h.render.subsampleLength, h.render.minProjectionDepth,
    h.render.projectionAxis] ++ h.loc.words ++ h.vel.words

/-- Fills a `LocationInfo` from thirteen words. render/io/output.go 53-57. -/
def LocationInfo.ofWords (f : ℕ → Word 8) : LocationInfo :=
  ⟨⟨f 0, f 1, f 2⟩, ⟨f 3, f 4, f 5⟩, ⟨f 6, f 7, f 8⟩, ⟨f 9, f 10, f 11⟩, f 12⟩

/-- Fills a `GridHeader` from 43 words, as `binary.Read` does. render/io/output.go 23-57, 64 and 74. -/
def GridHeader.ofWords (f : ℕ → Word 8) : GridHeader :=
  ⟨f 0, ⟨f 1, f 2, f 3⟩, ⟨f 4, f 5, f 6, f 7, f 8, f 9, f 10, f 11⟩, ⟨f 12, f 13, f 14, f 15, f 16⟩,
    .ofWords fun i => f (17 + i), .ofWords fun i => f (30 + i)⟩

/-- `unsafe.Sizeof(hd)`. render/io/output.go 148. -/
def gridHeaderSize : ℕ := 344

/-- `binary.Write(wr, end, &hd)` with `end` little endian (lines 16-18). -/
def encGridHeader (h : GridHeader) : List Byte := h.words.flatMap (encode .le 8)

/-- `binary.Read(f, end, hd)` on the 344 bytes read. render/io/output.go 64 and 74. -/
def decGridHeader (bs : List Byte) : GridHeader := .ofWords fun i => decode .le 8 ((bs.drop (8 * i)).take 8)

/-- `render/io/output.go:193-199` (`reverse`). -/
def reverse (x : BitVec 64) : Option (BitVec 64) :=
  forRange 0 64 (fun i out => some (if 1#64 &&& (x >>> i.toNat) = 1#64 then out ||| (1#64 <<< (63 - i.toNat)) else out)) 0

/-- `render/io/output.go:184-191` (`EndiannessVersionFlag`); the constant `Version` is a parameter. -/
def endiannessVersionFlag (version : BitVec 64) (o : Order) : Option (BitVec 64) := do
  let r ← reverse (version - 1)
  let flag := r ||| (version - 1)
  some (if o = .le then ~~~flag else flag)

/-- `render/io/output.go:19-21` (`Version`). -/
def gridVersion : BitVec 64 := 2

/-- What the two `Finalized...` methods of a `density.Buffer` return (`render/density/buffer.go:20-26`). -/
inductive Finalized
  | scalar (xs : List (Word 4))
  | vector (xs ys zs : List (Word 4))
  | neither

/-- `render/io/output.go:155-182` (`WriteBuffer`): the bytes written. The header goes out before `IsVectorGrid` is set. -/
def writeBuffer (quantity : Word 8) (buf : Finalized) (cosmo : CosmoInfo) (render : RenderInfo) (loc : LocationInfo) :
    Res (List Byte) := do
  let flag ← Res.ofOption (endiannessVersionFlag gridVersion .le)
  let zeroLoc : LocationInfo := .ofWords fun _ => 0
  let hd : GridHeader := ⟨flag, ⟨BitVec.ofNat (8 * 8) gridHeaderSize, quantity, 0⟩, cosmo, render, loc, zeroLoc⟩
  let out := encGridHeader hd
  match buf with
  | .scalar xs => Res.ok (out ++ xs.flatMap (encode .le 4))
  | .vector xs ys zs =>
    Res.ok (out ++ xs.flatMap (encode .le 4) ++ ys.flatMap (encode .le 4) ++ zs.flatMap (encode .le 4))
  | .neither => Res.panic

/-- `render/io/output.go:59-67` (`ReadGridHeader`). -/
def readGridHeader (file : List Byte) : Res GridHeader := do
  let r : Rdr := ⟨file, 0⟩
  let (bs, _) ← r.readFull gridHeaderSize
  Res.ok (decGridHeader bs)

/-- `render/io/output.go:69-88` (`ReadGrid`). `make` panics for a negative length; running out of memory is not
modelled. `widen` is `float64(x)`. -/
def readGrid (widen : Word 4 → Word 8) (file : List Byte) : Res (List (Word 8)) := do
  let r : Rdr := ⟨file, 0⟩
  let (bs, r) ← r.readFull gridHeaderSize
  let hd := decGridHeader bs
  if hd.type.isVectorGrid = 1 then Res.err
  else
    let sp := hd.loc.pixelSpan
    let n := sp.a * sp.b * sp.c
    if n.toInt < 0 then Res.panic
    else do
      let (bs, _) ← r.readFull (4 * n.toNat)
      let val32s := ofMem 4 (decode .le 4) n.toNat bs
      Res.ok (val32s.map widen)

/-! ## The Python reader, on a little endian machine -/

/-- `python/gotetra.py:55-60` (`_read_endianness_version`): flag of the byte order and version. Python's integers are
unbounded; `flag[0] & 0xffffffff` are the low 32 bits. -/
def pyEndiannessVersion (o : Order) (s : List Byte) : ℤ × ℕ :=
  let flag := decode o 8 s
  let ver := flag.toNat % 2 ^ 32
  let e : ℤ := if ver / 2 ^ 31 ≠ 0 then -1 else 0
  (e, if e ≠ 0 then 1 + (2 ^ 32 - 1 - ver) else ver)

/-- What `read_grid` returns: one array or three. python/gotetra.py 76-131. -/
inductive PyGrid
  | scalar (xs : List (Word 4))
  | vector (xs ys zs : List (Word 4))
deriving DecidableEq

/-- `array.array("f").fromfile(fp, n)`: native byte order, here little endian; fails when the file is too short.
python/gotetra.py 107-109 and 129. -/
def pyFromFile (r : Rdr) (n : ℕ) : Res (List (Word 4) × Rdr) := do
  let (bs, r) ← r.readFull (4 * n)
  Res.ok (ofMem 4 (decode .le 4) n bs, r)

/-- `python/gotetra.py:89-91`: number of pixels, leaving out the projection axis. -/
def pyCount (axis : ℤ) (dim : W3) : ℤ :=
  (if axis ≠ 0 then dim.a.toInt else 1) * (if axis ≠ 1 then dim.b.toInt else 1) *
    (if axis ≠ 2 then dim.c.toInt else 1)

/-- `python/gotetra.py:67-136` (`read_header`, `read_grid`) on a little endian machine, for version 2 files of little endian
order; any other version or byte order is reported as an error here. The axis must be one of -1, 0, 1, 2 (otherwise `j`
and `k` are undefined), the number of pixels must not be negative, and `np.reshape` keeps the elements in order. -/
def pyReadGrid (file : List Byte) : Res PyGrid := do
  let r : Rdr := ⟨file, 0⟩
  let (s, r) ← r.readFull 8
  let (e, ver) := pyEndiannessVersion .le s
  if ver ≠ 2 ∨ e ≠ -1 then Res.err
  else do
    let (s', r) ← r.readFull 336
    let hd := decGridHeader (s ++ s')
    let axis := hd.render.projectionAxis.toInt
    let n := pyCount axis hd.loc.pixelSpan
    if axis < -1 ∨ 2 < axis ∨ n < 0 then Res.err
    else
      let isVector := ¬ (hd.type.gridType = 0 ∨ hd.type.gridType = 3)
      if isVector then do
        let (xs, r) ← pyFromFile r n.toNat
        let (ys, r) ← pyFromFile r n.toNat
        let (zs, _) ← pyFromFile r n.toNat
        Res.ok (.vector xs ys zs)
      else do
        let (xs, _) ← pyFromFile r n.toNat
        Res.ok (.scalar xs)

end Verif.Io
