import Verif.Go.Loops

/-!
# Model of `render/io`: sheet files, Gadget files, grid files, the particle buffer

Floating point numbers in files are kept as their bit patterns (`Word 4`, `Word 8`), so everything about files is exact.
A file is a list of bytes; opening, creating and closing files always succeeds here. `os.File.Read` is modelled for a
regular file: it delivers the minimum of what is asked for and what is left, and reports an error if nothing is left.
The byte order of the machine is a parameter (`sys`).
-/

set_option autoImplicit false

namespace Verif.Io

open Verif.Go

abbrev Byte := BitVec 8

/-- A machine word of `k` bytes: `int32`, `float32` (k = 4), `int64`, `float64` (k = 8). Field types of
render/io/io.go 28-92. -/
abbrev Word (k : ℕ) := BitVec (8 * k)

/-- `binary.LittleEndian`, `binary.BigEndian`. The values of the `order` arguments, render/io/io.go 94-130. -/
inductive Order | le | be
deriving DecidableEq, Repr

/-- Result of a function that returns an error or panics (`log.Fatalf` counts as a panic). The results of
render/io/io.go 264-406. -/
inductive Res (α : Type) | ok (a : α) | err | panic
deriving DecidableEq

namespace Res
variable {α β : Type}
/-- Sequencing. The `if err != nil { return err }` of render/io/io.go 264-406. -/
def bind (r : Res α) (f : α → Res β) : Res β :=
  match r with
  | .ok a => f a
  | .err => .err
  | .panic => .panic
instance : Monad Res where
  pure := Res.ok
  bind := Res.bind
/-- A slice operation inside a function with error results. Indexing in render/io/io.go 408-571. -/
def ofOption (o : Option α) : Res α :=
  match o with
  | some a => .ok a
  | none => .panic
end Res

/-- The `k` bytes of `n`, least significant first. Used for render/io/io.go 368-385 and 408-571. -/
def leBytes : ℕ → ℕ → List Byte
  | 0, _ => []
  | k + 1, n => BitVec.ofNat 8 n :: leBytes k (n / 256)

/-- The number with the given bytes, least significant first. Used for render/io/io.go 94-99 and 408-571. -/
def leVal : List Byte → ℕ
  | [] => 0
  | b :: bs => b.toNat + 256 * leVal bs

/-- Bytes of a word in the given order (`encoding/binary`, also the layout in memory). Used for render/io/io.go
368-385. -/
def encode (o : Order) (k : ℕ) (w : Word k) : List Byte :=
  match o with
  | .le => leBytes k w.toNat
  | .be => (leBytes k w.toNat).reverse

/-- The word stored in the given bytes. Used for render/io/io.go 94-99 and 298. -/
def decode (o : Order) (k : ℕ) (bs : List Byte) : Word k :=
  match o with
  | .le => BitVec.ofNat (8 * k) (leVal bs)
  | .be => BitVec.ofNat (8 * k) (leVal bs.reverse)

/-- `Vec`, three `float32`, render/geom/vec.go 13: three words. -/
structure V3 where
  x : Word 4
  y : Word 4
  z : Word 4
deriving DecidableEq

/-- Memory (or file) layout of a vector. render/io/io.go 472-499. -/
def encV (o : Order) (v : V3) : List Byte := encode o 4 v.x ++ encode o 4 v.y ++ encode o 4 v.z

/-- Reads a vector from its bytes. render/io/io.go 410-435. -/
def decV (o : Order) (bs : List Byte) : V3 :=
  ⟨decode o 4 (bs.take 4), decode o 4 ((bs.drop 4).take 4), decode o 4 ((bs.drop 8).take 4)⟩

/-- Three `float64`, as in `readVec64AsByte` (`render/io/io.go:437`). -/
structure V3d where
  x : Word 8
  y : Word 8
  z : Word 8
deriving DecidableEq

/-- Memory (or file) layout of a `[3]float64`. render/io/io.go 437-470. -/
def encVd (o : Order) (v : V3d) : List Byte := encode o 8 v.x ++ encode o 8 v.y ++ encode o 8 v.z

/-- Reads a `[3]float64` from its bytes. render/io/io.go 437-470. -/
def decVd (o : Order) (bs : List Byte) : V3d :=
  ⟨decode o 8 (bs.take 8), decode o 8 ((bs.drop 8).take 8), decode o 8 ((bs.drop 16).take 8)⟩

/-- The elements of a slice of `n` elements of `s` bytes each, from the bytes of its memory: the reinterpretation of
`reflect.SliceHeader` back to the element type. render/io/io.go 413-417, 440-444, 474-478, 502-506, 531-535 and
562-566. -/
def ofMem {α : Type} (s : ℕ) (dec : List Byte → α) : ℕ → List Byte → List α
  | 0, _ => []
  | n + 1, bs => dec (bs.take s) :: ofMem s dec n (bs.drop s)

/-! ## Reading from a file -/

/-- An open file: its contents and the position. The `*os.File` of render/io/io.go 264-350. -/
structure Rdr where
  data : List Byte
  pos : ℕ

/-- `os.File.Seek(pos, 0)`. render/io/io.go 295, 326 and 343. -/
def Rdr.seek (r : Rdr) (pos : ℕ) : Rdr := { r with pos := pos }

/-- `os.File.Read(buf)`: overwrites the start of `buf` with what is left of the file, and reports an error when the
buffer is not empty and nothing is left. The number of bytes read is dropped by all callers. render/io/io.go 418, 445,
507 and 536. -/
def Rdr.read (r : Rdr) (buf : List Byte) : Res (List Byte × Rdr) :=
  let got := (r.data.drop r.pos).take buf.length
  if buf = [] then .ok (buf, r)
  else if got = [] then .err
  else .ok (got ++ buf.drop got.length, { r with pos := r.pos + got.length })

/-- `io.ReadFull`, used by `binary.Read`: all `n` bytes or an error. render/io/io.go 95, 145, 171 and 298. -/
def Rdr.readFull (r : Rdr) (n : ℕ) : Res (List Byte × Rdr) :=
  let got := (r.data.drop r.pos).take n
  if got.length = n then .ok (got, { r with pos := r.pos + n }) else .err

/-- `render/io/io.go:93-99` (`readInt32`): errors become panics. -/
def readInt32 (r : Rdr) (o : Order) : Res (Word 4 × Rdr) :=
  match r.readFull 4 with
  | .ok (bs, r) => .ok (decode o 4 bs, r)
  | _ => .panic

/-- `render/io/io.go:559-571` (`isSysOrder`): looks at the first byte of the `int32` 1 in memory. -/
def isSysOrder (sys o : Order) : Bool :=
  if (encode sys 4 1)[0]? = some 1 then decide (Order.le = o) else decide (Order.be = o)

/-- The nested byte exchange loops of `render/io/io.go:422-427, 449-454, 481-486, 511-516, 540-545`: `cnt` groups of
`size` bytes, `half` exchanges of `i*size+j` with `i*size+last-j` in each. -/
def swapLoop (cnt size half last : ℤ) (bytes : List Byte) : Option (List Byte) :=
  forRange 0 cnt (fun i b => forRange 0 half (fun j b => do
    let p ← rd b (i * size + j)
    let q ← rd b (i * size + last - j)
    let b ← wr b (i * size + j) q
    wr b (i * size + last - j) p) b) bytes

/-- `render/io/io.go:410-434` (`readVecAsByte`). `sys` is the byte order of the machine; the slice's memory is the
bytes of its elements in that order. -/
def readVecAsByte (sys : Order) (r : Rdr) (o : Order) (buf : List V3) : Res (List V3 × Rdr) := do
  let byteBuf := buf.flatMap (encV sys)
  let (byteBuf, r) ← r.read byteBuf
  let byteBuf ← if isSysOrder sys o = false then Res.ofOption (swapLoop (buf.length * 3) 4 2 3 byteBuf)
    else Res.ok byteBuf
  Res.ok (ofMem 12 (decV sys) buf.length byteBuf, r)

/-- `render/io/io.go:436-467` (`readVec64AsByte`). `narrow` is the conversion `float32(x)` of a `float64`, on bit
patterns, left unspecified. The exchange loop uses `3 - j` for eight byte words, as in the source. -/
def readVec64AsByte (narrow : Word 8 → Word 4) (sys : Order) (r : Rdr) (o : Order) (outBuf : List V3) :
    Res (List V3 × Rdr) := do
  let buf : List V3d := List.replicate outBuf.length ⟨0, 0, 0⟩
  let byteBuf := buf.flatMap (encVd sys)
  let (byteBuf, r) ← r.read byteBuf
  let byteBuf ← if isSysOrder sys o = false then Res.ofOption (swapLoop (buf.length * 3) 8 4 3 byteBuf)
    else Res.ok byteBuf
  let buf := ofMem 24 (decVd sys) buf.length byteBuf
  Res.ok (buf.map fun v => ⟨narrow v.x, narrow v.y, narrow v.z⟩, r)

/-- `render/io/io.go:471-496` (`writeVecAsByte`): the bytes written and the caller's slice afterwards (the exchange is
done in place). -/
def writeVecAsByte (sys : Order) (o : Order) (buf : List V3) : Res (List Byte × List V3) := do
  let byteBuf := buf.flatMap (encV sys)
  let byteBuf ← if isSysOrder sys o = false then Res.ofOption (swapLoop (buf.length * 3) 4 2 3 byteBuf)
    else Res.ok byteBuf
  Res.ok (byteBuf, ofMem 12 (decV sys) buf.length byteBuf)

/-- `render/io/io.go:499-523` (`readInt64AsByte`). -/
def readInt64AsByte (sys : Order) (r : Rdr) (o : Order) (buf : List (Word 8)) : Res (List (Word 8) × Rdr) := do
  let byteBuf := buf.flatMap (encode sys 8)
  let (byteBuf, r) ← r.read byteBuf
  let byteBuf ← if isSysOrder sys o = false then Res.ofOption (swapLoop buf.length 8 4 7 byteBuf) else Res.ok byteBuf
  Res.ok (ofMem 8 (decode sys 8) buf.length byteBuf, r)

/-- `render/io/io.go:527-556` (`readInt32AsByte`): values sign-extended to 64 bits. -/
def readInt32AsByte (sys : Order) (r : Rdr) (o : Order) (buf64 : List (Word 8)) : Res (List (Word 8) × Rdr) := do
  let buf : List (Word 4) := List.replicate buf64.length 0
  let byteBuf := buf.flatMap (encode sys 4)
  let (byteBuf, r) ← r.read byteBuf
  let byteBuf ← if isSysOrder sys o = false then Res.ofOption (swapLoop buf64.length 4 2 3 byteBuf)
    else Res.ok byteBuf
  Res.ok ((ofMem 4 (decode sys 4) buf64.length byteBuf).map fun w => BitVec.signExtend (8 * 8) w, r)

/-! ## Sheet files -/

/-- `render/io/io.go:54-74` (`SheetHeader` with its `CosmologyHeader`): thirteen 8-byte fields and four vectors, 152 bytes
without padding. -/
structure SheetHeader where
  z : Word 8
  omegaM : Word 8
  omegaL : Word 8
  h100 : Word 8
  count : Word 8
  countWidth : Word 8
  segmentWidth : Word 8
  gridWidth : Word 8
  gridCount : Word 8
  idx : Word 8
  cells : Word 8
  mass : Word 8
  totalWidth : Word 8
  origin : V3
  width : V3
  velocityOrigin : V3
  velocityWidth : V3
deriving DecidableEq

/-- `unsafe.Sizeof(SheetHeader{})`. render/io/io.go 288. -/
def headerSize : ℕ := 152

/-- `binary.Write(f, order, h)`: the fields in order of declaration. render/io/io.go 377. -/
def encHeader (o : Order) (h : SheetHeader) : List Byte :=
  [h.z, h.omegaM, h.omegaL, h.h100, h.count, h.countWidth, h.segmentWidth, h.gridWidth, h.gridCount, h.idx, h.cells,
    h.mass, h.totalWidth].flatMap (encode o 8) ++
  [h.origin, h.width, h.velocityOrigin, h.velocityWidth].flatMap (encV o)

/-- `binary.Read(f, order, hdBuf)` on the 152 bytes read. render/io/io.go 298. -/
def decHeader (o : Order) (bs : List Byte) : SheetHeader :=
  let f := fun i => decode o 8 ((bs.drop (8 * i)).take 8)
  let v := fun i => decV o ((bs.drop (104 + 12 * i)).take 12)
  ⟨f 0, f 1, f 2, f 3, f 4, f 5, f 6, f 7, f 8, f 9, f 10, f 11, f 12, v 0, v 1, v 2, v 3⟩

/-- `render/io/io.go:267-275` (`endianness`). -/
def endianness (flag : Word 4) : Res Order :=
  if flag = 0 then .ok .le else if flag = -1 then .ok .be else .panic

/-- `render/io/io.go:278-303` (`readSheetHeaderAt`), on the contents of the file. -/
def readSheetHeader (file : List Byte) : Res (SheetHeader × Rdr × Order) := do
  let r : Rdr := ⟨file, 0⟩
  let (flag, r) ← readInt32 r .le
  let order ← endianness flag
  let (size, r) ← readInt32 r order
  if size ≠ BitVec.ofNat (8 * 4) headerSize then Res.err
  else do
    let r := r.seek (4 + 4)
    let (bs, r) ← r.readFull headerSize
    let hd := decHeader order bs
    Res.ok ({ hd with count := hd.countWidth * hd.countWidth * hd.countWidth }, r, order)

/-- `render/io/io.go:306-311` (`ReadSheetHeaderAt`). -/
def readSheetHeaderAt (file : List Byte) : Res SheetHeader := do
  let (hd, _, _) ← readSheetHeader file
  Res.ok hd

/-- `render/io/io.go:314-331` (`ReadSheetPositionsAt`): the caller's buffer afterwards. An error of the header is turned
into success (line 317), leaving the buffer as it is. -/
def readSheetPositionsAt (sys : Order) (file : List Byte) (xsBuf : List V3) : Res (List V3) :=
  match readSheetHeader file with
  | .panic => .panic
  | .err => .ok xsBuf
  | .ok (h, f, order) =>
    if h.gridCount ≠ BitVec.ofNat (8 * 8) xsBuf.length then .err
    else do
      let f := f.seek (4 + 4 + headerSize)
      let (xs, _) ← readVecAsByte sys f order xsBuf
      Res.ok xs

/-- `render/io/io.go:334-348` (`ReadSheetVelocitiesAt`). -/
def readSheetVelocitiesAt (sys : Order) (file : List Byte) (vsBuf : List V3) : Res (List V3) := do
  let (h, f, order) ← readSheetHeader file
  if h.gridCount ≠ BitVec.ofNat (8 * 8) vsBuf.length then Res.err
  else do
    let f := f.seek (4 + 4 + headerSize + 3 * 4 * vsBuf.length)
    let (vs, _) ← readVecAsByte sys f order vsBuf
    Res.ok vs

/-- `render/io/io.go:352-386` (`WriteSheet`): contents of the file and the caller's slices afterwards. -/
def writeSheet (sys : Order) (h : SheetHeader) (xs vs : List V3) : Res (List Byte × List V3 × List V3) :=
  if h.gridCount.toInt ≠ xs.length then .panic
  else if h.gridCount.toInt ≠ vs.length then .panic
  else if h.gridWidth * h.gridWidth * h.gridWidth ≠ h.gridCount then .panic
  else do
    let flag : Word 4 := 0
    let order ← endianness flag
    let b0 := encode order 4 flag
    let b1 := encode order 4 (BitVec.ofNat (8 * 4) headerSize)
    let b2 := encHeader order h
    let (b3, xs) ← writeVecAsByte sys order xs
    let (b4, vs) ← writeVecAsByte sys order vs
    Res.ok (b0 ++ b1 ++ b2 ++ b3 ++ b4, xs, vs)

/-! ## Gadget files -/

/-- `render/io/io.go:78-89` (`gadgetHeader`), 256 bytes; the fields not used by the reader are kept as bytes. -/
structure GadgetHeader where
  nPart0 : Word 4
  nPart1 : Word 4
  mass1 : Word 8
  time : Word 8
  redshift : Word 8
  nPartTotal0 : Word 4
  nPartTotal1 : Word 4
  boxSize : Word 8
  omega0 : Word 8
  omegaLambda : Word 8
  hubbleParam : Word 8
deriving DecidableEq

/-- `binary.Read(f, binary.LittleEndian, gh)` on 256 bytes: `NPart` at 0, `Mass` at 24, `Time` at 72, `Redshift` at
80, `NPartTotal` at 96, `BoxSize` at 128 and the three parameters after it. render/io/io.go 78-92, 145 and 171. -/
def decGadget (bs : List Byte) : GadgetHeader :=
  let w := fun i => decode .le 4 ((bs.drop i).take 4)
  let d := fun i => decode .le 8 ((bs.drop i).take 8)
  ⟨w 0, w 4, d 32, d 72, d 80, w 96, w 100, d 128, d 136, d 144, d 152⟩

/-- The counts of `CatalogHeader`. render/io/io.go 28-40. -/
structure Counts where
  count : Word 8
  totalCount : Word 8
deriving DecidableEq

/-- `render/io/io.go:103-118` (`Standardize`), the two counts: the shift is done in 32 bits. -/
def standardize (gh : GadgetHeader) : Counts where
  count := BitVec.setWidth (8 * 8) (gh.nPart1 + (gh.nPart0 <<< 32))
  totalCount := BitVec.setWidth (8 * 8) (gh.nPartTotal1 + (gh.nPartTotal0 <<< 32))

/-- `render/io/io.go:122-129` (`WrapDistance`), exact arithmetic. -/
def wrapDistance (boxSize x : ℚ) : ℚ :=
  if x < 0 then x + boxSize else if x ≥ boxSize then x - boxSize else x

/-- Zero header: what `gh` is when `binary.Read` fails (its error is dropped, lines 145 and 171). -/
def zeroGadget : GadgetHeader := ⟨0, 0, 0, 0, 0, 0, 0, 0, 0, 0, 0⟩

/-- Lines 144-145 and 170-171: record marker and header. The header is read little endian whatever the file's order. -/
def readGadgetHeaderRaw (file : List Byte) (o : Order) : Res (GadgetHeader × Rdr) := do
  let r : Rdr := ⟨file, 0⟩
  let (_, r) ← readInt32 r o
  match r.readFull 256 with
  | .ok (bs, r) => Res.ok (decGadget bs, r)
  | _ => Res.ok (zeroGadget, { r with pos := file.length })

/-- Unspecified floating point operations, on bit patterns: `float32(x)`, the wrapping of one coordinate (line 243) with
the given box size, the product with `sqrt(time)` (line 244). -/
structure FloatOps where
  narrow : Word 8 → Word 4
  wrap : Word 8 → Word 4 → Word 4
  scale : Word 8 → Word 4 → Word 4

/-- Applies an operation to each component. render/geom/vec.go 13. -/
def V3.map (f : Word 4 → Word 4) (v : V3) : V3 := ⟨f v.x, f v.y, f v.z⟩

/-- One block of vectors (lines 193-209 and 212-225): its size decides between 32 and 64 bit floats. -/
def readBlock (fl : FloatOps) (sys : Order) (gh : GadgetHeader) (r : Rdr) (o : Order) (buf : List V3) :
    Res (List V3 × Rdr) := do
  let (size, r) ← readInt32 r o
  let f32Size := 4 * 3 * gh.nPart1
  if f32Size = size then readVecAsByte sys r o buf
  else if f32Size * 2 = size then readVec64AsByte fl.narrow sys r o buf
  else Res.panic

/-- The errors of the block readers are dropped (lines 205-224): the buffer and the position stay as they are. -/
def dropErr {α : Type} (buf : α) (r : Rdr) (x : Res (α × Rdr)) : Res (α × Rdr) :=
  match x with
  | .err => .ok (buf, r)
  | x => x

/-- The ids, lines 229-237. -/
def readIds (sys : Order) (r : Rdr) (o : Order) (ids : List (Word 8)) (idSize : ℤ) : Res (List (Word 8) × Rdr) :=
  if idSize = 64 then dropErr ids r (readInt64AsByte sys r o ids)
  else if idSize = 32 then dropErr ids r (readInt32AsByte sys r o ids)
  else Res.panic

/-- `render/io/io.go:155-247` (`ReadGadgetParticlesAt`): the three slices afterwards. -/
def readGadgetParticlesAt (fl : FloatOps) (sys : Order) (file : List Byte) (o : Order) (xs vs : List V3)
    (ids : List (Word 8)) (idSize : ℤ) : Res (List V3 × List V3 × List (Word 8)) := do
  let (gh, r) ← readGadgetHeaderRaw file o
  let (_, r) ← readInt32 r o
  let h := standardize gh
  if BitVec.ofNat (8 * 8) xs.length ≠ h.count then Res.panic
  else if BitVec.ofNat (8 * 8) vs.length ≠ h.count then Res.panic
  else if BitVec.ofNat (8 * 8) ids.length ≠ h.count then Res.panic
  else do
    let (xs, r) ← dropErr xs { r with pos := r.pos + 4 } (readBlock fl sys gh r o xs)
    let (_, r) ← readInt32 r o
    let (vs, r) ← dropErr vs { r with pos := r.pos + 4 } (readBlock fl sys gh r o vs)
    let (_, r) ← readInt32 r o
    let (_, r) ← readInt32 r o
    let (ids, _) ← readIds sys r o ids idSize
    Res.ok (xs.map (V3.map (fl.wrap gh.boxSize)), vs.map (V3.map (fl.scale gh.time)), ids)

/-- `render/io/io.go:252-263` (`ReadGadget`), without the returned header. -/
def readGadget (fl : FloatOps) (sys : Order) (file : List Byte) (o : Order) (idSize : ℤ) :
    Res (Counts × List V3 × List V3 × List (Word 8)) := do
  let (gh, _) ← readGadgetHeaderRaw file o
  let hd := standardize gh
  let n := hd.count.toNat
  let (xs, vs, ids) ← readGadgetParticlesAt fl sys file o (List.replicate n ⟨0, 0, 0⟩) (List.replicate n ⟨0, 0, 0⟩)
    (List.replicate n 0) idSize
  Res.ok (hd, xs, vs, ids)

/-! ## The particle buffer -/

/-- `render/io/buffer.go:10-15` (`ParticleBuffer`); `α` stands for the vector type. -/
structure ParticleBuffer (α : Type) where
  xBuf : List α
  vBuf : List α
  idBuf : List ℤ
  idx : ℤ
  xs : List α
  vs : List α

/-- `render/io/buffer.go:18-26` (`NewParticleBuffer`). -/
def newParticleBuffer {α : Type} (zero : α) (xs vs : List α) (bufSize : ℕ) : ParticleBuffer α :=
  ⟨List.replicate bufSize zero, List.replicate bufSize zero, List.replicate bufSize 0, 0, xs, vs⟩

/-- `render/io/buffer.go:45-51` (`Flush`). -/
def ParticleBuffer.flush {α : Type} (pb : ParticleBuffer α) : Option (ParticleBuffer α) := do
  let s ← forRange 0 pb.idx (fun i (s : List α × List α) => do
    let id ← rd pb.idBuf i
    let x ← rd pb.xBuf i
    let xs ← wr s.1 (id - 1) x
    let v ← rd pb.vBuf i
    let vs ← wr s.2 (id - 1) v
    some (xs, vs)) (pb.xs, pb.vs)
  some { pb with idx := 0, xs := s.1, vs := s.2 }

/-- `render/io/buffer.go:30-41` (`Append`). -/
def ParticleBuffer.append {α : Type} (pb : ParticleBuffer α) (xBuf vBuf : List α) (idBuf : List ℤ) :
    Option (ParticleBuffer α) :=
  forRange 0 xBuf.length (fun pi pb => do
    let x ← rd xBuf pi
    let xb ← wr pb.xBuf pb.idx x
    let v ← rd vBuf pi
    let vb ← wr pb.vBuf pb.idx v
    let id ← rd idBuf pi
    let ib ← wr pb.idBuf pb.idx id
    let pb : ParticleBuffer α := { pb with xBuf := xb, vBuf := vb, idBuf := ib, idx := pb.idx + 1 }
    if pb.idx = pb.xBuf.length then pb.flush else some pb) pb

end Verif.Io
