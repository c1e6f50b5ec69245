import Verif.Halo.RadiusModel
import Verif.Io.Model

/-!
# Model of `render/halo/io.go`: reading, converting and sorting halo catalogues

A text catalogue is a table, given by its columns. `table.ReadTable` (not part of the repository) returns the wanted columns,
or an error if there is no such column. Numbers are real numbers in the first part; in the files they are bit patterns, and
`val` is the number of a bit pattern. Opening and creating files succeeds.

`sort.Sort` is modelled by its contract: it calls `Swap` with indices inside the data, any number of times and in any
order, and ends with data on which no `Less(i+1, i)` holds. The calls are a parameter (`swaps`).
-/

set_option autoImplicit false

namespace Verif.Halo

open Verif.Go Verif.Io

/-- `table.ReadTable(file, colIdxs, nil)`. render/halo/io.go 38, 136, 181 and 267. -/
def readTable {α : Type} (tbl : List (List α)) (colIdxs : List ℤ) : Res (List (List α)) :=
  match colIdxs.mapM (rd tbl) with
  | some cols => .ok cols
  | none => .err

/-- The Go conversion `int(x)`. render/halo/io.go 55. -/
noncomputable def truncReal (x : ℝ) : ℤ := if 0 ≤ x then ⌊x⌋ else ⌈x⌉

/-- `render/halo/io.go:13-16`. -/
structure Halos where
  rids : List ℤ
  xs : List ℝ
  ys : List ℝ
  zs : List ℝ
  ms : List ℝ
  rs : List ℝ

/-- `l[i], l[j] = l[j], l[i]`. render/halo/io.go 20-27 and 160-163. -/
def exchange {α : Type} (l : List α) (i j : ℤ) : Option (List α) := do
  let a ← rd l j
  let b ← rd l i
  let l ← wr l i a
  wr l j b

/-- `render/halo/io.go:20-27` (`Swap`). -/
noncomputable def Halos.swap (hs : Halos) (i j : ℤ) : Option Halos := do
  let rs ← exchange hs.rs i j
  let ms ← exchange hs.ms i j
  let xs ← exchange hs.xs i j
  let ys ← exchange hs.ys i j
  let zs ← exchange hs.zs i j
  let rids ← exchange hs.rids i j
  some ⟨rids, xs, ys, zs, ms, rs⟩

/-- `render/halo/io.go:19` (`Less`). -/
def Halos.less (hs : Halos) (i j : ℤ) : Option Prop := do
  let a ← rd hs.rs i
  let b ← rd hs.rs j
  some (a < b)

/-- `sort.Reverse`: `Less` with exchanged arguments. render/halo/io.go 57. -/
def Halos.lessReversed (hs : Halos) (i j : ℤ) : Option Prop := hs.less j i

/-- The calls of `Swap` made by `sort.Sort`, one after the other. render/halo/io.go 57. -/
noncomputable def Halos.run (hs : Halos) (swaps : List (ℤ × ℤ)) : Option Halos :=
  swaps.foldlM (fun hs p => hs.swap p.1 p.2) hs

/-- `render/halo/io.go:31-59` (`ReadRockstar`). The loops of lines 50 and 55 are written as maps. -/
noncomputable def readRockstar (swaps : List (ℤ × ℤ)) (tbl : List (List ℝ)) (rType : Radius) (c : CosmologyHeader) :
    Res Halos := do
  let rCol ← Res.ofOption (rockstarColumn rType)
  let cols ← readTable tbl [1, 17, 18, 19, rCol]
  let ids ← Res.ofOption (rd cols 0)
  let xs ← Res.ofOption (rd cols 1)
  let ys ← Res.ofOption (rd cols 2)
  let zs ← Res.ofOption (rd cols 3)
  let isMass ← Res.ofOption (rockstarMass rType)
  let col ← Res.ofOption (rd cols 4)
  let (ms, rs) ← Res.ofOption (if isMass = true then (do
      let rs ← radiusInto rType c col (List.replicate col.length 0)
      some (col, rs))
    else (do
      let rs := col.map (· / 1000)
      let ms ← massInto rType c rs (List.replicate rs.length 0)
      some (ms, rs)))
  let rids := ids.map truncReal
  Res.ofOption ((Halos.mk rids xs ys zs ms rs).run swaps)

/-! ## Binary catalogues -/

/-- `render/halo/io.go:125` (`valNum`). -/
def valNum : ℤ := 62

/-- `binary.Write(f, binary.LittleEndian, int64(n))` followed by the columns: `render/halo/io.go:143-148`, `200-205`. -/
def encodeCatalog (n : ℤ) (cols : List (List (Word 8))) : List Byte :=
  encode .le 8 (BitVec.ofInt (8 * 8) n) ++ cols.flatMap fun col => col.flatMap (encode .le 8)

/-- `render/halo/io.go:133-151` (`RockstarConvert`): the contents of the new file. -/
def rockstarConvert (tbl : List (List (Word 8))) : Res (List Byte) := do
  let cols ← readTable tbl ((List.range valNum.toNat).map fun (i : ℕ) => (i : ℤ))
  let c0 ← Res.ofOption (rd cols 0)
  Res.ok (encodeCatalog c0.length cols)

/-- `render/halo/io.go:153-156`. -/
structure IdxSet where
  xs : List ℝ
  idxs : List ℤ

/-- `render/halo/io.go:160-163` (`Swap`). -/
noncomputable def IdxSet.swap (s : IdxSet) (i j : ℤ) : Option IdxSet := do
  let xs ← exchange s.xs i j
  let idxs ← exchange s.idxs i j
  some ⟨xs, idxs⟩

/-- `render/halo/io.go:158` (`Less`). -/
def IdxSet.less (s : IdxSet) (i j : ℤ) : Option Prop := do
  let a ← rd s.xs i
  let b ← rd s.xs j
  some (a < b)

/-- The calls of `Swap` made by `sort.Sort`. render/halo/io.go 174. -/
noncomputable def IdxSet.run (s : IdxSet) (swaps : List (ℤ × ℤ)) : Option IdxSet :=
  swaps.foldlM (fun s p => s.swap p.1 p.2) s

/-- `render/halo/io.go:165-176` (`idxSort`), up to the call of `sort.Sort`: the set before sorting. -/
def idxSet (xs : List ℝ) : IdxSet := ⟨xs, (List.range xs.length).map fun (i : ℕ) => (i : ℤ)⟩

/-- `render/halo/io.go:165-176` (`idxSort`). -/
noncomputable def idxSort (swaps : List (ℤ × ℤ)) (xs : List ℝ) : Option (List ℤ) := do
  let s ← (idxSet xs).run swaps
  some s.idxs

/-- `l[lo:]`. render/halo/io.go 185 and 261. -/
def sliceFrom {α : Type} (l : List α) (lo : ℤ) : Option (List α) :=
  if 0 ≤ lo ∧ lo ≤ l.length then some (l.drop lo.toNat) else none

/-- `render/halo/io.go:178-208` (`RockstarConvertTopN`). The loops of lines 190-194 read each column at the chosen rows. -/
noncomputable def rockstarConvertTopN (val : Word 8 → ℝ) (swaps : List (ℤ × ℤ)) (tbl : List (List (Word 8))) (n : ℤ) :
    Res (List Byte) := do
  let cols ← readTable tbl ((List.range valNum.toNat).map fun (i : ℕ) => (i : ℤ))
  let c0 ← Res.ofOption (rd cols 0)
  let n := if n > c0.length then (c0.length : ℤ) else n
  let m ← Res.ofOption (rd cols 36)
  let sorted ← Res.ofOption (idxSort swaps (m.map val))
  let idxs ← Res.ofOption (sliceFrom sorted (c0.length - n))
  let outCols ← Res.ofOption (cols.mapM fun col => idxs.mapM (rd col))
  Res.ok (encodeCatalog n outCols)

/-- `render/halo/io.go:280-286`: one column. A negative position is an error of `Seek`. -/
def readColumn (file : List Byte) (n : ℤ) (colIdx : ℤ) : Res (List (Word 8)) :=
  if colIdx > valNum then .panic
  else if 8 + n * 8 * colIdx < 0 then .err
  else do
    let r : Rdr := ⟨file, (8 + n * 8 * colIdx).toNat⟩
    let (bs, _) ← r.readFull (8 * n.toNat)
    Res.ok (ofMem 8 (decode .le 8) n.toNat bs)

/-- `render/halo/io.go:280-286`: the loop over the columns. -/
def readColumns (file : List Byte) (n : ℤ) : List ℤ → Res (List (List (Word 8)))
  | [] => .ok []
  | c :: cs => do
    let col ← readColumn file n c
    let rest ← readColumns file n cs
    Res.ok (col :: rest)

/-- `render/halo/io.go:269-288` (`binaryColGetter`). A negative length is a panic of `make`; the products are not cut to 64
bits and memory is unlimited. -/
def binaryColGetter (file : List Byte) (colIdxs : List ℤ) : Res (List (List (Word 8))) := do
  let r : Rdr := ⟨file, 0⟩
  let (bs, _) ← r.readFull 8
  let n := (decode .le 8 bs).toInt
  if n < 0 ∧ colIdxs ≠ [] then Res.panic else readColumns file n colIdxs

/-- `render/halo/io.go:226-236`: the column for a flag. -/
def colOf (v : ℤ) : ℤ :=
  if v = 63 then 10 else if v = 64 then 36 else if v = 65 then 37 else if v = 66 then 38 else if v = 67 then 39 else v

/-- `render/halo/io.go:247-255`: the conversion of a column, in place. -/
noncomputable def convertCol (c : CosmologyHeader) (v : ℤ) (col : List ℝ) : Option (List ℝ) :=
  if v = 63 then radiusInPlace rVirial c col
  else if v = 64 then radiusInPlace r200m c col
  else if v = 65 then radiusInPlace r200c c col
  else if v = 66 then radiusInPlace r500c c col
  else if v = 67 then radiusInPlace r2500c c col
  else if v = 12 ∨ v = 11 ∨ v = 34 then forRange 0 col.length (fun j col => do
    let x ← rd col j
    wr col j (x / 1000)) col
  else some col

/-- `render/halo/io.go:222-263` (`readRockstarVals`); `getter` is one of the two column getters, on an open file. The columns
are separate slices. -/
noncomputable def readRockstarVals (getter : List ℤ → Res (List (List ℝ))) (c : CosmologyHeader) (valFlags : List ℤ) :
    Res (List ℤ × List (List ℝ)) := do
  let vals ← getter (1 :: valFlags.map colOf)
  let c0 ← Res.ofOption (rd vals 0)
  let ids := c0.map truncReal
  let vals ← Res.ofOption (forRange 0 valFlags.length (fun i vals => do
    let v ← rd valFlags i
    let col ← rd vals (i + 1)
    let col ← convertCol c v col
    wr vals (i + 1) col) vals)
  if vals.length = 1 then Res.ok (ids, []) else do
    let rest ← Res.ofOption (sliceFrom vals 1)
    Res.ok (ids, rest)

end Verif.Halo
