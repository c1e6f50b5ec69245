import Verif.Go.Loops
import Mathlib.Data.Fin.VecNotation
import Mathlib.Data.List.Sort

/-!
# Model of the halo grid and the subhalo finder (`render/halo/grid.go`, `render/halo/finder.go`)

`float64` values are exact rationals; a division by a zero cell width gives 0 instead of an infinity. Indices are unbounded
integers. Panics, and loops that never end, are `none`.
-/

set_option autoImplicit false

namespace Verif.Halo

open Verif.Go

/-- `render/halo/grid.go:7-15`. -/
structure Grid where
  cells : ℤ
  cw : ℚ
  width : ℚ
  heads : List ℤ
  next : List ℤ
deriving DecidableEq

/-- `render/halo/grid.go:3-5`. -/
def tail : ℤ := -1

/-- `render/halo/grid.go:17-29` (`NewGrid`). The loop that fills `Heads` is written as one fill; a negative number of cells
is a panic of `make`. -/
def newGrid (cells : ℤ) (width : ℚ) (dataLen : ℤ) : Option Grid :=
  if cells * cells * cells < 0 ∨ dataLen < 0 then none
  else some ⟨cells, width / cells, width, List.replicate (cells * cells * cells).toNat tail, List.replicate dataLen.toNat 0⟩

/-- The loop of `render/halo/grid.go:34-37`. A walk of more than `len(Next)` steps has met an entry twice and never ends;
it is cut off as `none`. -/
def lengthFrom (next : List ℤ) : ℕ → ℤ → ℤ → Option ℤ
  | 0, _, _ => none
  | f + 1, i, n =>
    if i = tail then some n
    else do
      let i' ← rd next i
      lengthFrom next f i' (n + 1)

/-- `render/halo/grid.go:31-39` (`Length`). -/
def Grid.length (g : Grid) (idx : ℤ) : Option ℤ := do
  let i ← rd g.heads idx
  lengthFrom g.next (g.next.length + 1) i 0

/-- `render/halo/grid.go:44-58`: one coordinate. -/
def wrap (width x : ℚ) : ℚ :=
  if x > width then x - width
  else if x < 0 then x + width
  else x

/-- `render/halo/grid.go:61-62`. -/
def Grid.index (g : Grid) (x y z : ℚ) : ℤ :=
  trunc (wrap g.width x / g.cw) + trunc (wrap g.width y / g.cw) * g.cells +
    trunc (wrap g.width z / g.cw) * g.cells * g.cells

/-- `render/halo/grid.go:41-67` (`Insert`). -/
def Grid.insert (g : Grid) (xs ys zs : List ℚ) : Option Grid :=
  forRange 0 xs.length (fun i g => do
    let x ← rd xs i
    let y ← rd ys i
    let z ← rd zs i
    let h ← rd g.heads (g.index x y z)
    let next ← wr g.next i h
    let heads ← wr g.heads (g.index x y z) i
    some { g with next := next, heads := heads }) g

/-- `render/halo/grid.go:73-80` (`MaxLength`). -/
def Grid.maxLength (g : Grid) : Option ℤ :=
  forRange 0 g.heads.length (fun i max => do
    let l ← g.length i
    some (if l > max then l else max)) 0

/-- `render/halo/grid.go:82-84` (`AverageLength`); the integer division panics for a grid without cells. -/
def Grid.averageLength (g : Grid) : Option ℤ :=
  if g.heads.length = 0 then none else some ((g.next.length : ℤ) / g.heads.length)

/-- The loop of `render/halo/grid.go:91-95`: `acc` is the part of the buffer written so far, `cap` the capacity of the
buffer. -/
def readFrom (next : List ℤ) (cap : ℤ) : ℕ → ℤ → List ℤ → Option (List ℤ)
  | 0, _, _ => none
  | f + 1, i, acc =>
    if i = tail then some acc
    else if (acc.length : ℤ) < cap then do
      let i' ← rd next i
      readFrom next cap f i' (acc ++ [i])
    else none

/-- `render/halo/grid.go:86-98` (`ReadIndexes`). Only the capacity of the buffer matters. -/
def Grid.readIndexes (g : Grid) (idx : ℤ) (cap : ℤ) : Option (List ℤ) := do
  let i ← rd g.heads idx
  readFrom g.next cap (g.next.length + 1) i []

/-- `render/halo/finder.go:15-17` (`Bounds`). -/
structure Bounds where
  origin : Fin 3 → ℤ
  span : Fin 3 → ℤ

/-- One coordinate of `render/halo/finder.go:22-29`: first cell and number of cells. -/
def sphereBounds1 (pos r cw width : ℚ) : ℤ × ℤ :=
  let min := pos - r
  let max := pos + r
  let min := if min < 0 then min + width else min
  let max := if min > max then max + width else max
  (trunc (min / cw), trunc (max / cw) - trunc (min / cw) + 1)

/-- `render/halo/finder.go:21-30` (`SphereBounds`). -/
def sphereBounds (pos : Fin 3 → ℚ) (r cw width : ℚ) : Bounds :=
  ⟨fun i => (sphereBounds1 (pos i) r cw width).1, fun i => (sphereBounds1 (pos i) r cw width).2⟩

/-- One coordinate of `render/halo/finder.go:33-41` (`ConvertIndices`). -/
def Bounds.convert (b : Bounds) (x width : ℤ) (dim : Fin 3) : ℤ :=
  if x - b.origin dim < 0 then x - b.origin dim + width else x - b.origin dim

/-- `render/halo/finder.go:45-53` (`Inside`). -/
def Bounds.inside (b : Bounds) (val width : ℤ) (dim : Fin 3) : Bool :=
  let lo := b.origin dim
  let hi := b.origin dim + b.span dim
  let val := if val ≥ hi then val - width else if val < lo then val + width else val
  decide (val < hi ∧ val ≥ lo)

/-- The mutable part of `render/halo/finder.go:9-12` (`SubhaloFinder`). -/
structure Finder where
  starts : List ℤ
  subs : List ℤ
deriving DecidableEq

/-- `render/halo/finder.go:57-65` (`NewSubhaloFinder`). -/
def newFinder (g : Grid) : Finder := ⟨List.replicate g.next.length 0, []⟩

/-- `render/halo/finder.go:228-237` (`cumulativeMax`). -/
def cumulativeMax (xs : List ℚ) : Option (List ℚ) := do
  let m ← rd xs (xs.length - 1)
  let r ← forDown (xs.length - 1) 0 (fun i (st : List ℚ × ℚ) => do
    let x ← rd xs i
    let max := if x > st.2 then x else st.2
    let ms ← wr st.1 i max
    some (ms, max)) (List.replicate xs.length 0, m)
  some r.1

/-- `render/halo/finder.go:214-226` (`markSubhalos`); the result is the new list of subhalos. -/
def markSubhalos (ih : ℤ) (idxs : List ℤ) (xs ys zs rs : List ℚ) (subs : List ℤ) : Option (List ℤ) := do
  let hx ← rd xs ih
  let hy ← rd ys ih
  let hz ← rd zs ih
  let hr ← rd rs ih
  idxs.foldlM (fun subs j =>
    if j ≤ ih then some subs
    else do
      let sx ← rd xs j
      let sy ← rd ys j
      let sz ← rd zs j
      let sr ← rd rs j
      let dx := hx - sx
      let dy := hy - sy
      let dz := hz - sz
      let dr := hr + sr
      if dr * dr ≥ dx * dx + dy * dy + dz * dz then some (subs ++ [j]) else some subs) subs

/-- The periodic index of `render/halo/finder.go:89-98`. -/
def periodic (origin d c : ℤ) : ℤ := if origin + d ≥ c then origin + d - c else origin + d

/-- The loops over the cells, `render/halo/finder.go:88-106`. -/
def markCells (g : Grid) (cap : ℤ) (b : Bounds) (ih : ℤ) (xs ys zs rs : List ℚ) (subs : List ℤ) : Option (List ℤ) :=
  forRange 0 (b.span 2) (fun dz subs =>
    forRange 0 (b.span 1) (fun dy subs =>
      forRange 0 (b.span 0) (fun dx subs => do
        let idx := periodic (b.origin 2) dz g.cells * g.cells * g.cells + periodic (b.origin 1) dy g.cells * g.cells +
          periodic (b.origin 0) dx g.cells
        let buf ← g.readIndexes idx cap
        markSubhalos ih buf xs ys zs rs subs) subs) subs) subs

/-- One iteration of `render/halo/finder.go:80-107`. The total volume `vol` is computed but never used there, and is left
out. -/
def findOne (g : Grid) (cap : ℤ) (cMax xs ys zs rs : List ℚ) (ih : ℤ) (sf : Finder) : Option Finder := do
  let rh ← rd rs ih
  let starts ← wr sf.starts ih sf.subs.length
  let maxSR ← rd cMax ih
  let x ← rd xs ih
  let y ← rd ys ih
  let z ← rd zs ih
  let subs ← markCells g cap (sphereBounds ![x, y, z] (rh + maxSR) g.cw g.width) ih xs ys zs rs sf.subs
  some ⟨starts, subs⟩

/-- `render/halo/finder.go:113-119` (`StartEnd`) for given slices: `subs` enters only through its length. -/
def startEnd (starts : List ℤ) (len : ℤ) (ih : ℤ) : Option (ℤ × ℤ) :=
  if ih = starts.length - 1 then do
    let s ← rd starts ih
    some (s, len)
  else do
    let s ← rd starts ih
    let e ← rd starts (ih + 1)
    some (s, e)

/-- The slice expression `xs[start: end]`; the capacity is taken to be the length. Used for render/halo/finder.go 148
and the slices of lines 60-237. -/
def slice {α : Type} (xs : List α) (start stop : ℤ) : Option (List α) :=
  if 0 ≤ start ∧ start ≤ stop ∧ stop ≤ xs.length then some ((xs.take stop.toNat).drop start.toNat) else none

/-- `render/halo/finder.go:138-141` (`Intersects`). -/
def Finder.intersects (sf : Finder) (ih : ℤ) : Option (List ℤ) := do
  let se ← startEnd sf.starts sf.subs.length ih
  slice sf.subs se.1 se.2

/-- The loop of `render/halo/finder.go:128-131`. -/
def hostCountIn (ih : ℤ) : List ℤ → ℤ
  | [] => 0
  | sh :: is => if sh > ih then 0 else 1 + hostCountIn ih is

/-- `render/halo/finder.go:126-132` (`HostCount`). -/
def Finder.hostCount (sf : Finder) (ih : ℤ) : Option ℤ := do
  let is ← sf.intersects ih
  some (hostCountIn ih is)

/-- `render/halo/finder.go:121-124` (`IntersectCount`). -/
def Finder.intersectCount (sf : Finder) (ih : ℤ) : Option ℤ := do
  let se ← startEnd sf.starts sf.subs.length ih
  some (se.2 - se.1)

/-- `render/halo/finder.go:134-136` (`SubhaloCount`). -/
def Finder.subhaloCount (sf : Finder) (ih : ℤ) : Option ℤ := do
  let a ← sf.intersectCount ih
  let b ← sf.hostCount ih
  some (a - b)

/-- `render/halo/finder.go:143-145` (`Hosts`). -/
def Finder.hosts (sf : Finder) (ih : ℤ) : Option (List ℤ) := do
  let is ← sf.intersects ih
  let n ← sf.hostCount ih
  slice is 0 n

/-- `render/halo/finder.go:147-149` (`Subhalos`). -/
def Finder.subhalos (sf : Finder) (ih : ℤ) : Option (List ℤ) := do
  let is ← sf.intersects ih
  let n ← sf.hostCount ih
  slice is n is.length

/-- `render/halo/finder.go:154-161`. -/
def countSubs (sf : Finder) : Option (List ℤ) :=
  forRange 0 sf.starts.length (fun ih counts => do
    let se ← startEnd sf.starts sf.subs.length ih
    forRange se.1 se.2 (fun ish counts => do
      let sh ← rd sf.subs ish
      let c ← rd counts sh
      wr counts sh (c + 1)) counts) (List.replicate sf.starts.length 0)

/-- `render/halo/finder.go:163-166`. -/
def prefixSums (counts : List ℤ) : Option (List ℤ) :=
  forRange 1 counts.length (fun i hs => do
    let h ← rd hs (i - 1)
    let c ← rd counts (i - 1)
    wr hs i (h + c)) (List.replicate counts.length 0)

/-- `render/halo/finder.go:168-176`: the hosts and the advanced start positions. -/
def fillHosts (sf : Finder) (hostStarts : List ℤ) : Option (List ℤ × List ℤ) :=
  forRange 0 sf.starts.length (fun ih (st : List ℤ × List ℤ) => do
    let se ← startEnd sf.starts sf.subs.length ih
    forRange se.1 se.2 (fun ish (st : List ℤ × List ℤ) => do
      let sh ← rd sf.subs ish
      let p ← rd st.2 sh
      let hosts ← wr st.1 p ih
      let hostStarts ← wr st.2 sh (p + 1)
      some (hosts, hostStarts)) st) (List.replicate sf.subs.length 0, hostStarts)

/-- `render/halo/finder.go:178`. -/
def restoreStarts (counts hostStarts : List ℤ) : Option (List ℤ) :=
  forRange 0 counts.length (fun i hs => do
    let h ← rd hs i
    let c ← rd counts i
    wr hs i (h - c)) hostStarts

/-- The copying loops `render/halo/finder.go:189-192` and `195-198`: the target and the write position. -/
def copySeg (src : List ℤ) (se : ℤ × ℤ) (st : List ℤ × ℤ) : Option (List ℤ × ℤ) :=
  forRange se.1 se.2 (fun ish (st : List ℤ × ℤ) => do
    let v ← rd src ish
    let t ← wr st.1 st.2 v
    some (t, st.2 + 1)) st

/-- `render/halo/finder.go:180-202`: new starts and new subhalos. While the start positions are those of the hosts, `StartEnd`
still uses the length of the old list of subhalos. -/
def joinHosts (sf : Finder) (n : ℤ) (hosts hostStarts : List ℤ) : Option Finder := do
  let r ← forRange 0 n (fun ih (st : List ℤ × List ℤ × ℤ) => do
    let newStarts ← wr st.1 ih st.2.2
    let se ← startEnd hostStarts sf.subs.length ih
    let t ← copySeg hosts se st.2
    let se' ← startEnd sf.starts sf.subs.length ih
    let t' ← copySeg sf.subs se' t
    some (newStarts, t')) (List.replicate sf.starts.length 0, List.replicate (hosts.length + sf.subs.length) 0, 0)
  some ⟨r.1, r.2.1⟩

/-- `render/halo/finder.go:204-207`: every overlap list is sorted in place. `sort.Sort` on integers is a library function and is
taken to be any sorting function; all of them give the same result. -/
def sortAll (sf : Finder) : Option Finder :=
  forRange 0 sf.starts.length (fun i sf => do
    let se ← startEnd sf.starts sf.subs.length i
    let is ← slice sf.subs se.1 se.2
    some { sf with
      subs := sf.subs.take se.1.toNat ++ is.insertionSort (· ≤ ·) ++ sf.subs.drop se.2.toNat }) sf

/-- `render/halo/finder.go:153-208` (`crossMatch`). -/
def crossMatch (sf : Finder) : Option Finder := do
  let counts ← countSubs sf
  let hostStarts ← prefixSums counts
  let r ← fillHosts sf hostStarts
  let hostStarts ← restoreStarts counts r.2
  let sf' ← joinHosts sf counts.length r.1 hostStarts
  sortAll sf'

/-- `render/halo/finder.go:68-111` (`FindSubhalos`): the finder and the radii afterwards. The loops that scale the radii are
written as maps. -/
def findSubhalos (g : Grid) (sf : Finder) (xs ys zs rs : List ℚ) (mult : ℚ) : Option (Finder × List ℚ) := do
  let cap ← g.maxLength
  let rs := rs.map (· * mult)
  let cMax ← cumulativeMax rs
  let sf ← forRange 0 rs.length (findOne g cap cMax xs ys zs rs) sf
  let sf ← crossMatch sf
  some (sf, rs.map (· / mult))

end Verif.Halo
