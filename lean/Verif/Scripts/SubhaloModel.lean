import Verif.Halo.CatalogModel
import Verif.Scripts.ProfileModel

/-!
# Model of the subhalo file: written by `render/scripts/read_halo.go`, read by `render/scripts/profile.go`

The formats `%d` and `%g` and the reader of tables (`table.ReadTable`, not part of the repository) are taken to give numbers
back as they were; numbers of any type `α`, without NaN. Opening and creating files succeeds.
-/

set_option autoImplicit false

namespace Verif.Scripts

open Verif.Go Verif.Io Verif.Halo

/-- `Halo`, render/scripts/read_halo.go 67-70 and render/scripts/profile.go 17-21. -/
structure HaloRec (α : Type) where
  ih : ℤ
  x : α
  y : α
  z : α
  r : α
deriving DecidableEq

/-- The columns of the file with the given lines: `Halo.String` and the joined lines, render/scripts/read_halo.go 72-75 and
233-236. -/
def subhaloFile {α : Type} (ofInt : ℤ → α) (lines : List (HaloRec α)) : List (List α) :=
  [lines.map fun h => ofInt h.ih, lines.map fun h => h.x, lines.map fun h => h.y, lines.map fun h => h.z,
    lines.map fun h => h.r]

/-- The halo in row `i`, render/scripts/profile.go 370 and 373-375. -/
def haloAt {α : Type} (toInt : α → ℤ) (ihs xs ys zs rs : List α) (i : Int) : Option (HaloRec α) := do
  let ih ← rd ihs i
  let x ← rd xs i
  let y ← rd ys i
  let z ← rd zs i
  let r ← rd rs i
  some ⟨toInt ih, x, y, z, r⟩

/-- `readSubhalos`, render/scripts/profile.go 365-379; `toInt` is the conversion `int(x)`. -/
def readSubhalos {α : Type} [Zero α] (toInt : α → ℤ) (tbl : List (List α)) : Res (HaloRec α × List (HaloRec α)) := do
  let cols ← readTable tbl [0, 1, 2, 3, 4]
  let ihs ← Res.ofOption (rd cols 0)
  let xs ← Res.ofOption (rd cols 1)
  let ys ← Res.ofOption (rd cols 2)
  let zs ← Res.ofOption (rd cols 3)
  let rs ← Res.ofOption (rd cols 4)
  let h ← Res.ofOption (haloAt toInt ihs xs ys zs rs 0)
  let shs ← Res.ofOption (forRange 0 (ihs.length - 1 : ℤ) (fun i shs => do
    let sh ← haloAt toInt ihs xs ys zs rs (i + 1)
    wr shs i sh) (List.replicate (ihs.length - 1) ⟨0, 0, 0, 0, 0⟩))
  Res.ok (h, shs)

/-- `newHalo`, render/scripts/read_halo.go 184-186. -/
def newHalo {α : Type} (ih : ℤ) (xs ys zs rs : List α) : Option (HaloRec α) := do
  let x ← rd xs ih
  let y ← rd ys ih
  let z ← rd zs ih
  let r ← rd rs ih
  some ⟨ih, x, y, z, r⟩

/-- The lines of the file for the halo `ih` and the subhalos `subs`: `newHalos`, and the joined lines,
render/scripts/read_halo.go 178-182, 188-194 and 233-236;
`shFile` of `Verif/Scripts/HaloModel.lean` for numbers of any type. -/
def subhaloLines {α : Type} (ih : ℤ) (subs : List ℤ) (xs ys zs rs : List α) : Option (List (HaloRec α)) := do
  let h ← newHalo ih xs ys zs rs
  let l ← subs.mapM fun k => newHalo k xs ys zs rs
  some (h :: l)

/-- The sphere that is removed for a subhalo, render/scripts/profile.go 48-49. -/
def HaloRec.sphere (h : HaloRec ℚ) : Sphere := ⟨![h.x, h.y, h.z], h.r⟩

/-- The subhalos of the file removed from the grid, render/scripts/profile.go 32 and 38-51. -/
def cleanGrid (bh : Bounds) (cw width : ℚ) (tbl : List (List ℚ)) (grid : List Fl) : Res (List Fl) := do
  let (_, shs) ← readSubhalos trunc tbl
  Res.ofOption (removeAll bh cw width (shs.map HaloRec.sphere) grid)

/-- `findIdx`, render/scripts/read_halo.go 251-254. -/
def findIdx (x : ℚ) : List ℚ → ℤ
  | [] => 0
  | xx :: xs => if xx < x then 0 else 1 + findIdx x xs

end Verif.Scripts
