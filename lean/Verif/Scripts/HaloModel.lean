import Verif.Halo.CatalogModel

/-!
# Model of the program that writes the files for rendering a halo (`render/scripts/read_halo.go`)

The search for subhalos is modelled in `Verif.Halo.Model`; here its result is a parameter. As in `Verif.Halo.CatalogModel`
the calls of `Swap` made by `sort.Sort` are a parameter. Texts are lists of numbers: the format of the numbers in the files
is left out.
-/

set_option autoImplicit false

namespace Verif.Scripts

open Verif.Go Verif.Io Verif.Halo

/-- `Halos`, render/scripts/read_halo.go 62-65. -/
structure Halos where
  ids : List ℤ
  xs : List ℝ
  ys : List ℝ
  zs : List ℝ
  m200ms : List ℝ
  r200ms : List ℝ
  rPrints : List ℝ

/-- `Swap`, render/scripts/read_halo.go 79-87. -/
noncomputable def Halos.swap (hs : Halos) (i j : ℤ) : Option Halos := do
  let ids ← exchange hs.ids i j
  let r200ms ← exchange hs.r200ms i j
  let m200ms ← exchange hs.m200ms i j
  let rPrints ← exchange hs.rPrints i j
  let xs ← exchange hs.xs i j
  let ys ← exchange hs.ys i j
  let zs ← exchange hs.zs i j
  some ⟨ids, xs, ys, zs, m200ms, r200ms, rPrints⟩

/-- `Less`, render/scripts/read_halo.go 78. -/
def Halos.less (hs : Halos) (i j : ℤ) : Option Prop := do
  let a ← rd hs.r200ms i
  let b ← rd hs.r200ms j
  some (a < b)

/-- `sort.Reverse`, render/scripts/read_halo.go 138. -/
def Halos.lessReversed (hs : Halos) (i j : ℤ) : Option Prop := hs.less j i

/-- The calls of `Swap` made by `sort.Sort`, render/scripts/read_halo.go 138. -/
noncomputable def Halos.run (hs : Halos) (swaps : List (ℤ × ℤ)) : Option Halos :=
  swaps.foldlM (fun hs p => hs.swap p.1 p.2) hs

/-- `rType`, render/scripts/read_halo.go 27. -/
def rType : Radius := r200m

/-- The columns and the sort, render/scripts/read_halo.go 107-138. The masses `mPrints` are never read and are left out; the
loops of lines 118 and 134 are written as maps. -/
noncomputable def readHalos (swaps : List (ℤ × ℤ)) (tbl : List (List ℝ)) (rPrintType : Radius) (c : CosmologyHeader) :
    Res Halos := do
  let r200mCol ← Res.ofOption (rockstarColumn r200m)
  let rPrintCol ← Res.ofOption (rockstarColumn rPrintType)
  let cols ← readTable tbl [1, 17, 18, 19, r200mCol, rPrintCol]
  let ids ← Res.ofOption (rd cols 0)
  let xs ← Res.ofOption (rd cols 1)
  let ys ← Res.ofOption (rd cols 2)
  let zs ← Res.ofOption (rd cols 3)
  let m200ms ← Res.ofOption (rd cols 4)
  let r200ms ← Res.ofOption (radiusInto rType c m200ms (List.replicate m200ms.length 0))
  let isMass ← Res.ofOption (rockstarMass rPrintType)
  let col ← Res.ofOption (rd cols 5)
  let rPrints ← Res.ofOption (if isMass = true then radiusInto rType c col (List.replicate col.length 0)
    else some (col.map (· / 1000)))
  Res.ofOption ((Halos.mk (ids.map truncReal) xs ys zs m200ms r200ms rPrints).run swaps)

/-- The inner loop of the search for an identity, from index `j` on; `d` is the value that is left when there is none.
render/scripts/read_halo.go 160-166. -/
def findTarget (d target : ℤ) : ℤ → List ℤ → ℤ
  | _, [] => d
  | j, id :: ids => if id = target then j else findTarget d target (j + 1) ids

/-- The search for identities, render/scripts/read_halo.go 156-167: the slice of indices starts as zeros. -/
def findTargets (targets ids : List ℤ) : List ℤ := targets.map fun t => findTarget 0 t 0 ids

/-- One line of the subhalo file: index, position and radius. render/scripts/read_halo.go 67-75 and 187-197. -/
noncomputable def haloLine (hs : Halos) (ih : ℤ) : Option (ℤ × ℝ × ℝ × ℝ × ℝ) := do
  let x ← rd hs.xs ih
  let y ← rd hs.ys ih
  let z ← rd hs.zs ih
  let r ← rd hs.rPrints ih
  some (ih, x, y, z, r)

/-- The subhalo file, render/scripts/read_halo.go 180-181 and 233-236. -/
noncomputable def shFile (hs : Halos) (ih : ℤ) (subs : List ℤ) : Option (List (ℤ × ℝ × ℝ × ℝ × ℝ)) := do
  let h ← haloLine hs ih
  let l ← subs.mapM (haloLine hs)
  some (h :: l)

/-- The ball file: centre and radius. render/scripts/read_halo.go 208 and 231. -/
noncomputable def ballFile (hs : Halos) (ih : ℤ) : Option (ℝ × ℝ × ℝ × ℝ) := do
  let h ← haloLine hs ih
  some (h.2.1, h.2.2.1, h.2.2.2.1, h.2.2.2.2 * 3)

/-- `particles`, render/scripts/read_halo.go 199-204, for rational numbers. -/
def particles (L l : ℚ) (pixels : ℤ) : ℤ :=
  let n := trunc (1000 * (L / (3 * l)) ^ 3 * ((pixels : ℚ) / 500) ^ 3)
  if n < 20 then 20 else n

end Verif.Scripts
