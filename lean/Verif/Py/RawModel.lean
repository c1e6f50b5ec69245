import Verif.Py.RebinModel
import Verif.Py.VecDerivModel

/-!
# Model of `AbstractProfile` and `RawProfile` of `render/scripts/profile.py`

`lg` is `np.log10` and `pw` is `10**`; both are parameters, as SciPy's spline is. `none` is an exception.
-/

set_option autoImplicit false

namespace Verif.Py

open Verif.Go

/-- The lists of a profile: radii, densities, their logarithms and the slopes of all segments.
render/scripts/profile.py 127-149. -/
structure Prof where
  rs : List (List ℚ)
  rhos : List (List ℚ)
  lrs : List (List ℚ)
  lrhos : List (List ℚ)
  lderivs : List (List ℚ)
  deriving DecidableEq

/-- `filter(size_check, xs)`, render/scripts/profile.py 137-141. -/
def sizeCheck (xs : List (List ℚ)) : List (List ℚ) := xs.filter fun l => decide (5 < l.length)

/-- `AbstractProfile.__init__` without slopes given, render/scripts/profile.py 119-147. Segments whose arrays differ in length
raise (line 132). -/
def abstractProfile (lg : ℚ → ℚ) (groups : List (List ℚ × List ℚ)) : Option Prof :=
  if groups.any (fun g => decide (g.1.length ≠ g.2.length)) then none
  else
    let valid := groups.map fun g => (g.1.zip g.2).filter fun p => decide (0 < p.2)
    let rs := sizeCheck (groups.map Prod.fst)
    let lrs := sizeCheck (valid.map fun l => l.map fun p => lg p.1)
    let rhos := sizeCheck (groups.map Prod.snd)
    let lrhos := sizeCheck (valid.map fun l => l.map fun p => lg p.2)
    do
      let ld ← (List.range rs.length).mapM fun i => do
        let x ← lrs[i]?
        let y ← lrhos[i]?
        vectorDeriv x y 4
      some ⟨rs, rhos, lrs, lrhos, ld⟩

/-- `rhos[rhos <= 0] = np.nan` for one entry, render/scripts/profile.py 269. -/
def nanIfNotPos : F → F
  | some ρ => if ρ ≤ 0 then none else some ρ
  | none => none

/-- `(lr_edges[1:] + lr_edges[:-1])/2`, render/scripts/profile.py 278. -/
def centres (E : List ℚ) : List ℚ := List.zipWith (fun a b => (a + b) / 2) E.tail E.dropLast

/-- The logarithms of a segment and their conversion, render/scripts/profile.py 272-276. A NaN in a segment, which
`nan_split` leaves out, is an exception here. -/
def rawSegment (lg : ℚ → ℚ) (edges : List ℚ) (spline : List ℚ → List ℚ → ℚ → ℚ → ℚ) (g : List F × List F) :
    Option (Option (List ℚ × List ℚ)) := do
  let xs ← g.1.mapM id
  let ys ← g.2.mapM id
  convert true edges spline (xs.map lg) (ys.map lg)

/-- `RawProfile.__init__`, render/scripts/profile.py 267-280; `edges` are the edges of `conv`. -/
def rawProfile (lg pw : ℚ → ℚ) (edges : List ℚ) (spline : List ℚ → List ℚ → ℚ → ℚ → ℚ) (rs rhos : List F) :
    Option Prof := do
  let r0 ← rs[0]?
  let rs' := if r0 = some 0 then rs.drop 1 else rs
  let rhos' := (if r0 = some 0 then rhos.drop 1 else rhos).map nanIfNotPos
  let gs ← nanSplit rs' rhos'
  let conv ← gs.mapM (rawSegment lg edges spline)
  abstractProfile lg ((conv.filterMap id).map fun c => ((centres c.1).map pw, c.2.map pw))

end Verif.Py
