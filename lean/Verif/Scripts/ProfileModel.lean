import Verif.Halo.Model
import Mathlib.Analysis.SpecialFunctions.Pow.Real

/-!
# Model of the profile program (`render/scripts/profile.go`)

`float64` values are exact rationals, roots are real numbers. Values of the grid may be NaN. A division by zero gives 0
instead of an infinity or NaN.
-/

set_option autoImplicit false

namespace Verif.Scripts

open Verif.Go Verif.Halo

/-- A value of the grid, a `float64` that may be NaN; render/scripts/profile.go 36 and 261. -/
inductive Fl
  | nan
  | num (q : ℚ)
deriving DecidableEq

/-- Addition of floats; used in render/scripts/profile.go 201-204. -/
def Fl.add : Fl → Fl → Fl
  | .num a, .num b => .num (a + b)
  | _, _ => .nan

/-- Product with a number that is not NaN; used in render/scripts/profile.go 201-204. -/
def Fl.scale (w : ℚ) : Fl → Fl
  | .num a => .num (a * w)
  | .nan => .nan

/-- `round`, render/scripts/profile.go 219-225. -/
def round (x : ℚ) : ℤ :=
  if |(⌊x⌋ : ℚ) - x| < 1 / 2 then trunc ⌊x⌋ else trunc ⌈x⌉

/-- `removeSubhalo`, render/scripts/profile.go 257-277. The counter `n` is never read and is left out. -/
def removeSubhalo (bh bsh : Bounds) (grid : List Fl) (width : ℤ) : Option (List Fl) :=
  forRange (bsh.origin 2) (bsh.origin 2 + bsh.span 2) (fun z grid =>
    if bh.inside z width 2 = false then some grid else
    forRange (bsh.origin 1) (bsh.origin 1 + bsh.span 1) (fun y grid =>
      if bh.inside y width 1 = false then some grid else
      forRange (bsh.origin 0) (bsh.origin 0 + bsh.span 0) (fun x grid =>
        if bh.inside x width 0 = false then some grid else
        wr grid (bh.convert z width 2 * bh.span 0 * bh.span 1 + bh.convert y width 1 * bh.span 0 +
          bh.convert x width 0) .nan) grid) grid) grid

/-- `Halo` without the index, which is never read; render/scripts/profile.go 17-21. -/
structure Sphere where
  pos : Fin 3 → ℚ
  r : ℚ

/-- The loop over the subhalos in `main`, render/scripts/profile.go 44-51. -/
def removeAll (bh : Bounds) (cw width : ℚ) (shs : List Sphere) (grid : List Fl) : Option (List Fl) :=
  shs.foldlM (fun grid sh => removeSubhalo bh (sphereBounds sh.pos sh.r cw width) grid (round (width / cw))) grid

/-- `gridMult`, render/scripts/profile.go 147-157. -/
def gridMult (b : Bounds) (axis : Fin 3) : ℤ :=
  match axis with
  | 0 => 1
  | 1 => b.span 0
  | 2 => b.span 0 * b.span 1

/-- The major axis, render/scripts/profile.go 164-166. -/
def majorAxis (u : Fin 3 → ℚ) : Fin 3 :=
  let a : Fin 3 := 0
  let a := if |u 1| > |u a| then 1 else a
  if |u 2| > |u a| then 2 else a

/-- The offset from the centre along the major axis, and along the two others, render/scripts/profile.go 187-189. -/
def lineOffset (u : Fin 3 → ℚ) (j : ℤ) : ℚ × ℚ × ℚ :=
  let a := majorAxis u
  let d : ℚ := if u a < 0 then -j else j
  (d, d * (u (a + 1) / u a), d * (u (a + 2) / u a))

/-- One turn of the loop up to the density, render/scripts/profile.go 187-204: `none` at the `break`. The result of a
turn that goes on may be a panic. -/
def linePoint (grid : List Fl) (b : Bounds) (u : Fin 3 → ℚ) (j : ℤ) : Option (Option Fl) :=
  let a := majorAxis u
  let (e0, e1, e2) := lineOffset u j
  let x0 := (b.span 0 : ℚ) / 2 + e0
  let x1 := (b.span 1 : ℚ) / 2 + e1
  let x2 := (b.span 2 : ℚ) / 2 + e2
  let i0 := trunc x0
  let i1 := trunc x1
  let i2 := trunc x2
  if i0 < 0 ∨ i1 < 0 ∨ i2 < 0 ∨ i0 + 1 ≥ b.span a ∨ i1 + 1 ≥ b.span (a + 1) ∨ i2 + 1 ≥ b.span (a + 2) then none
  else
    let d1 := x1 - i1
    let d2 := x2 - i2
    let t1 := 1 - d1
    let t2 := 1 - d2
    let m0 := gridMult b a
    let m1 := gridMult b (a + 1)
    let m2 := gridMult b (a + 2)
    some (do
      let g00 ← rd grid (i0 * m0 + i1 * m1 + i2 * m2)
      let g01 ← rd grid (i0 * m0 + i1 * m1 + (i2 + 1) * m2)
      let g10 ← rd grid (i0 * m0 + (i1 + 1) * m1 + i2 * m2)
      let g11 ← rd grid (i0 * m0 + (i1 + 1) * m1 + (i2 + 1) * m2)
      some ((((g00.scale t1).scale t2).add ((g01.scale t1).scale d2)).add ((g10.scale d1).scale t2) |>.add
        ((g11.scale d1).scale d2)))

/-- The loop, render/scripts/profile.go 182-214, from turn `j` on with `f` turns left. The first list holds the squared
distances from the centre, of which the root is taken at the end. `smoothStarted` is always false, so the test for NaN
has no effect. -/
def lineLoop (grid : List Fl) (b : Bounds) (u : Fin 3 → ℚ) : ℕ → ℤ → List ℚ × List Fl × ℤ → Option (List ℚ × List Fl × ℤ)
  | 0, _, s => some s
  | f + 1, j, s =>
    match linePoint grid b u j with
    | none => some s
    | some r => do
      let rho ← r
      let e := lineOffset u j
      let rhos ← wr s.2.1 j rho
      let sq ← wr s.1 j (e.1 * e.1 + e.2.1 * e.2.1 + e.2.2 * e.2.2)
      lineLoop grid b u f (j + 1) (sq, rhos, s.2.2 + 1)

/-- `extractLine`, render/scripts/profile.go 159-217, with squared distances in cells in place of distances. -/
def extractSquares (grid : List Fl) (b : Bounds) (u : Fin 3 → ℚ) : Option (List ℚ × List Fl) := do
  let len := Int.tdiv (b.span (majorAxis u)) 2
  if len < 0 then none else
  let s ← lineLoop grid b u len.toNat 0 (List.replicate len.toNat 0, List.replicate len.toNat (.num 0), 0)
  some (s.1.take s.2.2.toNat, s.2.1.take s.2.2.toNat)

/-- `extractLine`, render/scripts/profile.go 159-217. The third result of the code is always true. -/
noncomputable def extractLine (grid : List Fl) (b : Bounds) (u : Fin 3 → ℚ) (cw : ℝ) : Option (List ℝ × List Fl) := do
  let p ← extractSquares grid b u
  some (p.1.map fun (s : ℚ) => Real.sqrt (s : ℝ) * cw, p.2)

/-- The loop of `lineProfiles`, render/scripts/profile.go 81-100: `draw k` is the direction drawn in turn `k`. The loop
ends when `profCount` profiles are found; the number of attempts is the last result. `fuel` bounds the number of turns. -/
noncomputable def lineProfilesFrom (grid : List Fl) (b : Bounds) (cw : ℝ) (draw : ℕ → Fin 3 → ℚ) (profCount : ℕ) :
    ℕ → ℕ → List (List ℝ × List Fl) → Option (List (List ℝ × List Fl) × ℕ)
  | 0, _, _ => none
  | f + 1, k, acc =>
    if acc.length = profCount then some (acc, k)
    else do
      let p ← extractLine grid b (draw k) cw
      lineProfilesFrom grid b cw draw profCount f (k + 1) (acc ++ [p])

/-- `printProfiles`, render/scripts/profile.go 112-125: the rows of the table. -/
def printProfiles {α β : Type} (profs : List (List α × List β)) : Option (List (List (α × β))) := do
  let p0 ← rd profs 0
  let minLen := profs.foldl (fun m p => if m > p.1.length then p.1.length else m) p0.1.length
  forRange 0 minLen (fun col rows => do
    let row ← profs.foldlM (fun (row : List (α × β)) p => do
      let r ← rd p.1 col
      let rho ← rd p.2 col
      some (row ++ [(r, rho)])) []
    some (rows ++ [row])) []

/-- `lineProfiles` and `printProfiles` together: the table in the file, render/scripts/profile.go 58-79. -/
noncomputable def profileTable (grid : List Fl) (b : Bounds) (cw : ℝ) (draw : ℕ → Fin 3 → ℚ) (profCount fuel : ℕ) :
    Option (List (List (ℝ × Fl))) := do
  let p ← lineProfilesFrom grid b cw draw profCount fuel 0 []
  printProfiles p.1

end Verif.Scripts
