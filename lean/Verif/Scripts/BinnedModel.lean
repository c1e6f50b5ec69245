import Verif.Go.Loops
import Mathlib.Analysis.SpecialFunctions.Pow.Real

/-!
# Model of `binnedMean`, `radii` and `randomUnit` of `render/scripts/profile.go`

`float64` values are exact rationals; NaN is `none` where it can be. `math.Log` and `math.Exp` are parameters; logarithms of
numbers that are not positive are left out. A conversion of NaN or infinity to `int` is taken to give an index that is out of
range, as on amd64. `none` as a result is a panic.
-/

set_option autoImplicit false

namespace Verif.Scripts

open Verif.Go

/-- `binnedMeanOptions`, render/scripts/profile.go 279-283. -/
structure BinOpt where
  valid : Option (List Bool)
  lowLim : Option ℚ
  highLim : Option ℚ
  useLog : Bool

/-- `opt.valid != nil && !opt.valid[i]`, render/scripts/profile.go 300, 311 and 328. -/
def BinOpt.skip (opt : BinOpt) (i : Int) : Option Bool :=
  match opt.valid with
  | none => some false
  | some v => (rd v i).map fun b => !b

/-- One turn of the loops for the limits, render/scripts/profile.go 299-303 and 310-314; `better x m` is the comparison. -/
def limitTurn (opt : BinOpt) (better : ℚ → ℚ → Bool) (xs : List ℚ) (ys : List (Option ℚ)) (i : Int) (m : ℚ) : Option ℚ := do
  let x ← rd xs i
  let s ← opt.skip i
  if s then some m
  else do
    let y ← rd ys i
    match y with
    | none => some m
    | some _ => some (if better x m then x else m)

/-- The loops for the limits, render/scripts/profile.go 299-303 and 310-314. -/
def limitLoop (opt : BinOpt) (better : ℚ → ℚ → Bool) (xs : List ℚ) (ys : List (Option ℚ)) (start : ℚ) : Option ℚ :=
  forRange 0 xs.length (limitTurn opt better xs ys) start

/-- The limits, render/scripts/profile.go 296-317; `big` is `math.MaxFloat64` and `tiny` is `math.SmallestNonzeroFloat64`.
The second limit is looked at if the first is not NaN, and may then be NaN. -/
def binLimits (opt : BinOpt) (big tiny : ℚ) (xs : List ℚ) (ys : List (Option ℚ)) : Option (ℚ × Option ℚ) :=
  match opt.lowLim with
  | none => do
    let lo ← limitLoop opt (fun x m => decide (x < m)) xs ys big
    let hi ← limitLoop opt (fun x m => decide (x > m)) xs ys tiny
    some (lo, some hi)
  | some lo => some (lo, opt.highLim)

/-- One turn of the loop over the points after the logarithm, render/scripts/profile.go 330-347. The counts of NaN are never
read; only the check of their index is kept. -/
def binPoint (n : Nat) (lo : ℚ) (hi : Option ℚ) (v : ℚ) (y : Option ℚ) (st : List ℤ × List ℚ) : Option (List ℤ × List ℚ) :=
  if v < lo ∨ (∃ h ∈ hi, v > h) then some st
  else do
    let h ← hi
    let w := (h - lo) / n
    if w = 0 then none
    else do
      let idx := trunc ((v - lo) / w)
      let idx := if idx = n then idx - 1 else idx
      let c ← rd st.1 idx
      match y with
      | none => some st
      | some y => do
        let counts ← wr st.1 idx (c + 1)
        let m ← rd st.2 idx
        let means ← wr st.2 idx (m + y)
        some (counts, means)

/-- The loop over the points, render/scripts/profile.go 326-347. Here `ys[i]` is read before the limits are looked at. -/
def binLoop (opt : BinOpt) (lg : ℚ → ℚ) (n : Nat) (lo : ℚ) (hi : Option ℚ) (xs : List ℚ) (ys : List (Option ℚ)) :
    Option (List ℤ × List ℚ) :=
  forRange 0 xs.length (fun i st => do
    let s ← opt.skip i
    if s then some st
    else do
      let x ← rd xs i
      let y ← rd ys i
      binPoint n lo hi (if opt.useLog then lg x else x) y st) (List.replicate n 0, List.replicate n 0)

/-- One turn of the last loop, render/scripts/profile.go 353-360, for the state `(vals, means, shiftIdx)`. -/
def shiftTurn (opt : BinOpt) (ex : ℚ → ℚ) (lo w : ℚ) (counts : List ℤ) (idx : Int) (st : List ℚ × List ℚ × Int) :
    Option (List ℚ × List ℚ × Int) := do
  let c ← rd counts idx
  if c = 0 then some st
  else do
    let m ← rd st.2.1 idx
    let means ← wr st.2.1 st.2.2 (m / c)
    let v := ((idx : ℚ) + 1 / 2) * w + lo
    let vals ← wr st.1 st.2.2 (if opt.useLog then ex v else v)
    some (vals, means, st.2.2 + 1)

/-- `binnedMean`, render/scripts/profile.go 292-363. A width of NaN is 0 in the last loop, where it is not used then. The
variable `sum` is never read. -/
def binnedMean (lg ex : ℚ → ℚ) (big tiny : ℚ) (xs : List ℚ) (ys : List (Option ℚ)) (n : Nat) (opt : BinOpt) :
    Option (List ℚ × List ℚ) := do
  let (lo, hi) ← binLimits opt big tiny xs ys
  let lo := if opt.useLog then lg lo else lo
  let hi := if opt.useLog then hi.map lg else hi
  let (counts, means) ← binLoop opt lg n lo hi xs ys
  let w := ((hi.map fun h => (h - lo) / n).getD 0)
  let (vals, means, k) ← forRange 0 n (shiftTurn opt ex lo w counts) (List.replicate n 0, means, 0)
  some (vals.take k.toNat, means.take k.toNat)

/-- The squared radius written for the cell `(x, y, z)`, render/scripts/profile.go 231-247. -/
def radii2 (sx sy sz : ℤ) (cw : ℚ) (x y z : ℤ) : ℚ :=
  let dx := x * cw - (sx - 1 / 2) * cw / 2
  let dy := y * cw - (sy - 1 / 2) * cw / 2
  let dz := z * cw - (sz - 1 / 2) * cw / 2
  dx * dx + dy * dy + dz * dz

/-- `radii`, render/scripts/profile.go 227-254, without the root. -/
def radiiSq (sx sy sz : ℤ) (cw : ℚ) : Option (List ℚ) := do
  let (rs, _) ← forRange 0 sz (fun z st => forRange 0 sy (fun y st => forRange 0 sx (fun x (st : List ℚ × Int) => do
      let rs ← wr st.1 st.2 (radii2 sx sy sz cw x y z)
      some (rs, st.2 + 1)) st) st) (List.replicate (sx * sy * sz).toNat 0, 0)
  some rs

/-- `randomUnit`, render/scripts/profile.go 127-145, for three draws already doubled and shifted. A point at the origin gives
NaN; here it gives 0. -/
noncomputable def randomUnit (axis : ℤ) (x y z : ℝ) : ℝ × ℝ × ℝ :=
  let x := if axis = 0 then 0 else x
  let y := if axis = 1 then 0 else y
  let z := if axis = 2 then 0 else z
  let norm := Real.sqrt (x * x + y * y + z * z)
  (x / norm, y / norm, z / norm)

end Verif.Scripts
