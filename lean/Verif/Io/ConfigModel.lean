import Verif.Go.Loops
import Mathlib.Data.Rat.Floor
import Mathlib.Data.Fin.VecNotation

/-!
# Model of the configuration checks of `render/io/config.go`, of `SheetHeader.CellBounds` and of the quantity names

`float64` values are exact rationals (so there are no NaNs and infinities). Strings are lists of characters. Reading the
configuration files themselves (package `gcfg`) is not modelled.
-/

set_option autoImplicit false

namespace Verif.Io

/-- `render/io/config.go:417-427` (`BoxConfig`). -/
structure BoxConfig where
  x : ℚ
  y : ℚ
  z : ℚ
  xWidth : ℚ
  yWidth : ℚ
  zWidth : ℚ
  projectionAxis : List Char
  name : List Char
deriving DecidableEq

/-- `strings.ToUpper`; only the ASCII letters are mapped here. No other rune has X, Y or Z as its upper case. Used in
render/io/config.go 462. -/
def toUpper (s : List Char) : List Char := s.map Char.toUpper

/-- `strings.ToLower`, likewise. Used in render/io/config.go 310. -/
def toLower (s : List Char) : List Char := s.map Char.toLower

/-- `strings.Trim(s, " ")`. Used in render/io/config.go 462. -/
def trim (s : List Char) : List Char :=
  ((s.dropWhile (· = ' ')).reverse.dropWhile (· = ' ')).reverse

/-- `render/io/config.go:429-477` (`BoxConfig.CheckInit`): the configuration afterwards and whether it was accepted. -/
def BoxConfig.checkInit (box : BoxConfig) (name : List Char) (totalWidth : ℚ) : BoxConfig × Bool :=
  if box.xWidth ≤ 0 then (box, false)
  else if box.yWidth ≤ 0 then (box, false)
  else if box.zWidth ≤ 0 then (box, false)
  else if box.x ≥ totalWidth ∨ box.x < 0 then (box, false)
  else if box.y ≥ totalWidth ∨ box.y < 0 then (box, false)
  else if box.z ≥ totalWidth ∨ box.z < 0 then (box, false)
  else
    let box := { box with projectionAxis := trim (toUpper box.projectionAxis) }
    if box.projectionAxis ≠ [] ∧ box.projectionAxis ≠ ['X'] ∧ box.projectionAxis ≠ ['Y'] ∧
        box.projectionAxis ≠ ['Z'] then (box, false)
    else ({ box with name := name }, true)

/-- `render/io/config.go:479` (`IsProjection`). -/
def BoxConfig.isProjection (box : BoxConfig) : Bool := decide (box.projectionAxis ≠ [])

/-- `render/io/config.go:342-349` (`BallConfig`). -/
structure BallConfig where
  x : ℚ
  y : ℚ
  z : ℚ
  radius : ℚ
  radiusMultiplier : ℚ
  name : List Char
deriving DecidableEq

/-- `render/io/config.go:351-386` (`BallConfig.CheckInit`). -/
def BallConfig.checkInit (ball : BallConfig) (name : List Char) (totalWidth : ℚ) : BallConfig × Bool :=
  if ball.radius = 0 then (ball, false)
  else if ball.x ≥ totalWidth ∨ ball.x < 0 then (ball, false)
  else if ball.y ≥ totalWidth ∨ ball.y < 0 then (ball, false)
  else if ball.z ≥ totalWidth ∨ ball.z < 0 then (ball, false)
  else
    let ball := { ball with name := name }
    if ball.radiusMultiplier = 0 then ({ ball with radiusMultiplier := 1 }, true)
    else if ball.radiusMultiplier < 0 then (ball, false)
    else (ball, true)

/-- One coordinate of `render/io/config.go:394-410`. -/
def ballCorner (c rad totalWidth : ℚ) : ℚ := if c > rad then c - rad else c - rad + totalWidth

/-- `render/io/config.go:388-415` (`BallConfig.Box`). -/
def BallConfig.box (ball : BallConfig) (totalWidth : ℚ) : BoxConfig :=
  let rad := ball.radius * ball.radiusMultiplier
  ⟨ballCorner ball.x rad totalWidth, ballCorner ball.y rad totalWidth, ballCorner ball.z rad totalWidth,
    2 * rad, 2 * rad, 2 * rad, [], ball.name⟩

/-- `render/io/config.go:324-326` (`RenderConfig.ValidSubsampleLength`). -/
def renderValidSubsampleLength (s : ℤ) : Bool := decide (s > 0)

/-- The loop of `render/io/config.go:580-584`; `s` is positive when it is entered. -/
def halve (s : ℕ) : Bool :=
  if s = 0 then false -- not reached
  else if s = 1 then true
  else if s % 2 = 1 then false
  else halve (s / 2)
termination_by s
decreasing_by omega

/-- `render/io/config.go:576-585` (`TetraHistConfig.ValidSubsampleLength`). -/
def histValidSubsampleLength (s : ℤ) : Bool := if s ≤ 0 then false else halve s.toNat

/-- `render/density/quantity.go:7-15`: number of quantities (`EndQuantity`). -/
def endQuantity : ℤ := 5

/-- `render/density/quantity.go:17-36` (`Quantity.String`). -/
def quantityString (q : ℤ) : Option String :=
  if q ≤ 0 ∨ q ≥ endQuantity then none
  else if q = 0 then some "Density"
  else if q = 1 then some "DensityGradient"
  else if q = 2 then some "Velocity"
  else if q = 3 then some "VelocityDivergence"
  else if q = 4 then some "VelocityCurl"
  else none

/-- `render/density/quantity.go:38-52` (`QuantityFromString`): `none` stands for `ok == false`. -/
def quantityFromString (s : String) : Option ℤ :=
  if s = "Density" then some 0
  else if s = "DensityGradient" then some 1
  else if s = "Velocity" then some 2
  else if s = "VelocityDivergence" then some 3
  else if s = "VelocityCurl" then some 4
  else none

/-- `render/io/config.go:307-315` (`RenderConfig.ValidQuantity`): the loop with an early return, from `q` on; `none` is a
panic. -/
def validQuantityFrom (lower : String → String) (s : String) : ℕ → ℤ → Option Bool
  | 0, _ => some false
  | n + 1, q => do
    let name ← quantityString q
    if lower name = lower s then some true else validQuantityFrom lower s n (q + 1)

/-- `render/io/config.go:307-315` (`RenderConfig.ValidQuantity`); `lower` is `strings.ToLower`. -/
def renderValidQuantity (lower : String → String) (s : String) : Option Bool :=
  validQuantityFrom lower s endQuantity.toNat 0

/-- `render/io/config.go:548-554` (`TetraHistConfig.ValidQuantity`). -/
def histValidQuantity (s : String) : Bool := decide (s = "Density")

/-- `render/density/quantity.go:54-62` (`RequiresVelocity`); `none` is the panic after the switch. -/
def requiresVelocity (q : ℤ) : Option Bool :=
  if q = 0 ∨ q = 1 then some false
  else if q = 2 ∨ q = 3 ∨ q = 4 then some true
  else none

/-- `render/io/io.go:390-406` (`SheetHeader.CellBounds`): origin and width. The sum `Origin + Width` is exact here; in the
source it is a `float32`. -/
def cellBounds (totalWidth : ℚ) (origin width : Fin 3 → ℚ) (cells : ℤ) : (Fin 3 → ℤ) × (Fin 3 → ℤ) :=
  let cellWidth := totalWidth / cells
  let o : Fin 3 → ℤ := fun j => ⌊origin j / cellWidth⌋
  (o, fun j => 1 + ⌊(origin j + width j) / cellWidth⌋ - o j)

end Verif.Io
