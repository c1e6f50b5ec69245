import Verif.Go.Loops
import Verif.Cosmo.Model

/-!
# Model of `render/halo/radius.go`

`float64` values are real numbers. `math.Pow` with exponent `1.0/3` is the real power with exponent 1/3.
-/

set_option autoImplicit false

namespace Verif.Halo

open Verif.Go Verif.Cosmo

/-- `render/halo/radius.go:11-18`: the values of type `Radius`; the five named ones are 0 to 4. -/
abbrev Radius := ℤ

/-- `render/halo/radius.go:13` (`RVirial`). -/
def rVirial : Radius := 0
/-- `render/halo/radius.go:14` (`R200c`). -/
def r200c : Radius := 1
/-- `render/halo/radius.go:15` (`R200m`). -/
def r200m : Radius := 2
/-- `render/halo/radius.go:16` (`R500c`). -/
def r500c : Radius := 3
/-- `render/halo/radius.go:17` (`R2500c`). -/
def r2500c : Radius := 4

/-- `render/halo/radius.go:20-35` (`RadiusFromString`). `lower` is what `strings.ToLower` does to a character. -/
def radiusFromString (lower : Char → Char) (s : String) : Radius × Bool :=
  let t := String.ofList (s.toList.map lower)
  if t = "200m" ∨ t = "r200m" then (r200m, true)
  else if t = "vir" ∨ t = "rvir" then (rVirial, true)
  else if t = "200c" ∨ t = "r200c" then (r200c, true)
  else if t = "500c" ∨ t = "r500c" then (r500c, true)
  else if t = "2500c" ∨ t = "r2500c" then (r2500c, true)
  else (rVirial, false)

/-- `render/halo/radius.go:37-51` (`String`). -/
def radiusString (r : Radius) : Option String :=
  if r = r200m then some "R200m"
  else if r = r200c then some "R200c"
  else if r = r500c then some "R500c"
  else if r = r2500c then some "R2500c"
  else if r = rVirial then some "RVir"
  else none

/-- `render/io/io.go:69-74` (`CosmologyHeader`). -/
structure CosmologyHeader where
  z : ℝ
  omegaM : ℝ
  omegaL : ℝ
  h100 : ℝ

/-- The switch of `render/halo/radius.go:57-68` and `82-93`; for other values `rho` stays 0. -/
noncomputable def rhoOf (r : Radius) (c : CosmologyHeader) : ℝ :=
  let h0 := c.h100 * 100
  if r = rVirial then 177653 / 1000 * rhoCritical h0 c.omegaM c.omegaL c.z
  else if r = r200c then 200 * rhoCritical h0 c.omegaM c.omegaL c.z
  else if r = r200m then 200 * rhoAverage h0 c.omegaM c.omegaL c.z
  else if r = r500c then 500 * rhoCritical h0 c.omegaM c.omegaL c.z
  else if r = r2500c then 2500 * rhoCritical h0 c.omegaM c.omegaL c.z
  else 0

/-- `render/halo/radius.go:53-76` (`Radius`), with separate slices: the contents of `out` afterwards. -/
noncomputable def radiusInto (r : Radius) (c : CosmologyHeader) (ms out : List ℝ) : Option (List ℝ) :=
  let a := 1 / (1 + c.z)
  let factor := rhoOf r c * 4 * Real.pi / 3
  forRange 0 ms.length (fun i out => do
    let m ← rd ms i
    wr out i ((m / factor) ^ ((1 : ℝ) / 3) / a)) out

/-- The same when `ms` and `out` are one slice, as in `render/halo/io.go:248-252`. -/
noncomputable def radiusInPlace (r : Radius) (c : CosmologyHeader) (ms : List ℝ) : Option (List ℝ) :=
  let a := 1 / (1 + c.z)
  let factor := rhoOf r c * 4 * Real.pi / 3
  forRange 0 ms.length (fun i out => do
    let m ← rd out i
    wr out i ((m / factor) ^ ((1 : ℝ) / 3) / a)) ms

/-- `render/halo/radius.go:78-101` (`Mass`). -/
noncomputable def massInto (r : Radius) (c : CosmologyHeader) (rs out : List ℝ) : Option (List ℝ) :=
  let a := 1 / (1 + c.z)
  let factor := rhoOf r c * 4 * Real.pi / 3
  forRange 0 rs.length (fun i out => do
    let x ← rd rs i
    let x := x * a
    wr out i (factor * (x * x * x))) out

/-- `render/halo/radius.go:104-118` (`RockstarColumn`). -/
def rockstarColumn (r : Radius) : Option ℤ :=
  if r = rVirial then some 11
  else if r = r200c then some 37
  else if r = r200m then some 36
  else if r = r500c then some 38
  else if r = r2500c then some 39
  else none

/-- `render/halo/radius.go:120-128` (`RockstarMass`). -/
def rockstarMass (r : Radius) : Option Bool :=
  if r = rVirial then some false
  else if r = r200c ∨ r = r200m ∨ r = r500c ∨ r = r2500c then some true
  else none

/-- `render/halo/io.go:62-131`: the names of the columns of a catalogue, in order. -/
def valNames : List String :=
  ["Scale", "ID", "DescScale", "DescID", "NumProg", "PID", "UPID", "DescPID", "Phantom", "SAMMVir", "MVir", "RVir", "Rs",
   "Vrms", "MMP", "ScaleOfLastMMP", "VMax", "X", "Y", "Z", "Vx", "Vy", "Vz", "Jx", "Jy", "Jz", "Spin", "BreadthFirstID",
   "DepthFirstID", "TreeRootID", "OrigHaloID", "SnapNum", "NextCoprogenitorDepthFirstID", "LastProgenitorDepthFirstID",
   "RsKylpin", "MVirAll", "M200b", "M200c", "M500c", "M2500c", "XOff", "Voff", "SpinBullock", "BToA", "CToA", "Ax", "Ay",
   "Az", "BToA500c", "CToA500c", "Ax500c", "Ay500c", "Az500c", "TU", "MAcc", "MPeak", "VAcc", "VPeak", "HalfmassScale",
   "AccRateInst", "AccRate100Myr", "AccRateTdyn", "valNum", "RadVir", "Rad200b", "Rad200c", "Rad500c", "Rad2500c"]

end Verif.Halo
