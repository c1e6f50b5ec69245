import Verif.Py.SmoothModel

/-!
# Model of a `MultiSmoothedProfile` as a profile

`render/scripts/profile.py`. A segment is given by the splashback radius found with each window (`rsp w`). Numbers are printed
by a parameter. `none` is an exception.
-/

set_option autoImplicit false

namespace Verif.Py.MultiProf

open Verif.Py Verif.Go

/-- The fields of a `MultiSmoothedProfile`, render/scripts/profile.py 328-337. A smoothed profile of one segment is its window
and its radius. -/
structure Multi where
  unit : ℚ × ℚ × ℚ
  sgWindow : Nat
  profs : List (List (Nat × ℚ))
  valid : List (List (Nat × ℚ))
  deriving DecidableEq

/-- `__init__`, render/scripts/profile.py 327-337. -/
def mk (unit : ℚ × ℚ × ℚ) (sgWindow maxWindow : Nat) (segs : List (Nat → Option ℚ)) : Option Multi :=
  segs.foldlM (fun (m : Multi) rsp => do
    let r ← multiSmooth rsp sgWindow maxWindow
    some { m with profs := m.profs ++ [r.1], valid := if r.2 then m.valid ++ [r.1] else m.valid }) ⟨unit, sgWindow, [], []⟩

/-- `segments`, render/scripts/profile.py 363-364. -/
def segments (m : Multi) : Nat := m.valid.length

/-- `r_sp`, render/scripts/profile.py 366-367. -/
def rSp (m : Multi) (i : Int) : Option ℚ := do
  let p ← pyRd m.valid i
  multiRsp p m.sgWindow

/-- `string` of a smoothed profile with the one segment `p`, render/scripts/profile.py 250-257: `_r_sp_idxs[i]` is an
exception unless `i` is an index of one segment. The number of the colour is left as it is. -/
def oneString (unit : ℚ × ℚ × ℚ) (p : Nat × ℚ) (i : Int) (c : Nat) : Option (ℚ × ℚ × ℚ × ℚ × Nat) := do
  let q ← pyRd [p] i
  some (unit.1, unit.2.1, unit.2.2, q.2, c)

/-- `string`, render/scripts/profile.py 378-379. -/
def string (m : Multi) (i : Int) (c : Nat) : Option (ℚ × ℚ × ℚ × ℚ × Nat) := do
  let p ← pyRd m.valid i
  let q ← pyRd p (((m.sgWindow : Int) - 5) / 2)
  oneString m.unit q i c

/-- `contains_caustic`, render/scripts/profile.py 383: an exception unless there is one argument. -/
def containsCaustic (_m : Multi) (args : List Int) : Option Bool := if args.length = 1 then some true else none

/-- `full_segments`, render/scripts/profile.py 388. -/
def fullSegments (m : Multi) : Nat := m.profs.length

/-- `smoothed_full_profiles`, render/scripts/profile.py 390-392: windows and profiles. -/
def smoothedFull (m : Multi) (i : Int) : Option (List Nat × List (Nat × ℚ)) := do
  let p ← pyRd m.profs i
  some ((List.range p.length).map (fun k => k * 2 + 5), p)

/-- The loop of `write_caustic` over such profiles, render/scripts/plot_filament_remover.py 51-55: the lines and the counter. -/
def writeLoop : List Multi → List (ℚ × ℚ × ℚ × ℚ × Nat) → Nat → Option (List (ℚ × ℚ × ℚ × ℚ × Nat))
  | [], lines, _ => some lines
  | m :: ms, lines, idx => do
    let new ← (List.range (segments m)).mapM fun (i : Nat) => do
      let _ ← rSp m i
      string m i idx
    let c ← containsCaustic m []
    writeLoop ms (lines ++ new) (if c then idx + 1 else idx)

end Verif.Py.MultiProf
