import Verif.Py.TableModel

/-!
# Model of the colours of profiles in plots and in the file of caustics

`render/scripts/plot_filament_remover.py`. A plot is the list of what is drawn: index of the profile, index of the segment, the
splashback radius marked with a line, if there is one, and the colour of both.
-/

set_option autoImplicit false

namespace Verif.Py.Colors

open Verif.Py

/-- `cs`, render/scripts/plot_filament_remover.py 18-22. -/
def cs : List (List Char) :=
  ["Red".toList, "Blue".toList, "Chartreuse".toList, "Cyan".toList, "DarkOrange".toList, "Magenta".toList, "Black".toList,
    "BlueViolet".toList, "DarkGoldenRod".toList, "DarkRed".toList]

/-- `color`, render/scripts/plot_filament_remover.py 24. -/
def color (i : Nat) : List Char := if i < cs.length then cs.getD i [] else "w".toList

/-- `contains_caustic`, render/scripts/profile.py 208-211. -/
def hasCaustic {V : Type} (p : SmProf V) : Bool := p.rsp.any Option.isSome

/-- What is drawn for a segment: profile, segment, radius marked by a line, colour. render/scripts/plot_filament_remover.py
74-76 and 97-99. -/
abbrev Mark (V : Type) := Nat × Nat × Option V × List Char

/-- The loop over the segments, render/scripts/plot_filament_remover.py 73-76 and 96-99. -/
def drawProf {V : Type} (i : Nat) (c : List Char) (p : SmProf V) : List (Mark V) :=
  p.rsp.zipIdx.map fun e => (i, e.2, e.1, c)

/-- `plot_profiles`, render/scripts/plot_filament_remover.py 70-76. -/
def plotProfiles {V : Type} (profs : List (SmProf V)) : List (Mark V) :=
  (profs.take cs.length).zipIdx.flatMap fun e => drawProf e.2 (color e.2) e.1

/-- The loop of `plot_valid_profiles`, render/scripts/plot_filament_remover.py 91-102, with the profiles from index `i` on. -/
def validLoop {V : Type} (idx i : Nat) : List (SmProf V) → List (Mark V)
  | [] => []
  | p :: ps =>
    if idx < cs.length then
      if hasCaustic p then drawProf i (color idx) p ++ validLoop (idx + 1) (i + 1) ps
      else validLoop idx (i + 1) ps
    else []

/-- `plot_valid_profiles`, render/scripts/plot_filament_remover.py 88-102. -/
def plotValid {V : Type} (profs : List (SmProf V)) : List (Mark V) := validLoop 0 0 profs

end Verif.Py.Colors
