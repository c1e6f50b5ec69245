import Verif.Py.PennaModel

/-!
# Model of groups of profiles in a plane, and of the sum of density grids

`ProfileGroup2D` of `render/scripts/profile.py` and `render/scripts/add_densities.py`. Real numbers without rounding.
`none` is an exception.
-/

set_option autoImplicit false

namespace Verif.Py

/-- The fields of a `ProfileGroup2D`, render/scripts/profile.py 394-419. -/
structure Group2D where
  rs : List ℝ
  axis : Nat
  angles : List ℝ

/-- Entry `j` of a direction. -/
def comp (u : ℝ × ℝ × ℝ) (j : Nat) : ℝ := if j = 0 then u.1 else if j = 1 then u.2.1 else u.2.2

/-- `self._j0` and `self._j1`, render/scripts/profile.py 415-416. -/
def planeIdx (axis : Nat) : Nat × Nat := (if axis = 0 then 1 else 0, if axis = 2 then 1 else 2)

open Classical in
/-- `__init__`, render/scripts/profile.py 395-419. `segs` has the radius and the direction of each segment of each profile;
the radius is `none` if there is no splashback radius. Without any radius `comps[0]` raises. -/
noncomputable def group2D (segs : List (Option ℝ × (ℝ × ℝ × ℝ))) : Option Group2D :=
  let kept := segs.filterMap fun s => s.1.map fun r => (r, s.2)
  let axis : Option Nat :=
    if kept = [] then none
    else if ∀ p ∈ kept, p.2.1 = 0 then some 0
    else if ∀ p ∈ kept, p.2.2.1 = 0 then some 1
    else if ∀ p ∈ kept, p.2.2.2 = 0 then some 2
    else none
  axis.map fun a => ⟨kept.map Prod.fst, a,
    kept.map fun p => atan2 (comp p.2 (planeIdx a).2) (comp p.2 (planeIdx a).1)⟩

/-- `coords` for one entry, render/scripts/profile.py 457-465. -/
noncomputable def Group2D.coords (g : Group2D) (r angle : ℝ) : ℝ × ℝ × ℝ :=
  let x1 := r * Real.cos angle
  let x2 := r * Real.sin angle
  if g.axis = 0 then (0, x1, x2) else if g.axis = 1 then (x1, 0, x2) else (x1, x2, 0)

open Classical in
/-- The radii of bin `i` of `stats.binned_statistic(angles, rs, bins=bins, range=(0, 2 * np.pi))`, render/scripts/profile.py
426-429: bins are half open, the last one is closed, what is outside is left out. -/
noncomputable def Group2D.inBin (g : Group2D) (bins i : Nat) : List ℝ :=
  ((g.angles.zip g.rs).filter fun p => decide (2 * Real.pi * i / bins ≤ p.1 ∧
    (p.1 < 2 * Real.pi * (i + 1) / bins ∨ (i + 1 = bins ∧ p.1 = 2 * Real.pi)))).map Prod.snd

/-- The mean of a list, NaN (`none`) if it is empty. `statistic="mean"` of render/scripts/profile.py 427. -/
noncomputable def meanOf (l : List ℝ) : Option ℝ := if l.length = 0 then none else some (l.sum / l.length)

/-- `binned_mean`, render/scripts/profile.py 425-430: centre and mean of bin `i`. -/
noncomputable def Group2D.binnedMean (g : Group2D) (bins i : Nat) : ℝ × Option ℝ :=
  ((2 * Real.pi * (i + 1) / bins + 2 * Real.pi * i / bins) / 2, meanOf (g.inBin bins i))

/-- `binned_std`, render/scripts/profile.py 432-441: `sqr` is the mean of the radii once more. NaN is `none`. -/
noncomputable def Group2D.binnedStd (g : Group2D) (bins i : Nat) : Option ℝ :=
  (meanOf (g.inBin bins i)).bind fun mean =>
    (meanOf (g.inBin bins i)).bind fun sqr =>
      if sqr - mean * mean < 0 then none else some (Real.sqrt (sqr - mean * mean))

/-- `grid += np.fromfile(fname)`, render/scripts/add_densities.py 10: NumPy adds arrays of one length, or a single number to
every entry; anything else raises. -/
def addInto (grid vals : List ℚ) : Option (List ℚ) :=
  if vals.length = grid.length then some (List.zipWith (· + ·) grid vals)
  else if vals.length = 1 then some (grid.map (· + vals.getD 0 0))
  else none

/-- `render/scripts/add_densities.py` 4-12: the contents of the output file. -/
def addDensities (width : Nat) (inputs : List (List ℚ)) : Option (List ℚ) :=
  inputs.foldlM addInto (List.replicate (width * width * width) 0)

end Verif.Py
