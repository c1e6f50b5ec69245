import Mathlib.Data.Rat.Floor

/-!
# Model of `render/scripts/select_random.py`

Masses are rational numbers. `none` is an exception. Left out: lines 41 and 42, which print a number and stop the program with
`assert 0`; the texts of the files are values of a function.
-/

set_option autoImplicit false

namespace Verif.Py

/-- `lims`, render/scripts/select_random.py 73. -/
def massLims : List ℚ := [1500000000000, 800000000000]

/-- `is_lim`, render/scripts/select_random.py 74-77. -/
def isLim (prev curr : ℚ) : Bool := massLims.any fun lim => decide (prev ≥ lim) && decide (lim > curr)

/-- The loop over the rows after the first one, render/scripts/select_random.py 80-87: `i` is the number of the next row. -/
def limIdxs : ℚ → ℕ → List ℚ → List ℕ
  | _, _, [] => []
  | prev, i, curr :: ms => (if isLim prev curr then [i] else []) ++ limIdxs curr (i + 1) ms

/-- `idxs`, render/scripts/select_random.py 79-87. -/
def selectIdxs : List ℚ → List ℕ
  | [] => []
  | m :: ms => limIdxs m 1 ms

/-- `rows12`, render/scripts/select_random.py 89. -/
def selectRows {α : Type} (mass : α → ℚ) (rows : List α) : Option (List α) := do
  let a ← (selectIdxs (rows.map mass))[0]?
  let b ← (selectIdxs (rows.map mass))[1]?
  some ((rows.take (b + 1)).drop a)

/-- `particles`, render/scripts/select_random.py 38-39. -/
def renderParticles (L l pixels : ℚ) : ℚ := max (500 * (L / (3 * l)) ^ 3 * (pixels / 500) ^ 3) 20

/-- The argument of `%d` in the text of the rendering, render/scripts/select_random.py 31 and 56: truncated. -/
def particlesWritten (L l pixels : ℚ) : ℤ := ⌊renderParticles L l pixels⌋

/-- `path.join(script_dir, ...)`, render/scripts/select_random.py 49-51, for a directory that does not end in a slash. -/
def scriptPath (dir name suffix : List Char) : List Char := dir ++ '/' :: (name ++ suffix)

/-- Files by name. -/
abbrev Disk := List Char → Option (List Char)

/-- `open(name, "w+")` and `write`, render/scripts/select_random.py 59-61. -/
def Disk.write (d : Disk) (f text : List Char) : Disk := fun g => if g = f then some text else d g

/-- `gen_scripts`, render/scripts/select_random.py 45-61: the texts of the three files are given. -/
def genScripts (dir name : List Char) (shell render ball : List Char) (d : Disk) : Disk :=
  ((d.write (scriptPath dir name "_shell.sh".toList) shell).write (scriptPath dir name "_render.txt".toList) render).write
    (scriptPath dir name "_halo.txt".toList) ball

/-- The last loop, render/scripts/select_random.py 92-94: `name` is `"m_%g"` of the mass. -/
def genAll {α : Type} (dir : List Char) (name shell render ball : α → List Char) (rows : List α) (d : Disk) : Disk :=
  rows.foldl (fun d r => genScripts dir (name r) (shell r) (render r) (ball r) d) d

end Verif.Py
