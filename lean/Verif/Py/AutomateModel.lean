import Verif.Halo.RadiusModel
import Verif.Main.OutputModel

/-!
# Model of `render/scripts/automate.py` and of the file names of the programs it joins

Paths are joined with `/`, as `path.join` and `path.Join` do for a directory without trailing slash or dots. `int(s)` of a
string is a parameter. Making directories and running commands is left out; the commands after line 98 stand in a string
literal and are not run.
-/

set_option autoImplicit false

namespace Verif.Py

open Verif.Halo

/-- `path.join` and `path.Join` of a directory and a name, render/scripts/automate.py 71 and render/scripts/read_halo.go 212. -/
def join (dir f : List Char) : List Char := dir ++ '/' :: f

/-- `%d`, render/scripts/automate.py 53 and render/scripts/read_halo.go 176. -/
def dec (k : ℤ) : List Char := (if k < 0 then ['-'] else []) ++ Nat.toDigits 10 k.natAbs

/-- `halo_str`, render/scripts/automate.py 53, and `name`, render/scripts/read_halo.go 176. -/
def haloName (ih : ℤ) : List Char := dec ih ++ ['h']

/-- The names of the four files of a halo: job, configuration, ball and subhalos. `genScripts`,
render/scripts/read_halo.go 212-215. -/
def scriptFiles (dir name rs : List Char) : List (List Char) :=
  [join dir (name ++ "_shell.sh".toList), join dir (name ++ "_render.txt".toList), join dir (name ++ "_ball.txt".toList),
    join dir (name ++ '_' :: rs ++ "_sh.txt".toList)]

/-- The files created by the halo program, in order, render/scripts/read_halo.go 167-183 and 237-240. -/
def writtenFiles (dir rs : List Char) (idxs : List ℤ) : List (List Char) :=
  idxs.flatMap fun ih => scriptFiles dir (haloName ih) rs

/-- The files created by the profile program, render/scripts/profile.go 62-65. -/
def profileFiles (pre : List Char) : List (List Char) :=
  [pre ++ "_lines.txt".toList, pre ++ "_x_lines.txt".toList, pre ++ "_y_lines.txt".toList, pre ++ "_z_lines.txt".toList]

/-- The names worked out by the script, render/scripts/automate.py 71-84, and the radius given to the halo program,
render/scripts/automate.py 94-98. -/
structure Names where
  gtetFile : List Char
  shFile : List Char
  outPrefix : List Char
  lines : List (List Char)
  caustics : List (List Char)
  rDef : String

/-- How the script ends: message and exit, exception, or the names. -/
inductive Outcome where
  | usage
  | typeError
  | ok (n : Names)

/-- `r_defs`, render/scripts/automate.py 11. -/
def rDefs : List String := ["vir", "200c", "500c", "200m"]

/-- `is_even`, render/scripts/automate.py 26-27. -/
def isEven (n : ℤ) : Bool := n.fdiv 2 * 2 == n

/-- `opt_str`, render/scripts/automate.py 52. -/
def optStr (rDef : String) (filterSize : ℤ) : List Char := 'R' :: rDef.toList ++ "_F".toList ++ dec filterSize

/-- render/scripts/automate.py 52-54 and 71-84. -/
def names (gtetDir : List Char) (ih : ℤ) (rDef : String) (filterSize : ℤ) : Names :=
  let haloStr := haloName ih
  let outDir := join (join "output".toList (optStr rDef filterSize)) haloStr
  { gtetFile := join gtetDir (dec ih ++ "h.gtet".toList)
    shFile := join gtetDir (dec ih ++ "h_R".toList ++ rDef.toList ++ "_sh.txt".toList)
    outPrefix := join outDir haloStr
    lines := [join outDir (haloStr ++ "_lines.txt".toList), join outDir (haloStr ++ "_x_lines.txt".toList),
      join outDir (haloStr ++ "_y_lines.txt".toList), join outDir (haloStr ++ "_z_lines.txt".toList)]
    caustics := [join outDir (dec ih ++ "_caustic.txt".toList), join outDir (haloStr ++ "_x_caustic.txt".toList),
      join outDir (haloStr ++ "_y_caustic.txt".toList), join outDir (haloStr ++ "_z_caustic.txt".toList)]
    rDef := rDef }

/-- `automate.py`, render/scripts/automate.py 22-98; `pyInt` is `int`, with `none` for `ValueError`. -/
def automate (pyInt : String → Option ℤ) (gtetDir : List Char) (argv : List String) : Outcome :=
  match argv with
  | [_, a1, a2, a3] =>
    match (if a1 = "None" then some none else (pyInt a1).map some), pyInt a3 with
    | some haloId, some filterSize =>
      if !rDefs.contains a2 then .usage
      else if !(decide (filterSize > 0) && !isEven filterSize) then .usage
      else
        match haloId with
        | none => .typeError
        | some ih => .ok (names gtetDir ih a2 filterSize)
    | _, _ => .usage
  | _ => .usage

end Verif.Py
