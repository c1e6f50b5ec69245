import Verif.Scripts.ProfileModel

/-!
# Text written by `profile.go` and by the plotting scripts, and its readers

A text is a list of characters. The text of a number is a parameter `tok`, its parser a parameter `parse`.
-/

set_option autoImplicit false

namespace Verif.Py

open Verif.Go

/-- `s.split(c)` of Python for a single character `c`; render/scripts/mcarlo.py 160, 166. -/
def splitOn (c : Char) : List Char → List (List Char)
  | [] => [[]]
  | x :: s =>
    match splitOn c s with
    | [] => [[]]
    | w :: ws => if x = c then [] :: w :: ws else (x :: w) :: ws

/-- `[t for t in row.split(" ") if t != ""]`, render/scripts/mcarlo.py 160; the same is done by `np.loadtxt` for the texts
here, which have no other white space within a line. -/
def words (s : List Char) : List (List Char) := (splitOn ' ' s).filter (· ≠ [])

/-- Padding of `%9.4g` and `%12.4g` on the left, render/scripts/profile.go 106 and 121, render/scripts/profile.py 257. -/
def pad (w : Nat) (t : List Char) : List Char := List.replicate (w - t.length) ' ' ++ t

/-- `fmt.Fprintf(f, "%9.4g %9.4g ", a, b)` for each pair, and the end of the line; render/scripts/profile.go 103-125. -/
def rowText {V : Type} (tok : V → List Char) (row : List (V × V)) : List Char :=
  row.flatMap (fun p => pad 9 (tok p.1) ++ ' ' :: pad 9 (tok p.2) ++ [' ']) ++ ['\n']

/-- `printData`, render/scripts/profile.go 72-79, with `printVecs` (103-110) and `printProfiles` (112-125). -/
def printData {V : Type} (tok : V → List Char) (nan : V) (vecs : List (Fin 3 → V)) (profs : List (List V × List V)) :
    Option (List Char) := do
  let rows ← Scripts.printProfiles profs
  some ("# The first three rows are unit vector components.\n".toList ++
    [0, 1, 2].flatMap (fun d => rowText tok (vecs.map fun v => (v d, nan))) ++
    "# The rest are individual profiles.\n".toList ++ rows.flatMap (rowText tok))

/-- `np.loadtxt`, used in render/scripts/plot_filament_remover.py 37: lines up to a `#`, split at white space, empty lines
left out, every line of the same length; `none` is an exception. That a table of one row or one column comes back as a
vector is left out. -/
def loadtxt {Q : Type} (parse : List Char → Option Q) (text : List Char) : Option (List (List Q)) := do
  let lines := ((splitOn '\n' text).map fun l => words (l.takeWhile (· ≠ '#'))).filter (· ≠ [])
  let rows ← lines.mapM fun ws => ws.mapM parse
  if rows.all (fun r => r.length = (rows.headD []).length) then some rows else none

/-- `xs[idxs]` for `idxs = np.arange(len(xs) // 2) * 2 + k`, render/scripts/plot_filament_remover.py 39-45. -/
def everySecond {Q : Type} [Inhabited Q] (k : Nat) (xs : List Q) : List Q :=
  (List.range (xs.length / 2)).map fun i => xs.getD (2 * i + k) default

/-- What `read_profiles` returns. -/
structure Profiles (Q : Type) where
  xs : List Q
  ys : List Q
  zs : List Q
  rs : List (List Q)
  rhos : List (List Q)

/-- `read_profiles`, render/scripts/plot_filament_remover.py 36-48. `none` is an exception; `map` over no rows is one. -/
def readProfiles {Q : Type} [Inhabited Q] (parse : List Char → Option Q) (text : List Char) : Option (Profiles Q) := do
  let rows ← loadtxt parse text
  let vx ← rows[0]?
  let vy ← rows[1]?
  let vz ← rows[2]?
  let data := rows.drop 3
  let first ← data[0]?
  let cols := (List.range first.length).map fun j => data.map fun r => r.getD j default
  let rs := everySecond 0 cols
  let rhos := everySecond 1 cols
  let n := rs.length
  some ⟨(everySecond 0 vx).take n, (everySecond 0 vy).take n, (everySecond 0 vz).take n, rs.take n, rhos.take n⟩

/-- `string`, render/scripts/profile.py 250-257, for a segment with a splashback radius. -/
def causticLine {V : Type} (tok : V → List Char) (x y z r : V) (c : List Char) : List Char :=
  pad 12 (tok x) ++ ' ' :: (pad 12 (tok y) ++ ' ' :: (pad 12 (tok z) ++ ' ' :: (pad 12 (tok r) ++ ' ' :: pad 15 c)))

/-- A smoothed profile as `write_caustic` sees it: the unit vector and the splashback radius of each segment. -/
structure SmProf (V : Type) where
  unit : V × V × V
  rsp : List (Option V)

/-- `write_caustic`, render/scripts/plot_filament_remover.py 50-58: the text of the file. `color` names the colours; the
counter goes up with every profile that has a caustic (lines 56, render/scripts/profile.py 208-211). -/
def writeCaustic {V : Type} (tok : V → List Char) (color : Nat → List Char) (profs : List (SmProf V)) : List Char :=
  let lines := (profs.foldl (fun (s : List (List Char) × Nat) p =>
    (s.1 ++ p.rsp.filterMap fun r => r.map fun r => causticLine tok p.unit.1 p.unit.2.1 p.unit.2.2 r (color s.2),
      if p.rsp.any Option.isSome then s.2 + 1 else s.2)) ([], 0)).1
  ['\n'].intercalate lines

/-- `read_row`, render/scripts/mcarlo.py 159-161. -/
def readRow {Q : Type} (parse : List Char → Option Q) (row : List Char) : Option (Q × Q × Q × Q) := do
  let ts := words row
  let t0 ← ts[0]?
  let t1 ← ts[1]?
  let t2 ← ts[2]?
  let t3 ← ts[3]?
  some (← parse t0, ← parse t1, ← parse t2, ← parse t3)

/-- `read_pts`, render/scripts/mcarlo.py 163-175 and render/scripts/2d_kde.py 203-215. `none` is an exception, also the
`assert 0`. -/
def readPts (parse : List Char → Option ℚ) (text : List Char) : Option (List (ℚ × ℚ)) := do
  let rows ← (splitOn '\n' text).mapM (readRow parse)
  if rows.all (fun p => p.1 = 0) then some (rows.map fun p => (p.2.1 * p.2.2.2, p.2.2.1 * p.2.2.2))
  else if rows.all (fun p => p.2.1 = 0) then some (rows.map fun p => (p.1 * p.2.2.2, p.2.2.1 * p.2.2.2))
  else if rows.all (fun p => p.2.2.1 = 0) then some (rows.map fun p => (p.1 * p.2.2.2, p.2.1 * p.2.2.2))
  else none

end Verif.Py
