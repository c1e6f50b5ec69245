import Verif.Py.ThetaModel

/-!
# Model of the tree of density peaks

`KDETree` and `argmaxes` of `render/scripts/2d_kde.py`. The densities and the splines of SciPy are parameters.
-/

set_option autoImplicit false

namespace Verif.Py

open Verif.Go

/-- `argmaxes`, render/scripts/2d_kde.py 32-34: the positions of entries larger than both neighbours. -/
def argmaxes (xs : List ℚ) : List Nat :=
  (List.range' 1 (xs.length - 2)).filter fun i =>
    decide (xs.getD (i + 1) 0 < xs.getD i 0) && decide (xs.getD (i - 1) 0 < xs.getD i 0)

/-- `node_maxes[np.argmin(np.abs(node_maxes - x))]`, render/scripts/2d_kde.py 87-88: the first of the nearest; `none` is the
`ValueError` of an empty array. -/
def nearest (x : ℚ) : List ℚ → Option ℚ
  | [] => none
  | a :: l => some (l.foldl (fun b c => if |c - x| < |b - x| then c else b) a)

/-- `_get_finest_max`, render/scripts/2d_kde.py 138-142, with `level - l` as `i`; the outer `none` is an exception, also
"Impossible". -/
def finestFrom (conn : List (List (Option ℚ))) (idx : Nat) : Nat → Nat → Option ℚ
  | l, i =>
    match conn[l]? with
    | none => none
    | some row =>
      match row[idx / 2 ^ i]? with
      | none => none
      | some (some r) => some r
      | some none =>
        match l with
        | 0 => none
        | l + 1 => finestFrom conn idx l (i + 1)

/-- `_get_finest_max(idx, level)`, render/scripts/2d_kde.py 138-142. -/
def getFinestMax (conn : List (List (Option ℚ))) (idx level : Nat) : Option ℚ := finestFrom conn idx level 0

/-- `get_conn_maxes(level)`, render/scripts/2d_kde.py 144-152, the radii. -/
def getConnMaxes (conn : List (List (Option ℚ))) (level : Nat) : Option (List ℚ) := do
  let maxes ← conn[level]?
  (List.range maxes.length).mapM fun i => getFinestMax conn i level

/-- The last maximum closer than `h` to `x`, or `cur`; the loop of render/scripts/2d_kde.py 97-99. -/
def lastNear (h x : ℚ) (cur : Option ℚ) : List ℚ → Option ℚ
  | [] => cur
  | m :: l => lastNear h x (if |m - x| < h then some m else cur) l

/-- One turn of the inner loop of `_connect_maxes`, render/scripts/2d_kde.py 80-99; `spline rs node` is the radius of the
spline through the connected maxima `rs` of the level above at the angle of `node`. Line 82, `if len(maxes) == 0`, is never
true inside the loop over `maxes`. `none` is an exception. -/
def connectTurn (h : ℚ) (spline : List ℚ → Nat → ℚ) (split : Nat) (conn : List (List (Option ℚ))) (prev : List (Option ℚ))
    (maxes : List (List ℚ)) (node : Nat) (curr : List (Option ℚ)) : Option (List (Option ℚ)) := do
  let nodeMaxes ← maxes[node]?
  let prevMax ← prev[node / 2]?
  let connMax ← match prevMax with
    | none => some none
    | some p => (nearest p nodeMaxes).map some
  match prevMax, connMax with
  | some p, some c =>
    if |c - p| < h ∨ split = 0 then wr curr node (some c)
    else do
      let rs ← getConnMaxes conn split
      let old ← rd curr node
      wr curr node (lastNear h (spline rs node) old nodeMaxes)
  | _, _ => do
    let rs ← getConnMaxes conn split
    let old ← rd curr node
    wr curr node (lastNear h (spline rs node) old nodeMaxes)

/-- One turn of the outer loop, render/scripts/2d_kde.py 77-101: the rows connected so far, and one more. -/
def connectRow (h : ℚ) (spline : List ℚ → Nat → ℚ) (split : Nat) (maxes : List (List ℚ)) (conn : List (List (Option ℚ))) :
    Option (List (List (Option ℚ))) := do
  let prev ← conn.getLast?
  let curr ← (List.range maxes.length).foldlM (fun curr node => connectTurn h spline split conn prev maxes node curr)
    (List.replicate (prev.length * 2) none)
  some (conn ++ [curr])

/-- `for split, maxes in enumerate(...)`, render/scripts/2d_kde.py 77, from `split` on. `spline split` is the spline used
at that level. -/
def connectRows (h : ℚ) (spline : Nat → List ℚ → Nat → ℚ) : Nat → List (List (List ℚ)) → List (List (Option ℚ)) →
    Option (List (List (Option ℚ)))
  | _, [], conn => some conn
  | split, maxes :: rest, conn => (connectRow h (spline split) split maxes conn).bind (connectRows h spline (split + 1) rest)

/-- `_connect_maxes`, render/scripts/2d_kde.py 75-101: `tree` has the maxima of each node of each level. -/
def connectMaxes (h : ℚ) (spline : Nat → List ℚ → Nat → ℚ) (tree : List (List (List ℚ))) :
    Option (List (List (Option ℚ))) := do
  let top ← tree[0]?
  let root ← top[0]?
  let r ← root[0]?
  connectRows h spline 0 tree.tail [[some r]]

end Verif.Py
