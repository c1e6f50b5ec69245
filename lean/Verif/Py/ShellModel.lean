import Verif.Py.RebinModel

/-!
# Model of the choice of points for a fitted shell

`find_max_r`, `filter_around_max`, `filter_around` and the limits of `multi_fit` of `render/scripts/penna.py`. Exact numbers; the
radii (a square root in the code) and the number of bins (a power of the number of points) are parameters. Plots are left out.
-/

set_option autoImplicit false

namespace Verif.Py

/-- The least and the greatest radius, as `np.histogram` takes them, render/scripts/penna.py 131: moved apart by one when they
are equal; `none` is an empty list. -/
def histLimits : List ℚ → Option (ℚ × ℚ)
  | [] => none
  | r :: rs =>
    let lo := rs.foldl min r
    let hi := rs.foldl max r
    some (if lo = hi then (lo - 1 / 2, hi + 1 / 2) else (lo, hi))

/-- Whether `np.histogram` counts `r` in bin `k`, render/scripts/penna.py 131: the last bin has its upper edge. -/
def inHistBin (edges : List ℚ) (nb k : Nat) (r : ℚ) : Bool :=
  decide (edges.getD k 0 ≤ r) && (decide (r < edges.getD (k + 1) 0) || (k + 1 == nb && decide (r ≤ edges.getD (k + 1) 0)))

/-- `vals` of `np.histogram`, render/scripts/penna.py 131. -/
def histCounts (edges : List ℚ) (nb : Nat) (rs : List ℚ) : List Nat :=
  (List.range nb).map fun k => (rs.filter (inHistBin edges nb k)).length

/-- `bin_rs`, render/scripts/penna.py 132. -/
def binCentres (edges : List ℚ) (nb : Nat) : List ℚ :=
  (List.range nb).map fun k => (edges.getD (k + 1) 0 + edges.getD k 0) / 2

/-- `np.argmax`, the first largest entry: `best` is the best so far, found at `at_`. render/scripts/penna.py 134 and 147. -/
def firstMaxFrom (best at_ : Nat) : Nat → List Nat → Nat
  | _, [] => at_
  | k, v :: l => if best < v then firstMaxFrom v k (k + 1) l else firstMaxFrom best at_ (k + 1) l

/-- `np.argmax`, render/scripts/penna.py 134 and 147; `none` is the exception for an empty array. -/
def firstMax : List Nat → Option Nat
  | [] => none
  | v :: l => some (firstMaxFrom v 0 1 l)

/-- `find_max_r`, render/scripts/penna.py 130-147, with `nb` bins. The loop of lines 136-140 assigns `low_edges` only when a
centre is above the limit; otherwise line 142 is an `UnboundLocalError`. `none` is an exception. -/
def findMaxR (nb : Nat) (rs : List ℚ) : Option ℚ := do
  let (lo, hi) ← histLimits rs
  let edges := binEdges lo hi nb
  let binRs := binCentres edges nb
  let i ← firstMax (histCounts edges nb rs)
  let m ← binRs[i]?
  if binRs.any fun r => decide (r > m * (13 / 10)) then some m else none

/-- The mask of render/scripts/penna.py 152 and 156. -/
def aroundTarget (target eta r : ℚ) : Bool := decide (r < target * (1 + eta)) && decide (r > target * (1 - eta))

/-- `vals[valid]`, `filter_around`, render/scripts/penna.py 155-157, for lists of equal length. -/
def filterAround (vals filterVals : List ℚ) (target eta : ℚ) : List ℚ :=
  ((vals.zip filterVals).filter fun p => aroundTarget target eta p.2).map Prod.fst

/-- `filter_around_max`, render/scripts/penna.py 149-153; `rs` are the radii of the points. -/
def filterAroundMax (nb : Nat) (xs ys zs rs : List ℚ) (eta : ℚ) : Option (ℚ × List ℚ × List ℚ × List ℚ) := do
  let maxR ← findMaxR nb rs
  some (maxR, filterAround xs rs maxR eta, filterAround ys rs maxR eta, filterAround zs rs maxR eta)

/-- The limits of the fits, `np.linspace(0, furthest_r, 20)`, render/scripts/penna.py 210-211. -/
def fitLimits (furthest : ℚ) : List ℚ := (List.range 20).map fun (i : Nat) => i * (furthest / 19)

/-- The radii of the points of one fit, render/scripts/penna.py 166-167. -/
def fitRadii (rs : List ℚ) (lim : ℚ) : List ℚ := rs.filter fun r => decide (r < lim)

end Verif.Py
