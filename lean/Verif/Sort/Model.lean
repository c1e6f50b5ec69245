import Verif.Go.Slice
import Mathlib.Data.Rat.Floor

/-!
# Model of `/repo/math/sort`

Values are of an arbitrary type `α`; `gt a b` is the result of Go's `a > b` (and `gt b a` that of
`a < b`, which is the same thing for floats, NaN included).  In-place updates return the new slice.
Sub-slices `xs[0:p]`, `xs[p:]` of one slice are modelled by `take`/`drop` and written back by
concatenation.
-/

namespace Verif.Sort

open Verif.Go

variable {α : Type} (gt : α → α → Bool)

/-- `math/sort/sort.go:9-15` (`Reverse`). -/
def Reverse (xs : List α) : Option (List α) :=
  let n1 : Int := xs.length - 1
  let n2 : Int := (xs.length / 2 : Nat)
  forRange 0 n2 (fun i xs => do
    let a ← rd xs (n1 - i)
    let b ← rd xs i
    let xs ← wr xs i a
    wr xs (n1 - i) b) xs

/-- `math/sort/shell.go:18-23`: the inner loop of `Shell` shifting larger values up by `inc` and then
storing `v`.  The first argument bounds the number of iterations; running out of it is `none`. -/
def shellSift (inc : Int) (v : α) : Nat → Int → List α → Option (List α)
  | 0, _, _ => none
  | f + 1, j, xs => do
    let w ← rd xs (j - inc)
    if gt w v then
      let xs ← wr xs j w
      if j - inc < inc then wr xs (j - inc) v
      else shellSift inc v f (j - inc) xs
    else wr xs j v

/-- `math/sort/shell.go:15-24`: one pass of `Shell` with gap `inc`. -/
def shellPass (inc : Nat) (xs : List α) : Option (List α) :=
  forRange inc xs.length (fun i xs => do
    let v ← rd xs i
    shellSift gt inc v (xs.length + 1) i xs) xs

/-- `math/sort/shell.go:10-12`: `for inc <= n { inc = inc*3 + 1 }`. -/
def growInc (n inc : Nat) : Nat :=
  if inc ≤ n then growInc n (inc * 3 + 1) else inc
termination_by n + 1 - inc

/-- `math/sort/shell.go:13-25`: `for inc > 1 { inc /= 3; pass }`. -/
def shellLoop (inc : Nat) (xs : List α) : Option (List α) :=
  if inc > 1 then (shellPass gt (inc / 3) xs).bind (shellLoop (inc / 3)) else some xs
termination_by inc

/-- `math/sort/shell.go:5-27` (`Shell`). -/
def Shell (xs : List α) : Option (List α) :=
  if xs.length = 1 then some xs
  else shellLoop gt (growInc xs.length 1) xs

/-- `math/sort/quick.go:11-33` (`sort3`), returning (max, mid, min). -/
def sort3 (x y z : α) : α × α × α :=
  if gt x y then
    if gt x z then
      if gt y z then (x, y, z) else (x, z, y)
    else (z, x, y)
  else
    if gt y z then
      if gt x z then (y, x, z) else (y, z, x)
    else (z, y, x)

/-- `math/sort/quick.go:63`: `for xs[lo] < mid { lo++ }`; first argument bounds the iterations. -/
def scanUp (xs : List α) (mid : α) : Nat → Int → Option Int
  | 0, _ => none
  | f + 1, lo => do
    let x ← rd xs lo
    if gt mid x then scanUp xs mid f (lo + 1) else some lo

/-- `math/sort/quick.go:65`: `for xs[hi] > mid { hi-- }`; first argument bounds the iterations. -/
def scanDown (xs : List α) (mid : α) : Nat → Int → Option Int
  | 0, _ => none
  | f + 1, hi => do
    let x ← rd xs hi
    if gt x mid then scanDown xs mid f (hi - 1) else some hi

/-- `xs[i], xs[j] = xs[j], xs[i]`. As in math/sort/quick.go 58, 67 and 71 and math/sort/median.go 50. -/
def swap (xs : List α) (i j : Int) : Option (List α) := do
  let a ← rd xs i
  let b ← rd xs j
  let xs ← wr xs i b
  wr xs j a

/-- `math/sort/quick.go:61-68`: the main loop of `partition`; first argument bounds the iterations. -/
def partLoop (mid : α) : Nat → Int → Int → List α → Option (Int × List α)
  | 0, _, _, _ => none
  | f + 1, lo, hi, xs => do
    let lo ← scanUp gt xs mid (xs.length + 1) (lo + 1)
    let hi ← scanDown gt xs mid (xs.length + 1) (hi - 1)
    if hi < lo then some (hi, xs)
    else
      let xs ← swap xs lo hi
      partLoop mid f lo hi xs

/-- `math/sort/quick.go:52-74` (`partition`): returns the pivot index and the rearranged slice. -/
def partition (xs : List α) : Option (Int × List α) := do
  let n : Int := xs.length
  let n2 : Int := (xs.length / 2 : Nat)
  let x0 ← rd xs 0
  let x1 ← rd xs n2
  let x2 ← rd xs (n - 1)
  let (max, mid, min) := sort3 gt x0 x1 x2
  let xs ← wr xs 0 min
  let xs ← wr xs n2 mid
  let xs ← wr xs (n - 1) max
  let xs ← swap xs 1 n2
  let (hi, xs) ← partLoop gt mid (xs.length + 1) 1 (n - 1) xs
  let xs ← swap xs 1 hi
  some (hi, xs)

/-- `math/sort/quick.go:7-9`. -/
def manualLen : Nat := 25

/-- `math/sort/quick.go:37-46` (`Quick`); the first argument bounds the recursion depth. -/
def quickFuel : Nat → List α → Option (List α)
  | 0, _ => none
  | f + 1, xs =>
    if xs.length < manualLen then Shell gt xs
    else do
      let (piv, ys) ← partition gt xs
      let a ← quickFuel f (ys.take piv.toNat)
      let b ← quickFuel f (ys.drop piv.toNat)
      some (a ++ b)

/-- `math/sort/quick.go:37-46` (`Quick`). -/
def Quick (xs : List α) : Option (List α) := quickFuel gt (xs.length + 1) xs

/-- `math/sort/median.go:44-78` (`nthLargest`); the first argument bounds the recursion depth. -/
def nthLargestFuel : Nat → List α → Int → Option α
  | 0, _, _ => none
  | f + 1, xs, n =>
    match xs with
    | [x] => some x
    | [x, y] =>
      let xs := if gt x y then [y, x] else [x, y]
      if n ≤ 2 then rd xs (2 - n) else none
    | [x, y, z] =>
      let (high, mid, low) := sort3 gt x y z
      if n = 1 then some high
      else if n = 2 then some mid
      else if n = 3 then some low
      else none
    | xs => do
      let (piv, ys) ← partition gt xs
      let nPiv : Int := ys.length - piv
      if nPiv > n then nthLargestFuel f (ys.drop piv.toNat) n
      else if nPiv < n then nthLargestFuel f (ys.take piv.toNat) (n - nPiv)
      else rd ys piv

/-- `math/sort/median.go:25-42` (`NthLargest`).  `buf` is the optional scratch buffer: its length must
match; its previous contents are overwritten by `copy`, so only its length matters.  The work is done on
the copy, `xs` itself is not written. -/
def NthLargest (xs : List α) (n : Int) (buf : Option (List α)) : Option α :=
  if xs.length = 0 then none
  else
    match buf with
    | none => nthLargestFuel gt (xs.length + 1) xs n
    | some b => if b.length ≠ xs.length then none else nthLargestFuel gt (xs.length + 1) xs n

/-- `math/sort/median.go:16-22` (`Median`). -/
def Median (xs : List α) (buf : Option (List α)) : Option α :=
  if xs.length = 0 then none else NthLargest gt xs ((xs.length / 2 : Nat) : Int) buf

/-- `math/sort/median.go:3-14` (`Percentile`).  `p * float64(len(xs))` is taken exactly, `int(.)`
truncates, which for non-negative values is the floor. -/
def Percentile (xs : List α) (p : ℚ) (buf : Option (List α)) : Option α :=
  if xs.length = 0 then none
  else if p > 1 ∨ p < 0 then none
  else
    let n : Int := ⌊p * xs.length⌋
    let n := if n = xs.length then n - 1 else n
    NthLargest gt xs n buf

end Verif.Sort
