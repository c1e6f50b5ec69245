import Mathlib.Data.List.Basic

/-!
# Specification of sorting and selection

Independent of the model: only lists, permutations and counting.
-/

namespace Verif.Sort

variable {α : Type}

/-- `gt` is the strict part of a total preorder: what `>` is on floats without NaN
(`-0` and `+0` are equivalent but not identical). -/
structure StrictWeak (gt : α → α → Bool) : Prop where
  asymm : ∀ a b, gt a b = true → gt b a = false
  negTrans : ∀ a b c, gt a b = false → gt b c = false → gt a c = false

/-- No element is greater than a later one. -/
def NonDecreasing (gt : α → α → Bool) (xs : List α) : Prop :=
  xs.Pairwise (fun a b => gt a b = false)

/-- `v` is an `n`-th largest value of `xs` (1-indexed): it occurs in `xs`, fewer than `n` elements are
greater than it, and at least `n` elements are not smaller than it. -/
def IsNthLargest (gt : α → α → Bool) (xs : List α) (n : Nat) (v : α) : Prop :=
  v ∈ xs ∧ (xs.countP (fun x => gt x v)) < n ∧ n ≤ xs.countP (fun x => !gt v x)

/-- `v` is a median of `xs`: at least half of the values are not greater, at least half are not
smaller. -/
def IsMedian (gt : α → α → Bool) (xs : List α) (v : α) : Prop :=
  v ∈ xs ∧ xs.length ≤ 2 * xs.countP (fun x => !gt x v) ∧ xs.length ≤ 2 * xs.countP (fun x => !gt v x)

end Verif.Sort
