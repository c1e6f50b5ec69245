import Verif.Sort.Lemmas2

/-!
# Properties C01 - C05 (`math/sort`)

`gt` is the comparison `>`; `StrictWeak gt` is what it satisfies on floats without NaN.
-/

namespace Verif.Sort

open Verif.Go

variable {α : Type} {gt : α → α → Bool}

/-- The comparison of rational numbers, used in the concrete cases. -/
def qgt (a b : ℚ) : Bool := decide (a > b)

theorem qgt_strictWeak : StrictWeak qgt :=
  ⟨fun a b h => by simp [qgt] at *; linarith, fun a b c h1 h2 => by simp [qgt] at *; linarith⟩

/-- A comparison of pairs by their first component only: a strict weak order with distinct
equivalent elements (as `-0` and `+0`). -/
def fstGt (a b : Nat × Nat) : Bool := decide (a.1 > b.1)

theorem fstGt_strictWeak : StrictWeak fstGt :=
  ⟨fun a b h => by simp [fstGt] at *; omega, fun a b c h1 h2 => by simp [fstGt] at *; omega⟩

/-- **C01.** `Shell` never panics, returns a rearrangement of its input, in non-decreasing order. -/
theorem C01_shell_sorts (hsw : StrictWeak gt) (xs : List α) :
    ∃ ys, Shell gt xs = some ys ∧ ys.Perm xs ∧ NonDecreasing gt ys := by
  obtain ⟨ys, e, p⟩ := Shell_perm (gt := gt) xs
  exact ⟨ys, e, p, Shell_sorted hsw xs ys e⟩

/-- **C01**, without any assumption on the comparison (so also with NaNs among the values): `Shell`
never panics and never loses or duplicates a value. -/
theorem C01_shell_perm_any_order (gt : α → α → Bool) (xs : List α) :
    ∃ ys, Shell gt xs = some ys ∧ ys.Perm xs := Shell_perm xs

example : Shell qgt [3, 1, 2, 5, 4, 1] = some [1, 1, 2, 3, 4, 5] := by decide +kernel
example := C01_shell_sorts qgt_strictWeak [3, 1, 2, 5, 4, 1]
example := C01_shell_sorts fstGt_strictWeak [(2, 0), (1, 0), (1, 1)]
-- a comparison that is constantly false (all NaN) is covered by the second theorem
example := C01_shell_perm_any_order (fun (_ _ : ℚ) => false) [3, 1, 2]

/-- **C02.** `Quick` terminates without a panic, returns a rearrangement of its input, in
non-decreasing order. -/
theorem C02_quick_sorts (hsw : StrictWeak gt) (xs : List α) :
    ∃ ys, Quick gt xs = some ys ∧ ys.Perm xs ∧ NonDecreasing gt ys :=
  quickFuel_spec hsw (xs.length + 1) xs (by omega)

example := C02_quick_sorts qgt_strictWeak ((List.range 40).map (fun i => ((i * 7 % 11 : Nat) : ℚ)))
example : Quick fstGt ((List.range 30).map (fun i => (i * 7 % 11, i))) ≠ none := by decide +kernel

/-- **C02**, `partition` (on which `Quick` and `NthLargest` rest): it returns a position strictly
inside the slice holding a value that separates the slice. -/
theorem C02_partition (hsw : StrictWeak gt) (xs : List α) (hn : 4 ≤ xs.length) :
    ∃ (piv : Nat) (ys : List α) (mid : α), partition gt xs = some ((piv : Int), ys) ∧
      ys.Perm xs ∧ 1 ≤ piv ∧ piv + 2 ≤ xs.length ∧ ys[piv]? = some mid ∧
      (∀ x ∈ ys.take piv, gt x mid = false) ∧ (∀ x ∈ ys.drop piv, gt mid x = false) :=
  partition_spec hsw xs hn

example := C02_partition qgt_strictWeak [3, 1, 2, 5, 4, 1] (by decide)

/-- **C03.** For `1 ≤ n ≤ len(xs)`, `NthLargest(xs, n)` terminates without a panic and returns an
`n`-th largest value of `xs`; a scratch buffer of the right length changes nothing. -/
theorem C03_nthLargest (hsw : StrictWeak gt) (xs : List α) (n : Nat) (h1 : 1 ≤ n)
    (h2 : n ≤ xs.length) (buf : Option (List α)) (hb : ∀ b, buf = some b → b.length = xs.length) :
    ∃ v, NthLargest gt xs n buf = some v ∧ IsNthLargest gt xs n v := by
  obtain ⟨v, e, h⟩ := nthLargestFuel_spec hsw (xs.length + 1) xs n (by omega) h1 h2
  refine ⟨v, ?_, h⟩
  unfold NthLargest
  rw [if_neg (by omega)]
  cases buf with
  | none => exact e
  | some b =>
    simp only
    rw [if_neg (by simp [hb b rfl])]
    exact e

example := C03_nthLargest qgt_strictWeak [3, 1, 2, 5, 4, 1] 2 (by decide) (by decide)
  (some [0, 0, 0, 0, 0, 0]) (by simp)
example : NthLargest qgt [3, 1, 2, 5, 4, 1] 2 none = some 4 := by decide +kernel

/-- **C03**, mismatched buffers are rejected. -/
theorem C03_buffer_length (xs b : List α) (n : Int) (hb : b.length ≠ xs.length) :
    NthLargest gt xs n (some b) = none := by
  unfold NthLargest
  split
  · rfl
  · simp [hb]

example := C03_buffer_length (gt := qgt) [1, 2] [1] 1 (by decide)

/-- The specification determines the rank: an `n`-th largest value is equivalent to the entry number
`n` of any non-increasing rearrangement. -/
theorem C03_spec_is_rank (hsw : StrictWeak gt) (xs ys : List α) (n : Nat) (v w : α)
    (h : IsNthLargest gt xs n v) (p : ys.Perm xs)
    (hs : ys.Pairwise (fun a b => gt b a = false)) (h1 : 1 ≤ n) (hw : ys[n - 1]? = some w) :
    gt v w = false ∧ gt w v = false := by
  obtain ⟨hn, hw'⟩ := List.getElem?_eq_some_iff.mp hw
  obtain ⟨_, h2, h3⟩ := h
  rw [← p.countP_eq] at h2 h3
  rw [List.pairwise_iff_getElem] at hs
  have hsplit : ys = ys.take n ++ ys.drop n := (List.take_append_drop n ys).symm
  have hle : ∀ a (ha : a < ys.length), a ≤ n - 1 → gt w ys[a] = false := by
    intro a ha hla
    rcases Nat.lt_or_ge a (n - 1) with h | h
    · have := hs a (n - 1) ha hn h
      rw [hw'] at this; exact this
    · have : a = n - 1 := by omega
      subst this; rw [hw']; exact hsw.irrefl _
  constructor
  · -- if `v > w` then fewer than `n` entries are `≥ v`
    cases hgt : gt v w
    · rfl
    exfalso
    have hz : (ys.drop (n - 1)).countP (fun x => !gt v x) = 0 := by
      rw [List.countP_eq_zero]
      intro a ha
      rw [List.mem_drop_iff_getElem] at ha
      obtain ⟨k, hk, rfl⟩ := ha
      cases hva : gt v ys[n - 1 + k]
      · exfalso
        have hwk : gt ys[n - 1 + k] w = false := by
          rcases Nat.eq_zero_or_pos k with h | h
          · subst h; simp only [Nat.add_zero]; rw [hw']; exact hsw.irrefl _
          · have := hs (n - 1) (n - 1 + k) hn (by omega) (by omega)
            rw [hw'] at this; exact this
        have := hsw.negTrans _ _ _ hva hwk
        rw [this] at hgt; exact absurd hgt (by simp)
      · simp
    have : ys.countP (fun x => !gt v x) ≤ n - 1 := by
      conv_lhs => rw [← List.take_append_drop (n - 1) ys]
      rw [List.countP_append, hz]
      have := List.countP_le_length (p := fun x => !gt v x) (l := ys.take (n - 1))
      simp only [List.length_take] at this
      omega
    omega
  · cases hgt : gt w v
    · rfl
    exfalso
    have : (ys.take n).countP (fun x => gt x v) = (ys.take n).length := by
      rw [List.countP_eq_length]
      intro a ha
      rw [List.mem_take_iff_getElem] at ha
      obtain ⟨k, hk, rfl⟩ := ha
      have hwa := hle k (by omega) (by omega)
      cases hav : gt ys[k] v
      · exfalso
        have := hsw.negTrans _ _ _ hwa hav
        rw [this] at hgt; exact absurd hgt (by simp)
      · rfl
    have h4 : ys.countP (fun x => gt x v) ≥ n := by
      conv_lhs => rw [hsplit]
      rw [List.countP_append, this]
      simp only [List.length_take]
      omega
    omega

example := C03_spec_is_rank qgt_strictWeak [3, 1, 2] [3, 2, 1] 2 2 2
  (by unfold IsNthLargest; decide +kernel) (by decide +kernel) (by decide +kernel) (by decide) rfl

/-- **C04**, refuted: the median of `1, 2, 3` is reported as `3`. -/
theorem C04_median_counterexample :
    Median qgt [1, 2, 3] none = some 3 ∧ ¬ IsMedian qgt [1, 2, 3] 3 := by
  constructor
  · decide +kernel
  · unfold IsMedian; decide +kernel

/-- **C04**, refuted: the 0-th percentile of any slice of two or more values panics. -/
theorem C04_percentile_zero_counterexample (hsw : StrictWeak gt) (xs : List α)
    (h : 2 ≤ xs.length) (buf : Option (List α)) : Percentile gt xs 0 buf = none := by
  unfold Percentile
  rw [if_neg (by omega), if_neg (by norm_num)]
  simp only [zero_mul, Int.floor_zero]
  rw [if_neg (by omega)]
  unfold NthLargest
  rw [if_neg (by omega)]
  cases buf with
  | none => exact nthLargestFuel_zero hsw _ _ h
  | some b =>
    simp only
    split
    · rfl
    · exact nthLargestFuel_zero hsw _ _ h

example := C04_percentile_zero_counterexample qgt_strictWeak [1, 2, 3] (by decide) none

/-- **C04**, what holds.  For a non-empty slice of even length (and for a single value) `Median`
returns a median.  Missing: odd lengths of three or more, where the code returns the value one rank
above the middle. -/
theorem C04_median_partial (hsw : StrictWeak gt) (xs : List α) (h0 : xs ≠ [])
    (hev : xs.length % 2 = 0 ∨ xs.length = 1) :
    ∃ v, Median gt xs none = some v ∧ IsMedian gt xs v := by
  have hl : 0 < xs.length := List.length_pos_iff.mpr h0
  unfold Median
  rw [if_neg (by omega)]
  rcases hev with hev | hev
  · obtain ⟨v, e, v1, v2, v3⟩ := C03_nthLargest hsw xs (xs.length / 2) (by omega) (by omega) none
      (by simp)
    refine ⟨v, e, v1, ?_, by omega⟩
    have := List.length_eq_countP_add_countP (fun x => gt x v) (l := xs)
    have e2 : (fun a => decide ¬ (gt a v = true)) = (fun x => !gt x v) := by
      funext a; cases gt a v <;> rfl
    rw [e2] at this
    omega
  · obtain ⟨x, rfl⟩ := List.length_eq_one_iff.mp hev
    refine ⟨x, rfl, by simp, ?_, ?_⟩ <;> simp [hsw.irrefl x]

example := C04_median_partial qgt_strictWeak [3, 1, 2, 5] (by decide) (by decide)

/-- **C04**, the exact rank for odd lengths: one above the middle. -/
theorem C04_median_odd_rank (hsw : StrictWeak gt) (xs : List α) (k : Nat) (hk : 1 ≤ k)
    (hl : xs.length = 2 * k + 1) :
    ∃ v, Median gt xs none = some v ∧ IsNthLargest gt xs k v := by
  unfold Median
  rw [if_neg (by omega)]
  have : xs.length / 2 = k := by omega
  rw [this]
  exact C03_nthLargest hsw xs k hk (by omega) none (by simp)

example := C04_median_odd_rank qgt_strictWeak [3, 1, 2, 5, 7] 2 (by decide) (by decide)

/-- **C04**, what holds for `Percentile`: whenever `p * len ≥ 1` (and there are two values or more) it
returns the value whose rank from the top is `⌊p * len⌋`, or `len - 1` for `p = 1`.  Missing: small
`p`, which panics; and a rank that grows with the percentile (ranks are counted from the top). -/
theorem C04_percentile_partial (hsw : StrictWeak gt) (xs : List α) (p : ℚ) (n : Nat)
    (hl : 2 ≤ xs.length) (hp1 : p ≤ 1) (hp : 1 ≤ p * xs.length)
    (hn : (n : Int) = min ⌊p * xs.length⌋ (xs.length - 1)) :
    ∃ v, Percentile gt xs p none = some v ∧ IsNthLargest gt xs n v := by
  have hlq : (0 : ℚ) < xs.length := by exact_mod_cast (by omega : 0 < xs.length)
  have hp0 : 0 ≤ p := by
    by_contra h
    push Not at h
    have : p * xs.length < 0 := mul_neg_of_neg_of_pos h hlq
    linarith
  have f1 : 1 ≤ ⌊p * xs.length⌋ := Int.le_floor.mpr (by exact_mod_cast hp)
  have f2 : ⌊p * xs.length⌋ ≤ xs.length := by
    have : p * xs.length ≤ xs.length := by nlinarith
    have := Int.floor_le_floor this
    simpa using this
  unfold Percentile
  rw [if_neg (by omega), if_neg (by push Not; exact ⟨hp1, hp0⟩)]
  simp only
  have hif : (if ⌊p * (xs.length : ℚ)⌋ = (xs.length : Int) then ⌊p * (xs.length : ℚ)⌋ - 1
      else ⌊p * (xs.length : ℚ)⌋) = (n : Int) := by
    rw [hn]; split <;> omega
  rw [hif]
  exact C03_nthLargest hsw xs n (by omega) (by omega) none (by simp)

example := C04_percentile_partial qgt_strictWeak [3, 1, 2, 5] (1/2) 2 (by decide) (by norm_num)
  (by norm_num) (by norm_num)

/-- **C05.** `Reverse` never panics and reverses; twice gives back the input. -/
theorem C05_reverse (xs : List α) :
    Reverse xs = some xs.reverse ∧ (Reverse xs).bind Reverse = some xs := by
  refine ⟨Reverse_spec xs, ?_⟩
  rw [Reverse_spec, Option.bind_some, Reverse_spec, List.reverse_reverse]

example : Reverse [5, 4, 3, 2] = some [2, 3, 4, 5] := by decide

end Verif.Sort
