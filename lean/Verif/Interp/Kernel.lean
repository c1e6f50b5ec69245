import Verif.Interp.Search
import Mathlib.Algebra.BigOperators.Fin
import Mathlib.Algebra.Order.BigOperators.Group.Finset
import Mathlib.Algebra.BigOperators.Field

/-! Smoothing kernels: properties C23 and C24. -/

set_option autoImplicit false

namespace Verif.Interp

open Verif.Go

/-! Specification. -/

/-- The signal `xs` extended to all indices by a boundary condition: zero, the nearest end, periodic, or
mirrored at the end points (`... x2 x1 x0 x1 x2 ...`). -/
def extended (b : Boundary) (xs : List ℚ) (i : Int) : ℚ :=
  let n : Int := xs.length
  if 0 ≤ i ∧ i < n then xs.getD i.toNat 0
  else match b with
    | .zeroPad => 0
    | .extension => if i < 0 then xs.getD 0 0 else xs.getD (n - 1).toNat 0
    | .periodic => xs.getD (i % n).toNat 0
    | .reflection =>
      let r := i % (2 * (n - 1))
      if r < n then xs.getD r.toNat 0 else xs.getD (2 * (n - 1) - r).toNat 0

/-- The convolution of the extended signal with the kernel, at index `i`. -/
def convSpec (k : Kernel) (b : Boundary) (xs : List ℚ) (i : Nat) : ℚ :=
  ∑ j ∈ Finset.range k.cs.length, k.cs.getD j 0 * extended b xs ((i : Int) + j - k.center)

/-! Lemmas. -/

theorem sumAt_eq (k : Kernel) (get : Int → Option ℚ) (G : Int → ℚ) (i : Int)
    (h : ∀ j : Nat, j < k.cs.length → get (i + j - k.center) = some (G (i + j - k.center))) :
    k.sumAt get i = some (∑ j ∈ Finset.range k.cs.length, k.cs.getD j 0 * G (i + j - k.center)) := by
  unfold Kernel.sumAt
  have hc : ∀ j < k.cs.length, k.cs[j]? = some (k.cs.getD j 0) := fun j hj => rd_getD hj
  have := forRange_sum (fun j => k.cs.getD j 0 * G (i + (j : Int) - k.center)) (lo := 0)
    (hi := k.cs.length) (Nat.zero_le _) 0 (fun j sum => do
      let c ← rd k.cs j
      let x ← get (i + j - k.center)
      some (sum + x * c)) (by
      intro j t _ hj
      have a1 : rd k.cs (j : Int) = some (k.cs.getD j 0) := rd_fn_nat hc j rfl hj
      simp only [a1, h j hj, bind, Option.bind_some]
      rw [mul_comm])
  rw [Nat.cast_zero] at this
  rw [this, zero_add, Finset.range_eq_Ico]

theorem leftGet_eq {b : Boundary} {xs : List ℚ} {i : Int} (h1 : i < xs.length) (hn : 1 ≤ xs.length)
    (hb : b = .zeroPad ∨ b = .extension ∨ 0 ≤ i) : leftGet b xs i = some (extended b xs i) := by
  unfold leftGet extended
  by_cases c : i < 0
  · simp only [if_pos c]
    rw [if_neg (by omega)]
    rcases hb with rfl | rfl | h
    · rfl
    · simp only [if_pos c]
      exact rd_fn_nat (fun i hi => rd_getD hi) 0 rfl (show 0 < xs.length by omega)
    · omega
  · simp only [if_neg c]
    rw [if_pos ⟨by omega, h1⟩]
    exact rd_fn_nat (fun i hi => rd_getD hi) i.toNat (by omega) (by omega)

theorem rd_ext {b : Boundary} {xs : List ℚ} {i : Int} (h0 : 0 ≤ i) (h1 : i < xs.length) :
    rd xs i = some (extended b xs i) := by
  unfold extended
  simp only
  rw [if_pos ⟨h0, h1⟩]
  exact rd_fn_nat (fun i hi => rd_getD hi) i.toNat (by omega) (by omega)

theorem rightGet_eq {b : Boundary} {xs : List ℚ} {i : Int} (h0 : 0 ≤ i) (h1 : i ≤ 2 * (xs.length : Int) - 2)
    (hn : 1 ≤ xs.length) : rightGet b xs i = some (extended b xs i) := by
  unfold rightGet
  by_cases c : i ≥ xs.length
  · unfold extended
    simp only [if_pos c]
    rw [if_neg (by omega)]
    cases b with
    | periodic =>
      simp only
      have e : i % (xs.length : Int) = i - xs.length := by
        rw [Int.emod_eq_iff (by omega)]
        refine ⟨by omega, by omega, -1, by ring⟩
      rw [e]
      exact rd_fn_nat (fun i hi => rd_getD hi) (i - xs.length).toNat (by omega) (by omega)
    | reflection =>
      simp only
      by_cases e : i = 2 * ((xs.length : Int) - 1)
      · rw [e, Int.emod_self, if_pos (by omega), sub_self]
        exact rd_fn_nat (fun i hi => rd_getD hi) 0 rfl (by omega)
      · rw [Int.emod_eq_of_lt h0 (by omega), if_neg (by omega)]
        exact rd_fn_nat (fun i hi => rd_getD hi) (2 * ((xs.length : Int) - 1) - i).toNat (by omega)
          (by omega)
    | zeroPad => rfl
    | extension =>
      simp only
      rw [if_neg (by omega)]
      exact rd_fn_nat (fun i hi => rd_getD hi) ((xs.length : Int) - 1).toNat (by omega) (by omega)
  · simp only [if_neg c]
    exact rd_ext h0 (by omega)

/-- The three loops. `L` is whatever the left loop computes. -/
theorem convolveAt_eq {k : Kernel} {xs out : List ℚ} {b : Boundary} (c : Nat) (hc : k.center = c)
    (hck : c < k.cs.length) (hn : k.cs.length ≤ xs.length) (ho : out.length = xs.length) (L : Nat → ℚ)
    (hL : ∀ i ≤ c, k.sumAt (leftGet b xs) (i : Int) = some (L i)) :
    k.convolveAt xs b out = some ((List.range xs.length).map
      (fun i => if i ≤ c then L i else convSpec k b xs i)) := by
  have mid : ∀ i : Nat, c < i → (i : Int) < xs.length - (k.cs.length - 1 - c : Int) →
      k.sumAt (rd xs) (i : Int) = some (convSpec k b xs i) := by
    intro i h1 h2
    apply sumAt_eq k (rd xs) (extended b xs)
    intro j hj
    exact rd_ext (by rw [hc]; omega) (by rw [hc]; omega)
  have right : ∀ i : Nat, (xs.length : Int) - (k.cs.length - 1 - c : Int) ≤ i → i < xs.length →
      k.sumAt (rightGet b xs) (i : Int) = some (convSpec k b xs i) := by
    intro i h1 h2
    apply sumAt_eq k (rightGet b xs) (extended b xs)
    intro j hj
    exact rightGet_eq (by rw [hc]; omega) (by rw [hc]; omega) (by omega)
  unfold Kernel.convolveAt
  simp only [hc, bind]
  obtain ⟨o1, e1, l1, h1⟩ := forRange_fill L (lo := 0) (hi := c + 1) (n := xs.length) (by omega) (by omega) out
    ho (fun i out => (k.sumAt (leftGet b xs) i).bind (fun s => wr out i s)) (by
      intro i st _ hi _ _
      simp only [hL i (by omega), Option.bind_some])
  rw [Nat.cast_zero, show ((c + 1 : Nat) : Int) = (c : Int) + 1 by push_cast; rfl] at e1
  rw [e1]
  simp only [Option.bind_some]
  obtain ⟨o2, e2, l2, h2⟩ := forRange_fill (convSpec k b xs) (lo := c + 1)
    (hi := xs.length - (k.cs.length - 1 - c)) (n := xs.length) (by omega) (by omega) o1
    l1 (fun i out => (k.sumAt (rd xs) i).bind (fun s => wr out i s)) (by
      intro i st hi1 hi _ _
      simp only [mid i (by omega) (by omega), Option.bind_some])
  rw [show ((c + 1 : Nat) : Int) = (c : Int) + 1 by push_cast; rfl,
    show ((xs.length - (k.cs.length - 1 - c) : Nat) : Int) =
      (xs.length : Int) - ((k.cs.length : Int) - 1 - c) by omega] at e2
  rw [e2]
  simp only [Option.bind_some]
  obtain ⟨o3, e3, l3, h3⟩ := forRange_fill (convSpec k b xs) (lo := xs.length - (k.cs.length - 1 - c))
    (hi := xs.length) (n := xs.length) (by omega) (by omega) o2
    l2 (fun i out => (k.sumAt (rightGet b xs) i).bind (fun s => wr out i s)) (by
      intro i st hi1 hi _ _
      simp only [right i (by omega) (by omega), Option.bind_some])
  rw [show ((xs.length - (k.cs.length - 1 - c) : Nat) : Int) =
      (xs.length : Int) - ((k.cs.length : Int) - 1 - c) by omega] at e3
  rw [e3]
  congr 1
  apply List.ext_getElem?
  intro i
  by_cases hi : i < xs.length
  · rw [h3, List.getElem?_map, List.getElem?_range hi, Option.map_some]
    by_cases a : xs.length - (k.cs.length - 1 - c) ≤ i
    · rw [if_pos ⟨a, hi⟩, if_neg (by omega)]
    · rw [if_neg (by omega), h2]
      by_cases a' : c + 1 ≤ i
      · rw [if_pos (by omega), if_neg (by omega)]
      · rw [if_neg (by omega), h1, if_pos (by omega), if_pos (by omega)]
  · rw [List.getElem?_eq_none (by omega), List.getElem?_eq_none (by simpa using hi)]

/-! ### C23 -/

/-- C23 for zero padding and constant extension: `ConvolveAt` computes the convolution of the extended
signal at every index, for every kernel whose centre lies in it and every input at least as long as the
kernel. -/
theorem C23_zero_extension (k : Kernel) (xs out : List ℚ) (b : Boundary) (c : Nat) (hc : k.center = c)
    (hck : c < k.cs.length) (hn : k.cs.length ≤ xs.length) (ho : out.length = xs.length)
    (hb : b = .zeroPad ∨ b = .extension) :
    k.convolveAt xs b out = some ((List.range xs.length).map (convSpec k b xs)) := by
  rw [convolveAt_eq c hc hck hn ho (convSpec k b xs)]
  · congr 1
    apply List.map_congr_left
    intro i _
    split <;> rfl
  · intro i hi
    apply sumAt_eq k (leftGet b xs) (extended b xs)
    intro j hj
    refine leftGet_eq (by rw [hc]; omega) (by omega) ?_
    rcases hb with h | h
    · exact Or.inl h
    · exact Or.inr (Or.inl h)

example : (Kernel.mk [1, 2, 4] 1).convolveAt [1, 10, 100, 1000] .extension [0, 0, 0, 0] =
    some [43, 421, 4210, 6100] := by
  decide +kernel

/-- C23 for periodic and mirrored boundaries, at the indices whose window does not reach beyond the left
end: the result there is the convolution of the extended signal.
Missing: the left end, where the code reads the wrong entries (`C23_periodic_counterexample`,
`C23_reflection_counterexample`). -/
theorem C23_periodic_reflection_partial (k : Kernel) (xs out : List ℚ) (b : Boundary) (c : Nat)
    (hc : k.center = c) (hck : c < k.cs.length) (hn : k.cs.length + 1 ≤ xs.length)
    (ho : out.length = xs.length) :
    ∃ r, k.convolveAt xs b out = some r ∧ r.length = xs.length ∧
      ∀ i, c ≤ i → i < xs.length → r[i]? = some (convSpec k b xs i) := by
  have hL : ∀ i ≤ c, ∃ v, k.sumAt (leftGet b xs) (i : Int) = some v ∧ (i = c → v = convSpec k b xs i) := by
    intro i hi
    have hg : ∀ j : Nat, j < k.cs.length → leftGet b xs ((i : Int) + j - k.center) =
        some ((leftGet b xs ((i : Int) + j - k.center)).getD 0) := by
      intro j hj
      rw [hc]
      unfold leftGet
      by_cases h : (i : Int) + j - c < 0
      · simp only [if_pos h]
        cases b with
        | periodic =>
          simp only
          obtain ⟨v, hv⟩ := rd_isSome (xs := xs) (i := (xs.length : Int) - 1 + ((i : Int) + j - c))
            (by omega) (by omega)
          rw [hv]; rfl
        | reflection =>
          simp only
          obtain ⟨v, hv⟩ := rd_isSome (xs := xs) (i := -((i : Int) + j - c - 1)) (by omega) (by omega)
          rw [hv]; rfl
        | zeroPad => rfl
        | extension =>
          simp only
          obtain ⟨v, hv⟩ := rd_isSome (xs := xs) (i := 0) (by omega) (by omega)
          rw [hv]; rfl
      · simp only [if_neg h]
        obtain ⟨v, hv⟩ := rd_isSome (xs := xs) (i := (i : Int) + j - c) (by omega) (by omega)
        rw [hv]; rfl
    refine ⟨_, sumAt_eq k (leftGet b xs) (fun i => (leftGet b xs i).getD 0) i hg, ?_⟩
    rintro rfl
    unfold convSpec
    apply Finset.sum_congr rfl
    intro j hj
    rw [Finset.mem_range] at hj
    rw [leftGet_eq (by rw [hc]; omega) (by omega) (Or.inr (Or.inr (by rw [hc]; omega)))]
    rfl
  choose! L hL1 hL2 using hL
  refine ⟨_, convolveAt_eq c hc hck (by omega) ho L hL1, by simp, ?_⟩
  intro i h1 h2
  rw [List.getElem?_map, List.getElem?_range h2, Option.map_some]
  by_cases h : i ≤ c
  · obtain rfl : i = c := by omega
    rw [if_pos h, hL2 i le_rfl rfl]
  · rw [if_neg h]

example : (Kernel.mk [1, 2, 4] 1).convolveAt [1, 10, 100, 1000] .reflection [0, 0, 0, 0] =
    some [142, 421, 4210, 2500] := by
  decide +kernel

/-- C23 fails for `Periodic`: before the first entry the code reads the last entry but one. -/
theorem C23_periodic_counterexample :
    (Kernel.mk [1, 2, 4] 1).convolveAt [1, 10, 100, 1000] .periodic [0, 0, 0, 0] =
      some [142, 421, 4210, 2104] ∧
    convSpec (Kernel.mk [1, 2, 4] 1) .periodic [1, 10, 100, 1000] 0 = 1042 := by
  decide +kernel

/-- C23 fails for `Reflection`: before the first entry the code reads the third one, which fits neither of
the two ways of mirroring (about the end point, or half a sample beyond it). -/
theorem C23_reflection_counterexample :
    (Kernel.mk [1, 2, 4] 1).convolveAt [1, 10, 100, 1000] .reflection [0, 0, 0, 0] =
      some [142, 421, 4210, 2500] ∧
    convSpec (Kernel.mk [1, 2, 4] 1) .reflection [1, 10, 100, 1000] 0 = 52 ∧
    (1 * 1 + 2 * 1 + 4 * 10 : ℚ) = 43 := by
  decide +kernel

/-- C23 for `BoundaryCondition.Get`: zero padding and constant extension at every index; the periodic case
from the first entry on, up to one period beyond the end.
Missing: periodic before the first entry and mirrored (`C23_get_counterexample`). -/
theorem C23_get_partial (xs : List ℚ) (hn : 1 ≤ xs.length) (i : Int) :
    Boundary.zeroPad.get xs i = some (extended .zeroPad xs i) ∧
    Boundary.extension.get xs i = some (extended .extension xs i) ∧
    (0 ≤ i → i < 2 * xs.length → Boundary.periodic.get xs i = some (extended .periodic xs i)) := by
  have first : rd xs 0 = some (xs.getD 0 0) := rd_fn_nat (fun i hi => rd_getD hi) 0 rfl (by omega)
  have last : rd xs ((xs.length : Int) - 1) = some (xs.getD ((xs.length : Int) - 1).toNat 0) :=
    rd_fn_nat (fun i hi => rd_getD hi) ((xs.length : Int) - 1).toNat (by omega) (by omega)
  refine ⟨?_, ?_, ?_⟩
  · unfold Boundary.get
    by_cases h0 : i < 0
    · simp only [if_pos h0]; unfold extended; simp only; rw [if_neg (by omega)]
    · by_cases h1 : i ≥ xs.length
      · simp only [if_neg h0, if_pos h1]; unfold extended; simp only; rw [if_neg (by omega)]
      · simp only [if_neg h0, if_neg h1]; exact rd_ext (by omega) (by omega)
  · unfold Boundary.get
    by_cases h0 : i < 0
    · simp only [if_pos h0]; unfold extended; simp only; rw [if_neg (by omega), if_pos h0]; exact first
    · by_cases h1 : i ≥ xs.length
      · simp only [if_neg h0, if_pos h1]; unfold extended; simp only
        rw [if_neg (by omega), if_neg (by omega)]; exact last
      · simp only [if_neg h0, if_neg h1]; exact rd_ext (by omega) (by omega)
  · intro h0 h2
    unfold Boundary.get
    by_cases h1 : i ≥ xs.length
    · simp only [if_neg (not_lt.mpr h0), if_pos h1]; unfold extended; simp only
      rw [if_neg (by omega)]
      have e : i % (xs.length : Int) = i - xs.length := by
        rw [Int.emod_eq_iff (by omega)]
        refine ⟨by omega, by omega, -1, by ring⟩
      rw [e]
      exact rd_fn_nat (fun i hi => rd_getD hi) (i - xs.length).toNat (by omega) (by omega)
    · simp only [if_neg (not_lt.mpr h0), if_neg h1]; exact rd_ext (by omega) (by omega)

example : Boundary.periodic.get [1, 10, 100] 4 = some 10 ∧
    Boundary.extension.get [1, 10, 100] (-7) = some 1 := by decide +kernel

/-- C23 fails for `Get`: the periodic case is off by one before the first entry (and panics a period away),
and the mirrored case panics just after the last entry. -/
theorem C23_get_counterexample :
    Boundary.periodic.get [1, 10, 100] (-1) = some 10 ∧ Boundary.periodic.get [1, 10, 100] (-3) = none ∧
    Boundary.reflection.get [1, 10, 100] 3 = none := by decide +kernel

/-- The signal mirrored half a sample beyond its ends: `… x1 x0 | x0 x1 … | x(n-1) x(n-2) …`. -/
def mirrored (xs : List ℚ) (i : Int) : ℚ :=
  let r := i % (2 * xs.length)
  if r < xs.length then xs.getD r.toNat 0 else xs.getD (2 * xs.length - 1 - r).toNat 0

/-- C23 for `BoundaryCondition.Get` with `Reflection`: before the first entry the signal is mirrored half a
sample beyond its end (`get (-1)` is the first entry again), and inside the slice it is the signal.
Missing: from the last entry on, where the code is off by one (`C23_get_counterexample`). -/
theorem C23_get_reflection_partial (xs : List ℚ) (i : Int) (h0 : -(xs.length : Int) ≤ i)
    (h1 : i < xs.length) : Boundary.reflection.get xs i = some (mirrored xs i) := by
  unfold Boundary.get mirrored
  by_cases h : i < 0
  · have e : i % (2 * (xs.length : Int)) = i + 2 * xs.length := by
      rw [Int.emod_eq_iff (by omega)]
      exact ⟨by omega, by omega, 1, by ring⟩
    simp only [if_pos h, e]
    rw [if_neg (by omega)]
    exact rd_fn_nat (fun i hi => rd_getD hi) (2 * (xs.length : Int) - 1 - (i + 2 * xs.length)).toNat
      (by omega) (by omega)
  · have e : i % (2 * (xs.length : Int)) = i := Int.emod_eq_of_lt (by omega) (by omega)
    simp only [if_neg h, e]
    rw [if_neg (by omega), if_pos h1]
    exact rd_fn_nat (fun i hi => rd_getD hi) i.toNat (by omega) (by omega)

example : Boundary.reflection.get [1, 10, 100] (-1) = some 1 ∧
    Boundary.reflection.get [1, 10, 100] (-3) = some 100 := by decide +kernel

/-! ### C24 -/

/-- A kernel fit for smoothing: odd width, centred, symmetric, weights summing to one. -/
structure Smoothing (k : Kernel) (width : Nat) : Prop where
  odd : width % 2 = 1
  len : k.cs.length = width
  center : k.center = ((width / 2 : Nat) : Int)
  sym : ∀ i, i < width → k.cs.getD i 0 = k.cs.getD (width - 1 - i) 0
  sum : k.cs.sum = 1

theorem foldl_sum (l : List ℚ) : ∀ s : ℚ, l.foldl (fun s c => s + c) s = s + l.sum := by
  induction l with
  | nil => intro s; simp
  | cons a l ih => intro s; rw [List.foldl_cons, ih, List.sum_cons]; ring

theorem sum_map_div (l : List ℚ) (s : ℚ) : (l.map (fun c => c / s)).sum = l.sum / s := by
  induction l with
  | nil => simp
  | cons a l ih => rw [List.map_cons, List.sum_cons, ih, List.sum_cons]; ring

theorem normalize_smoothing {cs : List ℚ} {width : Nat} (hodd : width % 2 = 1) (hl : cs.length = width)
    (sym : ∀ i, i < width → cs.getD i 0 = cs.getD (width - 1 - i) 0) (hs : cs.sum ≠ 0) {c : Int}
    (hc : c = ((width / 2 : Nat) : Int)) : Smoothing ⟨normalize cs, c⟩ width := by
  have g : ∀ i, i < width → (normalize cs).getD i 0 = cs.getD i 0 / cs.sum := by
    intro i hi
    unfold normalize
    simp only [foldl_sum, zero_add]
    rw [List.getD_eq_getElem?_getD, List.getElem?_map, rd_getD (show i < cs.length by omega)]
    rfl
  refine ⟨hodd, by simp [normalize, hl], hc, ?_, ?_⟩
  · intro i hi
    simp only
    rw [g i hi, g (width - 1 - i) (by omega), sym i hi]
  · unfold normalize
    simp only [foldl_sum, zero_add]
    rw [sum_map_div, div_self hs]

theorem tmod_neg_le {a : Int} (h : a < 0) : a.tmod 2 ≤ 0 := by
  obtain ⟨m, rfl⟩ : ∃ m : Int, a = -m := ⟨-a, by ring⟩
  rw [Int.neg_tmod, Int.tmod_eq_emod_of_nonneg (by omega)]
  omega

/-- C24: `NewTophatKernel` panics for even or negative widths and otherwise gives a smoothing kernel. -/
theorem C24_tophat (width : Int) :
    (∀ w : Nat, width = w → w % 2 = 1 → ∃ k, newTophat width = some k ∧ Smoothing k w ∧
      ∀ i < w, k.cs.getD i 0 = 1 / w) ∧
    ((width < 0 ∨ width % 2 = 0) → newTophat width = none) := by
  constructor
  · rintro w rfl hodd
    unfold newTophat
    have e : (w : Int).tmod 2 = 1 := by
      rw [Int.tmod_eq_emod_of_nonneg (by omega)]; omega
    rw [if_neg (by rw [e]; simp)]
    have sum : (List.replicate w (1 : ℚ)).sum = w := by simp
    have hw : (w : ℚ) ≠ 0 := by
      have : w ≠ 0 := by omega
      exact_mod_cast this
    refine ⟨_, rfl, ?_, ?_⟩
    · simp only [Int.toNat_natCast]
      apply normalize_smoothing hodd (by simp)
      · intro i hi
        rw [List.getD_eq_getElem?_getD, List.getD_eq_getElem?_getD, List.getElem?_replicate,
          List.getElem?_replicate, if_pos hi, if_pos (by omega)]
      · rw [sum]; exact hw
      · rw [Int.tdiv_eq_ediv_of_nonneg (by omega)]; omega
    · intro i hi
      simp only [Int.toNat_natCast, normalize, foldl_sum, zero_add, sum]
      rw [List.getD_eq_getElem?_getD, List.getElem?_map, List.getElem?_replicate, if_pos hi]
      rfl
  · intro h
    unfold newTophat
    rw [if_pos]
    intro e
    rcases h with h | h
    · have := tmod_neg_le h
      omega
    · have h2 : (2 : Int) ∣ width := Int.dvd_of_emod_eq_zero h
      rw [Int.tmod_eq_zero_of_dvd h2] at e
      omega

example : newTophat 3 = some ⟨[1/3, 1/3, 1/3], 1⟩ ∧ newTophat 4 = none ∧ newTophat (-3) = none := by
  decide +kernel

/-- C24: `NewGaussianKernel` gives a smoothing kernel with positive weights for every odd width, whatever
`sigma` and `dx`; all that is used of `exp` is that it is positive. -/
theorem C24_gaussian (exp : ℚ → ℚ) (hexp : ∀ t, 0 < exp t) (sigma dx : ℚ) (width : Int) :
    (∀ w : Nat, width = w → w % 2 = 1 → ∃ k, newGaussian exp width sigma dx = some k ∧ Smoothing k w ∧
      ∀ i < w, 0 < k.cs.getD i 0) ∧
    ((width < 0 ∨ width % 2 = 0) → newGaussian exp width sigma dx = none) := by
  constructor
  · rintro w rfl hodd
    unfold newGaussian
    have e : (w : Int).tmod 2 = 1 := by
      rw [Int.tmod_eq_emod_of_nonneg (by omega)]; omega
    have ec : (w : Int).tdiv 2 = ((w / 2 : Nat) : Int) := by
      rw [Int.tdiv_eq_ediv_of_nonneg (by omega)]; omega
    rw [if_neg (by rw [e]; simp)]
    simp only [ec, Int.toNat_natCast, bind]
    let E : Nat → ℚ := fun i => exp (-(((i - (w / 2 : Nat) : Int) : ℚ) * dx) *
      (((i - (w / 2 : Nat) : Int) : ℚ) * dx) / (2 * sigma * sigma))
    obtain ⟨o1, e1, l1, h1⟩ := forRange_fill E (lo := 0) (hi := w / 2 + 1) (n := w) (by omega) (by omega)
      (List.replicate w 0) (by simp) (fun i cs =>
        wr cs i (exp (-(((i - (w / 2 : Nat) : Int) : ℚ) * dx) *
          (((i - (w / 2 : Nat) : Int) : ℚ) * dx) / (2 * sigma * sigma)))) (by
        intro i st _ hi _ _
        rfl)
    rw [Nat.cast_zero, show ((w / 2 + 1 : Nat) : Int) = ((w / 2 : Nat) : Int) + 1 by push_cast; rfl] at e1
    rw [e1]
    simp only [Option.bind_some]
    obtain ⟨o2, e2, l2, h2⟩ := forRange_fill (fun i => E (w - 1 - i)) (lo := w / 2 + 1) (hi := w) (n := w)
      (by omega) (by omega) o1 l1 (fun i cs =>
        (rd cs ((cs.length : Int) - 1 - i)).bind (fun c => wr cs i c)) (by
        intro i st hi1 hi hl hst
        have : rd st ((st.length : Int) - 1 - i) = some (E (w - 1 - i)) := by
          rw [hl, show (w : Int) - 1 - i = ((w - 1 - i : Nat) : Int) by omega, rd_natCast, hst,
            if_neg (by omega), h1, if_pos (by omega)]
        rw [this, Option.bind_some])
    rw [show ((w / 2 + 1 : Nat) : Int) = ((w / 2 : Nat) : Int) + 1 by push_cast; rfl] at e2
    rw [l1, e2]
    simp only [Option.bind_some]
    have g : ∀ i < w, o2.getD i 0 = if i ≤ w / 2 then E i else E (w - 1 - i) := by
      intro i hi
      rw [List.getD_eq_getElem?_getD, h2]
      by_cases c : i ≤ w / 2
      · rw [if_neg (by omega), h1, if_pos (by omega), if_pos c]; rfl
      · rw [if_pos (by omega), if_neg c]; rfl
    have pos : ∀ i < w, 0 < o2.getD i 0 := by
      intro i hi
      rw [g i hi]
      split
      · exact hexp _
      · exact hexp _
    have hsum : 0 < o2.sum := by
      apply List.sum_pos
      · intro x hx
        obtain ⟨i, hi⟩ := List.getElem?_of_mem hx
        have hil := (List.getElem?_eq_some_iff.mp hi).1
        rw [rd_getD hil] at hi
        rw [← Option.some.inj hi]
        exact pos i (by omega)
      · intro h; rw [h] at l2; simp at l2; omega
    refine ⟨_, rfl, normalize_smoothing hodd l2 ?_ hsum.ne' rfl, ?_⟩
    · intro i hi
      rw [g i hi, g (w - 1 - i) (by omega)]
      by_cases c : i ≤ w / 2
      · by_cases c' : w - 1 - i ≤ w / 2
        · have : w - 1 - i = i := by omega
          rw [if_pos c, if_pos c', this]
        · rw [if_pos c, if_neg c', show w - 1 - (w - 1 - i) = i by omega]
      · rw [if_neg c, if_pos (by omega)]
    · intro i hi
      simp only [normalize, foldl_sum, zero_add]
      rw [List.getD_eq_getElem?_getD, List.getElem?_map, rd_getD (show i < o2.length by omega)]
      exact div_pos (pos i hi) hsum
  · intro h
    unfold newGaussian
    rw [if_pos]
    intro e
    rcases h with h | h
    · have := tmod_neg_le h
      omega
    · have h2 : (2 : Int) ∣ width := Int.dvd_of_emod_eq_zero h
      rw [Int.tmod_eq_zero_of_dvd h2] at e
      omega

example : newGaussian (fun t => 1 / (1 + t * t)) 3 1 1 = some ⟨[4/13, 5/13, 4/13], 1⟩ := by
  decide +kernel

/-- C24: a kernel whose weights sum to one gives back a constant signal under constant extension. -/
theorem C24_constants (k : Kernel) (w : Nat) (h : Smoothing k w) (n : Nat) (hn : w ≤ n) (v : ℚ)
    (out : List ℚ) (ho : out.length = n) :
    k.convolveAt (List.replicate n v) .extension out = some (List.replicate n v) := by
  have hw := h.odd
  have hl := h.len
  rw [C23_zero_extension k (List.replicate n v) out .extension (w / 2) h.center (by omega) (by simpa using by omega)
    (by simpa using ho) (Or.inr rfl)]
  congr 1
  apply List.ext_getElem?
  intro i
  simp only [List.length_replicate]
  by_cases hi : i < n
  · rw [List.getElem?_map, List.getElem?_range hi, Option.map_some, List.getElem?_replicate, if_pos hi]
    congr 1
    unfold convSpec
    have ext : ∀ t : Int, extended .extension (List.replicate n v) t = v := by
      intro t
      have rep : ∀ m : Nat, m < n → (List.replicate n v).getD m 0 = v := by
        intro m hm
        rw [List.getD_eq_getElem?_getD, List.getElem?_replicate, if_pos hm]; rfl
      unfold extended
      simp only [List.length_replicate]
      split
      · exact rep _ (by omega)
      · split
        · exact rep 0 (by omega)
        · exact rep _ (by omega)
    simp only [ext]
    rw [← Finset.sum_mul]
    have : ∑ j ∈ Finset.range k.cs.length, k.cs.getD j 0 = k.cs.sum := by
      rw [Finset.sum_range, ← List.sum_ofFn]
      congr 1
      apply List.ext_getElem
      · simp
      · intro m h1 h2
        simp
    rw [this, h.sum, one_mul]
  · rw [List.getElem?_eq_none (by simpa using hi), List.getElem?_eq_none (by simpa using hi)]

example : Smoothing ⟨[1/4, 1/2, 1/4], 1⟩ 3 := by
  refine ⟨rfl, rfl, rfl, ?_, by norm_num⟩
  intro i hi
  rcases i with _ | _ | _ | i
  · rfl
  · rfl
  · rfl
  · omega

end Verif.Interp
