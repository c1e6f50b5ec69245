import Verif.Render.Model
import Mathlib.Algebra.BigOperators.Intervals
import Mathlib.Algebra.BigOperators.Ring.Finset
import Mathlib.Order.Interval.Finset.Basic
import Mathlib.Data.Int.Interval
import Mathlib.Tactic.Ring
import Mathlib.Tactic.Linarith

/-!
# Programs that add to the cells of a slice

`Adds n body G`: on every slice of length `n` the program `body` succeeds and adds `G i` to cell `i`.
-/

set_option autoImplicit false

namespace Verif.Render

open Verif.Go

variable {M : Type} [AddCommMonoid M]

/-- A slice of length `n` with contents `F`. -/
def Cells (n : ℤ) (xs : List M) (F : ℤ → M) : Prop :=
  (xs.length : ℤ) = n ∧ ∀ i, 0 ≤ i → i < n → rd xs i = some (F i)

/-- The program adds `G i` to cell `i` of every slice of length `n`. -/
def Adds (n : ℤ) (body : List M → Option (List M)) (G : ℤ → M) : Prop :=
  ∀ xs F, Cells n xs F → ∃ ys, body xs = some ys ∧ Cells n ys (fun i => F i + G i)

theorem cells_self (xs : List M) : Cells xs.length xs (fun i => xs.getD i.toNat 0) := by
  refine ⟨rfl, fun i h0 h1 => ?_⟩
  obtain ⟨k, rfl⟩ := Int.eq_ofNat_of_zero_le h0
  rw [rd_natCast]
  simp only [List.getD, Int.toNat_natCast]
  rw [List.getElem?_eq_getElem (by omega)]
  rfl

/-- What `Adds` says about a slice. -/
theorem Adds.run {n : ℤ} {body : List M → Option (List M)} {G : ℤ → M} (h : Adds n body G) (xs : List M)
    (hn : (xs.length : ℤ) = n) :
    ∃ ys, body xs = some ys ∧ ys.length = xs.length ∧
      ∀ i v, 0 ≤ i → i < n → rd xs i = some v → rd ys i = some (v + G i) := by
  subst hn
  obtain ⟨ys, e, hl, hy⟩ := h xs _ (cells_self xs)
  refine ⟨ys, e, by omega, fun i v h0 h1 hv => ?_⟩
  rw [hy i h0 h1]
  have := (cells_self xs).2 i h0 h1
  rw [hv] at this
  rw [Option.some.inj this]

theorem adds_congr {n : ℤ} {body : List M → Option (List M)} {G G' : ℤ → M} (h : Adds n body G)
    (e : ∀ i, 0 ≤ i → i < n → G i = G' i) : Adds n body G' := by
  intro xs F hF
  obtain ⟨ys, e1, hl, hy⟩ := h xs F hF
  exact ⟨ys, e1, hl, fun i h0 h1 => by rw [hy i h0 h1]; beta_reduce; rw [e i h0 h1]⟩

theorem adds_skip (n : ℤ) : Adds (M := M) n some (fun _ => 0) := by
  intro xs F hF
  exact ⟨xs, rfl, by simpa using hF⟩

theorem adds_accum {n i : ℤ} (h0 : 0 ≤ i) (h1 : i < n) (v : M) :
    Adds n (fun xs => accum xs i v) (fun j => if j = i then v else 0) := by
  intro xs F hF
  have hi : i < xs.length := by rw [hF.1]; exact h1
  refine ⟨xs.set i.toNat (F i + v), ?_, ?_, ?_⟩
  · unfold accum
    exact bind_of (hF.2 i h0 h1) (wr_of_lt h0 hi)
  · rw [List.length_set]; exact hF.1
  · intro j hj0 hj1
    beta_reduce
    rw [rd_set _ _ _ _ (by omega)]
    by_cases e : j = i
    · subst e
      rw [if_pos (by omega), if_pos rfl]
    · rw [if_neg (by omega), if_neg e, add_zero, hF.2 j hj0 hj1]

theorem adds_accum_if {n i : ℤ} {c : Prop} [Decidable c] (h : c → 0 ≤ i ∧ i < n) (v : M) :
    Adds n (fun xs => if c then accum xs i v else some xs) (fun j => if c ∧ j = i then v else 0) := by
  by_cases hc : c
  · simp only [if_pos hc]
    exact adds_congr (adds_accum (h hc).1 (h hc).2 v) (fun j _ _ => by simp [hc])
  · simp only [if_neg hc]
    exact adds_congr (adds_skip n) (fun j _ _ => by simp [hc])

theorem adds_forRange {n lo hi : ℤ} {body : ℤ → List M → Option (List M)} {G : ℤ → ℤ → M}
    (h : ∀ k, lo ≤ k → k < hi → Adds n (body k) (G k)) :
    Adds n (forRange lo hi body) (fun i => ∑ k ∈ Finset.Ico lo hi, G k i) := by
  intro xs F hF
  by_cases hle : lo ≤ hi
  · obtain ⟨s, e, hs⟩ := forRange_spec (fun k ys => Cells n ys (fun i => F i + ∑ k ∈ Finset.Ico lo k, G k i)) hle
      body xs (by simpa using hF) (by
        intro k ys h1 h2 hys
        obtain ⟨zs, e, hz⟩ := h k h1 h2 ys _ hys
        refine ⟨zs, e, hz.1, fun i h0 h3 => ?_⟩
        rw [hz.2 i h0 h3]
        beta_reduce
        have : Finset.Ico lo (k + 1) = insert k (Finset.Ico lo k) := by
          ext a; simp only [Finset.mem_insert, Finset.mem_Ico]; omega
        rw [this, Finset.sum_insert (by simp), add_comm (G k i), add_assoc])
    exact ⟨s, e, hs⟩
  · rw [forRange_empty (by omega)]
    refine ⟨xs, rfl, hF.1, fun i h0 h1 => ?_⟩
    beta_reduce
    rw [Finset.Ico_eq_empty (by omega), Finset.sum_empty, add_zero, hF.2 i h0 h1]

/-- Numbers visited by `for i := lo; i < hi; i += jump`. -/
def visited (lo hi jump : ℤ) : Finset ℤ := (Finset.Ico lo hi).filter fun i => jump ∣ i - lo

theorem mem_visited {lo hi jump i : ℤ} : i ∈ visited lo hi jump ↔ (lo ≤ i ∧ i < hi) ∧ jump ∣ i - lo := by
  unfold visited
  rw [Finset.mem_filter, Finset.mem_Ico]

theorem count_lt {lo hi jump k : ℤ} (hj : 0 < jump) : k < (hi - lo + jump - 1) / jump ↔ lo + k * jump < hi := by
  rw [Int.lt_iff_add_one_le, Int.le_ediv_iff_mul_le hj, add_mul, one_mul]
  omega

theorem sum_visited {lo hi jump : ℤ} (hj : 0 < jump) (f : ℤ → M) :
    ∑ k ∈ Finset.Ico 0 ((hi - lo + jump - 1) / jump), f (lo + k * jump) = ∑ i ∈ visited lo hi jump, f i := by
  refine Finset.sum_bij (fun k _ => lo + k * jump) ?_ ?_ ?_ ?_
  · intro k hk
    rw [Finset.mem_Ico, count_lt hj] at hk
    rw [mem_visited]
    have := mul_nonneg hk.1 hj.le
    exact ⟨⟨by omega, hk.2⟩, ⟨k, by ring⟩⟩
  · intro a _ b _ e
    have : a * jump = b * jump := by linarith
    exact mul_right_cancel₀ hj.ne' this
  · intro i hi'
    rw [mem_visited] at hi'
    obtain ⟨⟨h1, h2⟩, k, hk⟩ := hi'
    refine ⟨k, ?_, by rw [mul_comm]; omega⟩
    rw [Finset.mem_Ico, count_lt hj]
    constructor
    · by_contra hneg
      have : jump * k < 0 := mul_neg_of_pos_of_neg hj (by omega)
      omega
    · rw [mul_comm]; omega
  · intros; rfl

theorem adds_forStep {n lo hi jump : ℤ} (hj : 0 < jump) {body : ℤ → List M → Option (List M)} {G : ℤ → ℤ → M}
    (h : ∀ k ∈ visited lo hi jump, Adds n (body k) (G k)) :
    Adds n (forStep lo hi jump body) (fun i => ∑ k ∈ visited lo hi jump, G k i) := by
  unfold forStep
  refine adds_congr (adds_forRange (G := fun k => G (lo + k * jump)) ?_) ?_
  · intro k h0 h1
    refine h _ ?_
    rw [count_lt hj] at h1
    rw [mem_visited]
    have := mul_nonneg h0 hj.le
    exact ⟨⟨by omega, h1⟩, ⟨k, by ring⟩⟩
  · intro i _ _
    exact sum_visited hj (fun k => G k i)

/-- The sum of all cells. -/
theorem sum_cells {n : ℤ} {xs : List M} {F : ℤ → M} (h : Cells n xs F) : xs.sum = ∑ i ∈ Finset.Ico 0 n, F i := by
  induction xs generalizing n F with
  | nil => obtain ⟨rfl, _⟩ := h; simp
  | cons a xs ih =>
    obtain ⟨hl, hF⟩ := h
    have hl' : (xs.length : ℤ) = n - 1 := by simp at hl; omega
    have h0 : F 0 = a := by
      have := hF 0 le_rfl (by omega)
      rw [show (0 : ℤ) = ((0 : ℕ) : ℤ) from rfl, rd_natCast] at this
      exact (Option.some.inj this).symm
    have : xs.sum = ∑ i ∈ Finset.Ico 0 (n - 1), F (i + 1) := by
      refine ih ⟨hl', fun i hi0 hi1 => ?_⟩
      have := hF (i + 1) (by omega) (by omega)
      obtain ⟨k, rfl⟩ := Int.eq_ofNat_of_zero_le hi0
      rw [show ((k : ℤ) + 1) = ((k + 1 : ℕ) : ℤ) by push_cast; rfl, rd_natCast] at this
      rw [show ((k + 1 : ℕ) : ℤ) = (k : ℤ) + 1 by push_cast; rfl] at this
      rw [rd_natCast]
      simpa using this
    rw [List.sum_cons, this, ← h0]
    have e : Finset.Ico 0 n = insert 0 ((Finset.Ico 0 (n - 1)).image (· + 1)) := by
      ext i
      simp only [Finset.mem_insert, Finset.mem_image, Finset.mem_Ico]
      constructor
      · intro hi
        by_cases h : i = 0
        · exact Or.inl h
        · exact Or.inr ⟨i - 1, by omega, by omega⟩
      · rintro (h | ⟨j, h1, h2⟩) <;> omega
    rw [e, Finset.sum_insert (by simp), Finset.sum_image (by simp)]

/-- The total added. -/
theorem Adds.sum {n : ℤ} {body : List M → Option (List M)} {G : ℤ → M} (h : Adds n body G) {xs ys : List M}
    (hn : (xs.length : ℤ) = n) (e : body xs = some ys) : ys.sum = xs.sum + ∑ i ∈ Finset.Ico 0 n, G i := by
  subst hn
  obtain ⟨zs, e', hz⟩ := h xs _ (cells_self xs)
  rw [e] at e'
  obtain rfl := Option.some.inj e'
  rw [sum_cells hz, sum_cells (cells_self xs), Finset.sum_add_distrib]

/-- A zero slice. -/
theorem cells_zero (k : ℕ) : Cells k (List.replicate k (0 : M)) (fun _ => 0) := by
  refine ⟨by simp, fun i h0 h1 => ?_⟩
  obtain ⟨j, rfl⟩ := Int.eq_ofNat_of_zero_le h0
  rw [rd_natCast, List.getElem?_replicate_of_lt (by omega)]

end Verif.Render
