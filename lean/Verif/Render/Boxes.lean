import Verif.Render.Overlap

/-!
# Boxes, floors and subsampling: C51, C52, C54
-/

set_option autoImplicit false

namespace Verif.Render

open Verif.Go Verif.Geom

/-! ## C51 -/

/-- **C51**: every position of the requested region lies in a cell of the image. -/
theorem C51_covers (boxWidth : ℚ) (cells : ℤ) (hb : 0 < boxWidth) (hc : 0 < cells) (origin width p : Vec)
    (hp : ∀ j, origin j ≤ p j ∧ p j ≤ origin j + width j) (j : Fin 3) :
    (newBoxBounds boxWidth cells origin width).origin j ≤ ⌊p j / (boxWidth / cells)⌋ ∧
      ⌊p j / (boxWidth / cells)⌋ < (newBoxBounds boxWidth cells origin width).origin j +
        (newBoxBounds boxWidth cells origin width).width j := by
  have hcw : (0 : ℚ) < boxWidth / cells := div_pos hb (by exact_mod_cast hc)
  unfold newBoxBounds boxAxis
  dsimp only
  have h1 : ⌊origin j / (boxWidth / cells)⌋ ≤ ⌊p j / (boxWidth / cells)⌋ :=
    Int.floor_le_floor (div_le_div_of_nonneg_right (hp j).1 hcw.le)
  have h2 : ⌊p j / (boxWidth / cells)⌋ ≤ ⌊(width j + origin j) / (boxWidth / cells)⌋ :=
    Int.floor_le_floor (div_le_div_of_nonneg_right (by linarith [(hp j).2]) hcw.le)
  omega

/-- No cell of the image lies outside the requested region: the first and the last cell touch it. -/
theorem C51_tight (boxWidth : ℚ) (cells : ℤ) (origin width : Vec) (j : Fin 3) :
    (newBoxBounds boxWidth cells origin width).origin j = ⌊origin j / (boxWidth / cells)⌋ ∧
    (newBoxBounds boxWidth cells origin width).origin j + (newBoxBounds boxWidth cells origin width).width j - 1 =
      ⌊(origin j + width j) / (boxWidth / cells)⌋ := by
  unfold newBoxBounds boxAxis
  dsimp only
  rw [add_comm (width j)]
  exact ⟨rfl, by omega⟩

/-- Moving the box by one simulation box width moves its cells by `cells`: the periodic place does not change. -/
theorem C51_shift (boxWidth : ℚ) (cells : ℤ) (hb : 0 < boxWidth) (hc : 0 < cells) (origin width : Vec) (j : Fin 3) :
    (newBoxBounds boxWidth cells (fun i => origin i + boxWidth) width).origin j =
      (newBoxBounds boxWidth cells origin width).origin j + cells ∧
    (newBoxBounds boxWidth cells (fun i => origin i + boxWidth) width).width j =
      (newBoxBounds boxWidth cells origin width).width j := by
  have hc' : (cells : ℚ) ≠ 0 := by exact_mod_cast hc.ne'
  have e : ∀ a : ℚ, (a + boxWidth) / (boxWidth / cells) = a / (boxWidth / cells) + (cells : ℤ) := by
    intro a
    field_simp
  unfold newBoxBounds boxAxis
  dsimp only
  rw [← add_assoc, e, e, Int.floor_add_intCast, Int.floor_add_intCast]
  constructor
  · rfl
  · ring

example : newBoxBounds 100 50 ![3, 10, 98] ![5, 2, 4] = ⟨![1, 5, 49], ![4, 2, 3]⟩ := by
  unfold newBoxBounds
  congr 1 <;> funext j <;> fin_cases j <;> decide +kernel

/-- The image of the whole box always has `cells + 1` pixels per side. -/
theorem C51_whole_box (boxWidth : ℚ) (cells : ℤ) (hb : 0 < boxWidth) (hc : 0 < cells) (j : Fin 3) :
    (newBoxBounds boxWidth cells (fun _ => 0) (fun _ => boxWidth)).origin j = 0 ∧
    (newBoxBounds boxWidth cells (fun _ => 0) (fun _ => boxWidth)).width j = cells + 1 := by
  have hc' : (cells : ℚ) ≠ 0 := by exact_mod_cast hc.ne'
  have e : (boxWidth + 0) / (boxWidth / cells) = ((cells : ℤ) : ℚ) := by field_simp; ring
  unfold newBoxBounds boxAxis
  dsimp only
  rw [e, Int.floor_intCast, zero_div, Int.floor_zero]
  exact ⟨rfl, by ring⟩

/-- So the image of the whole box never has the total number of pixels per side. -/
theorem C51_whole_box_counterexample :
    ¬ ∀ (boxWidth : ℚ) (cells : ℤ), 0 < boxWidth → 0 < cells → ∀ j : Fin 3,
      (newBoxBounds boxWidth cells (fun _ => 0) (fun _ => boxWidth)).width j = cells := by
  intro h
  have h1 := h 1 1 one_pos one_pos 0
  rw [(C51_whole_box 1 1 one_pos one_pos 0).2] at h1
  omega

/-- A box strictly shorter than the simulation box by a cell fits: its image has at most `cells` pixels per side. -/
theorem C51_fits_partial (boxWidth : ℚ) (cells : ℤ) (hb : 0 < boxWidth) (hc : 0 < cells) (origin width : Vec)
    (hw : ∀ j, width j ≤ boxWidth - boxWidth / cells) (j : Fin 3) :
    (newBoxBounds boxWidth cells origin width).width j ≤ cells := by
  have hc' : (0 : ℚ) < cells := by exact_mod_cast hc
  have hcw : (0 : ℚ) < boxWidth / cells := div_pos hb hc'
  unfold newBoxBounds boxAxis
  dsimp only
  have h1 : (width j + origin j) / (boxWidth / cells) ≤ origin j / (boxWidth / cells) + ((cells - 1 : ℤ) : ℚ) := by
    rw [div_le_iff₀ hcw, add_mul, div_mul_cancel₀ _ hcw.ne']
    push_cast
    have : (((cells : ℚ) - 1) * (boxWidth / cells)) = boxWidth - boxWidth / cells := by field_simp
    rw [this]
    linarith [hw j]
  have h2 := Int.floor_le_floor h1
  rw [Int.floor_add_intCast] at h2
  omega

example : ∀ j : Fin 3, (![98, 97, 1] : Vec) j ≤ 100 - 100 / (50 : ℤ) := by
  intro j; fin_cases j <;> norm_num

/-! ## C52 -/

/-- Exactly where the renderer's floor is right: everywhere except at zero and at negative whole numbers, where it is
one too small. -/
theorem C52_intFloor_partial (x : ℚ) :
    (intFloor x = ⌊x⌋ ↔ ¬ (x ≤ 0 ∧ ∃ n : ℤ, x = n)) ∧ ((x ≤ 0 ∧ ∃ n : ℤ, x = n) → intFloor x = ⌊x⌋ - 1) := by
  have hwrong : (x ≤ 0 ∧ ∃ n : ℤ, x = n) → intFloor x = ⌊x⌋ - 1 := by
    rintro ⟨h0, n, rfl⟩
    unfold intFloor
    rw [if_neg (not_lt.mpr h0), Int.floor_intCast, show ((n : ℚ) - 1) = ((n - 1 : ℤ) : ℚ) by push_cast; ring,
      trunc_intCast]
  refine ⟨⟨fun h hx => by have := hwrong hx; omega, fun h => ?_⟩, hwrong⟩
  by_cases h0 : 0 < x
  · exact intFloor_of_pos h0
  · unfold intFloor
    rw [if_neg h0]
    have hn : ¬ ∃ n : ℤ, x = n := fun hn => h ⟨not_lt.mp h0, hn⟩
    unfold trunc
    rw [if_neg (by linarith)]
    rw [show x - 1 = x + ((-1 : ℤ) : ℚ) by push_cast; ring, Int.ceil_add_intCast]
    have h1 := Int.floor_le x
    have h2 := Int.lt_floor_add_one x
    have hne : (⌊x⌋ : ℚ) ≠ x := fun e => hn ⟨⌊x⌋, e.symm⟩
    have : ⌈x⌉ = ⌊x⌋ + 1 := by
      rw [Int.ceil_eq_iff]
      push_cast
      exact ⟨by linarith [lt_of_le_of_ne h1 hne], h2.le⟩
    omega

example : intFloor (5/2) = 2 ∧ intFloor 3 = 3 ∧ intFloor (-5/2) = -3 ∧ intFloor 0 = -1 ∧ intFloor (-2) = -3 := by
  decide +kernel

theorem C52_intFloor_counterexample : ¬ ∀ x : ℚ, intFloor x = ⌊x⌋ := by
  intro h
  have h1 := ((C52_intFloor_partial 0).1.mp (h 0))
  exact h1 ⟨le_rfl, 0, by simp⟩

/-! ## C54 -/

theorem isPowTwo_iff (x : ℤ) : isPowTwo x = true ↔ ∃ k : ℕ, x = 2 ^ k := by
  induction hx : x.toNat using Nat.strong_induction_on generalizing x with
  | _ n ih =>
    rw [isPowTwo]
    split_ifs with h
    · rw [ih (x / 2).toNat (by omega) (x / 2) rfl]
      constructor
      · rintro ⟨k, hk⟩
        refine ⟨k + 1, ?_⟩
        rw [pow_succ, ← hk]
        omega
      · rintro ⟨k, rfl⟩
        cases k with
        | zero => simp at h
        | succ k => exact ⟨k, by rw [pow_succ]; omega⟩
    · rw [decide_eq_true_iff]
      constructor
      · rintro rfl; exact ⟨0, rfl⟩
      · rintro ⟨k, rfl⟩
        cases k with
        | zero => rfl
        | succ k =>
          exfalso
          apply h
          rw [pow_succ]
          have : (0 : ℤ) < 2 ^ k := by positivity
          omega

/-- The settings reached by a sequence of accepted calls, starting from the initial value 1
(render/render.go 70, render/hist.go 80). -/
def subsampleAll (calls : List ℤ) : Option ℤ := calls.foldlM subsample 1

/-- What `Subsample` really checks: the value set by the previous call. A sequence of calls is accepted iff every
argument but the last is a power of two; the last is never checked. -/
theorem C54_subsample_partial (calls : List ℤ) (last : ℤ) :
    subsampleAll (calls ++ [last]) = some last ↔ ∀ c ∈ calls, ∃ k : ℕ, c = 2 ^ k := by
  have gen : ∀ (cs : List ℤ) (s : ℤ), (∃ k : ℕ, s = 2 ^ k) →
      ((cs ++ [last]).foldlM subsample s = some last ↔ ∀ c ∈ cs, ∃ k : ℕ, c = 2 ^ k) := by
    intro cs
    induction cs with
    | nil =>
      intro s hs
      have : isPowTwo s = true := (isPowTwo_iff s).mpr hs
      simp [subsample, this]
    | cons c cs ih =>
      intro s hs
      have h1 : isPowTwo s = true := (isPowTwo_iff s).mpr hs
      rw [List.cons_append, List.foldlM_cons]
      have e : subsample s c = some c := by simp [subsample, h1]
      rw [e]
      change (cs ++ [last]).foldlM subsample c = some last ↔ _
      by_cases hc : ∃ k : ℕ, c = 2 ^ k
      · rw [ih c hc]
        simp [hc]
      · constructor
        · intro h
          exfalso
          have : isPowTwo c = false := by
            rw [← Bool.not_eq_true]; exact fun h => hc ((isPowTwo_iff c).mp h)
          have hn : ∀ a, subsample c a = none := fun a => by simp [subsample, this]
          cases cs with
          | nil => simp [hn] at h
          | cons d ds => simp [List.foldlM_cons, hn] at h
        · intro h
          exact absurd (h c (by simp)) hc
  exact gen calls 1 ⟨0, rfl⟩

example : subsampleAll [2, 4, 3] = some 3 ∧ subsampleAll [3, 4] = none := by
  constructor <;> decide +kernel

/-- A single call accepts 3, which is not a power of two; and then rejects 4, which is. -/
theorem C54_counterexample :
    subsampleAll [3] = some 3 ∧ (¬ ∃ k : ℕ, (3 : ℤ) = 2 ^ k) ∧ subsampleAll [3, 4] = none ∧ ∃ k : ℕ, (4 : ℤ) = 2 ^ k := by
  refine ⟨by decide +kernel, ?_, by decide +kernel, 2, by norm_num⟩
  rw [← isPowTwo_iff]
  decide +kernel

end Verif.Render
