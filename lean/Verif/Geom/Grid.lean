import Verif.Geom.Model
import Mathlib.LinearAlgebra.CrossProduct
import Mathlib.Tactic.LinearCombination
import Mathlib.Tactic.FieldSimp
import Mathlib.Tactic.FinCases
import Mathlib.Tactic.NormNum
import Mathlib.Tactic.Positivity

/-! Vectors and grids: properties C31, C32, C33, C34 and C42. -/

set_option autoImplicit false

namespace Verif.Geom

open Verif.Go

/-! ## Specification -/

/-- Two coordinates name the same position on an axis of period `w`. -/
def SamePos (w x y : ℚ) : Prop := ∃ k : ℤ, y = x + k * w

/-- Two cell numbers name the same cell on an axis of `n` cells. -/
def SameCell (n a b : ℤ) : Prop := ∃ k : ℤ, b = a + k * n

/-- The cell `c` lies in the box with the given origin and width. -/
def InBox (cb : CellBounds) (c : IVec) : Prop := ∀ i, cb.origin i ≤ c i ∧ c i < cb.origin i + cb.width i

theorem SamePos.refl (w x : ℚ) : SamePos w x x := ⟨0, by simp⟩

theorem SamePos.trans {w x y z : ℚ} (h1 : SamePos w x y) (h2 : SamePos w y z) : SamePos w x z := by
  obtain ⟨k, rfl⟩ := h1
  obtain ⟨l, rfl⟩ := h2
  exact ⟨k + l, by push_cast; ring⟩

/-! ## C31 -/

theorem modC_same (w x : ℚ) : SamePos w x (modC w x) := by
  unfold modC
  split
  · exact ⟨-1, by push_cast; ring⟩
  · split
    · exact ⟨1, by push_cast; ring⟩
    · exact SamePos.refl _ _

/-- `Mod` puts every coordinate of `[-w, 2w)` into `[0, w)` without changing its periodic position. -/
theorem C31_mod (v : Vec) (w : ℚ) (h : ∀ i, -w ≤ v i ∧ v i < 2 * w) (i : Fin 3) :
    0 ≤ v.mod w i ∧ v.mod w i < w ∧ SamePos w (v i) (v.mod w i) := by
  obtain ⟨h1, h2⟩ := h i
  refine ⟨?_, ?_, modC_same _ _⟩
  all_goals
    unfold Vec.mod modC
    split
    · linarith
    · split <;> linarith

example : ∃ (v : Vec) (w : ℚ), (∀ i, -w ≤ v i ∧ v i < 2 * w) ∧ v.mod w = ![9, 1, 5] ∧ v = ![-1, 11, 5] := by
  refine ⟨![-1, 11, 5], 10, ?_, ?_, rfl⟩
  · intro i; fin_cases i <;> simp <;> norm_num
  · funext i; fin_cases i <;> simp [Vec.mod, modC] <;> norm_num

/-- Positions in the box are left alone by `Mod`, so `Mod` is idempotent there. -/
theorem C31_mod_fixes (v : Vec) (w : ℚ) (h : ∀ i, 0 ≤ v i ∧ v i < w) : v.mod w = v := by
  funext i
  obtain ⟨h1, h2⟩ := h i
  unfold Vec.mod modC
  rw [if_neg (by linarith), if_neg (by linarith)]

example : (∀ i, 0 ≤ (![0, 9, 5] : Vec) i ∧ (![0, 9, 5] : Vec) i < 10) := by
  intro i; fin_cases i <;> simp <;> norm_num

theorem subFold1_same (w x : ℚ) : SamePos w x (subFold1 w x) := by
  unfold subFold1
  split
  · exact ⟨1, by push_cast; ring⟩
  · split
    · exact ⟨-1, by push_cast; ring⟩
    · exact SamePos.refl _ _

theorem subFold2_same (w x : ℚ) : SamePos w x (subFold2 w x) := by
  unfold subFold2
  dsimp only
  split
  · exact ⟨-1, by push_cast; ring⟩
  · split
    · exact ⟨1, by push_cast; ring⟩
    · exact SamePos.refl _ _

/-- `Sub` returns an equivalent displacement of at most half a period along each axis, and no equivalent
displacement is shorter along that axis. The hypothesis covers all pairs of positions in the box and more:
differences up to two periods. -/
theorem C31_sub (v1 v2 : Vec) (w : ℚ) (hw : 0 < w) (h : ∀ i, -2 * w ≤ v1 i - v2 i ∧ v1 i - v2 i < 2 * w)
    (i : Fin 3) :
    SamePos w (v1 i - v2 i) (v1.sub v2 w i) ∧ |v1.sub v2 w i| ≤ w / 2 ∧
      ∀ d, SamePos w (v1 i - v2 i) d → |v1.sub v2 w i| ≤ |d| := by
  have hs : SamePos w (v1 i - v2 i) (v1.sub v2 w i) :=
    (subFold1_same _ _).trans (subFold2_same _ _)
  have hb : |v1.sub v2 w i| ≤ w / 2 := by
    obtain ⟨h1, h2⟩ := h i
    unfold Vec.sub
    set x := v1 i - v2 i
    have hf : -w ≤ subFold1 w x ∧ subFold1 w x ≤ w := by
      unfold subFold1
      split
      · constructor <;> linarith
      · split <;> constructor <;> linarith
    generalize subFold1 w x = y at hf
    obtain ⟨h3, h4⟩ := hf
    unfold subFold2
    dsimp only
    rw [abs_le]
    split
    · constructor <;> linarith
    · split <;> constructor <;> linarith
  refine ⟨hs, hb, ?_⟩
  intro d hd
  obtain ⟨k, e1⟩ := hs
  obtain ⟨l, e2⟩ := hd
  generalize v1.sub v2 w i = y at *
  have e : d = y + ((l - k : ℤ) : ℚ) * w := by push_cast; rw [e2, e1]; ring
  generalize l - k = m at e
  rcases lt_trichotomy m 0 with hm | hm | hm
  · have : (m : ℚ) ≤ -1 := by exact_mod_cast (by omega : m ≤ -1)
    have : (m : ℚ) * w ≤ -w := by nlinarith
    rw [abs_le] at hb
    have : d ≤ -(w / 2) := by rw [e]; linarith
    rw [abs_of_nonpos (by linarith : d ≤ 0), abs_le]
    constructor <;> linarith
  · subst hm; simp at e; rw [e]
  · have : (1 : ℚ) ≤ m := by exact_mod_cast (by omega : 1 ≤ m)
    have : w ≤ (m : ℚ) * w := by nlinarith
    rw [abs_le] at hb
    have : w / 2 ≤ d := by rw [e]; linarith
    rw [abs_of_nonneg (by linarith : 0 ≤ d), abs_le]
    constructor <;> linarith

example : (∀ i, -2 * (10 : ℚ) ≤ (![9, 1, 5] : Vec) i - (![1, 9, 5] : Vec) i ∧
      (![9, 1, 5] : Vec) i - (![1, 9, 5] : Vec) i < 2 * 10) ∧
    Vec.sub ![9, 1, 5] ![1, 9, 5] 10 = ![-2, 2, 0] := by
  constructor
  · intro i; fin_cases i <;> simp <;> norm_num
  · funext i; fin_cases i <;> simp [Vec.sub, subFold1, subFold2] <;> norm_num

/-- Swapping the arguments of `Sub` negates the displacement. -/
theorem C31_sub_antisymm (v1 v2 : Vec) (w : ℚ)
    (h1 : ∀ i, 0 ≤ v1 i ∧ v1 i < w) (h2 : ∀ i, 0 ≤ v2 i ∧ v2 i < w) (i : Fin 3) :
    v2.sub v1 w i = -(v1.sub v2 w i) := by
  obtain ⟨a1, a2⟩ := h1 i
  obtain ⟨b1, b2⟩ := h2 i
  have e : ∀ x, -w < x → x < w → subFold1 w x = x := by
    intro x hx hx2
    unfold subFold1
    rw [if_neg (by linarith), if_neg (by linarith)]
  unfold Vec.sub
  rw [e _ (by linarith) (by linarith), e _ (by linarith) (by linarith)]
  unfold subFold2
  dsimp only
  split_ifs <;> linarith

example : Vec.sub ![1, 9, 0] ![9, 1, 5] 10 = ![2, -2, -5] ∧ Vec.sub ![9, 1, 5] ![1, 9, 0] 10 = ![-2, 2, 5] := by
  constructor <;> funext i <;> fin_cases i <;> simp [Vec.sub, subFold1, subFold2] <;> norm_num

/-! ## C32 -/

/-- What `a.Cross(b)` computes: the cross product with its arguments exchanged. -/
theorem C32_cross_partial (a b : Vec) :
    a.cross b = crossProduct b a ∧ a.dot (a.cross b) = 0 ∧ b.dot (a.cross b) = 0 ∧
      b.cross a = fun i => -(a.cross b i) := by
  refine ⟨?_, ?_, ?_, ?_⟩
  · rw [cross_apply]; unfold Vec.cross; rfl
  · simp [Vec.dot, Vec.cross]; ring
  · simp [Vec.dot, Vec.cross]; ring
  · funext i; fin_cases i <;> simp [Vec.cross] <;> ring

/-- The statement that `Cross` is right-handed is false: `e1.Cross(e2) = -e3`. -/
theorem C32_cross_counterexample :
    ¬ (∀ a b : Vec, a.cross b = crossProduct a b) ∧ Vec.cross ![1, 0, 0] ![0, 1, 0] = ![0, 0, -1] := by
  have h : Vec.cross ![1, 0, 0] ![0, 1, 0] = ![0, 0, -1] := by
    funext i; fin_cases i <;> simp [Vec.cross]
  refine ⟨fun hc => ?_, h⟩
  have := hc ![1, 0, 0] ![0, 1, 0]
  rw [h] at this
  have := congrFun this 2
  simp [cross_apply] at this
  norm_num at this

/-- The length of the product is right whatever the order: Lagrange's identity. -/
theorem C32_cross_norm (a b : Vec) :
    (a.cross b).dot (a.cross b) = a.dot a * b.dot b - a.dot b * a.dot b := by
  simp [Vec.dot, Vec.cross]; ring

example : Vec.cross ![1, 2, 2] ![2, 1, -2] ≠ 0 := by
  intro h
  have := congrFun h 0
  simp [Vec.cross] at this
  norm_num at this

/-! ## C33 -/

theorem boundsCheck_iff (o w : IVec) (x y z : ℤ) :
    (newGrid o w).boundsCheck x y z = true ↔ InBox (newGrid o w).toCellBounds ![x, y, z] := by
  unfold Grid.boundsCheck InBox newGrid
  simp only [Bool.and_eq_true, decide_eq_true_eq, Fin.forall_fin_succ, Matrix.cons_val_zero]
  constructor
  · rintro ⟨⟨⟨h1, h2⟩, h3⟩, ⟨h4, h5⟩, h6⟩
    exact ⟨⟨h1, h4⟩, ⟨h2, h5⟩, ⟨h3, h6⟩, fun i => i.elim0⟩
  · rintro ⟨⟨h1, h4⟩, ⟨h2, h5⟩, ⟨h3, h6⟩, _⟩
    exact ⟨⟨⟨h1, h2⟩, h3⟩, ⟨h4, h5⟩, h6⟩

/-- `IdxCheck` accepts exactly the cells of the grid, and then returns `Idx`. -/
theorem C33_idxCheck (o w : IVec) (x y z : ℤ) :
    ((newGrid o w).idxCheck x y z).2 = true ↔ ∀ i, o i ≤ (![x, y, z] : IVec) i ∧
      (![x, y, z] : IVec) i < o i + w i := by
  unfold Grid.idxCheck
  have := boundsCheck_iff o w x y z
  unfold InBox at this
  rw [show (newGrid o w).toCellBounds.origin = o from rfl,
    show (newGrid o w).toCellBounds.width = w from rfl] at this
  rw [← this]
  cases (newGrid o w).boundsCheck x y z <;> simp

theorem C33_idxCheck_value (o w : IVec) (x y z : ℤ) (h : ((newGrid o w).idxCheck x y z).2 = true) :
    ((newGrid o w).idxCheck x y z).1 = (newGrid o w).idx x y z := by
  unfold Grid.idxCheck at *
  cases hb : (newGrid o w).boundsCheck x y z <;> simp [hb] at *

example : ((newGrid ![1, 2, 3] ![4, 5, 6]).idxCheck 2 3 4).2 = true ∧
    ((newGrid ![1, 2, 3] ![4, 5, 6]).idxCheck 2 3 4).1 = 25 ∧
    ((newGrid ![1, 2, 3] ![4, 5, 6]).idxCheck 5 3 4).2 = false := by decide +kernel

/-- Cells of the grid get indices `0 .. Volume-1`. -/
theorem C33_idx_range (o w : IVec) (x y z : ℤ)
    (h : ∀ i, o i ≤ (![x, y, z] : IVec) i ∧ (![x, y, z] : IVec) i < o i + w i) :
    0 ≤ (newGrid o w).idx x y z ∧ (newGrid o w).idx x y z < (newGrid o w).volume := by
  have h0 := h 0
  have h1 := h 1
  have h2 := h 2
  simp at h0 h1 h2
  unfold Grid.idx newGrid
  simp only
  obtain ⟨a, ha⟩ := Int.eq_ofNat_of_zero_le (by omega : 0 ≤ x - o 0)
  obtain ⟨b, hb⟩ := Int.eq_ofNat_of_zero_le (by omega : 0 ≤ y - o 1)
  obtain ⟨c, hc⟩ := Int.eq_ofNat_of_zero_le (by omega : 0 ≤ z - o 2)
  have ha' : (a : ℤ) ≤ w 0 - 1 := by omega
  have hb' : (b : ℤ) ≤ w 1 - 1 := by omega
  have hc' : (c : ℤ) ≤ w 2 - 1 := by omega
  rw [ha, hb, hc]
  have hw0 : 0 ≤ w 0 := by omega
  have hw1 : 0 ≤ w 1 := by omega
  have p1 : (b : ℤ) * w 0 ≤ (w 1 - 1) * w 0 := mul_le_mul_of_nonneg_right hb' hw0
  have p2 : (c : ℤ) * (w 0 * w 1) ≤ (w 2 - 1) * (w 0 * w 1) :=
    mul_le_mul_of_nonneg_right hc' (mul_nonneg hw0 hw1)
  constructor
  · positivity
  · nlinarith

/-- Every index `0 .. Volume-1` belongs to exactly one cell of the grid: `Idx` is a bijection. -/
theorem C33_idx_bijective (o w : IVec) (hw : ∀ i, 0 ≤ w i) (n : ℤ) (h0 : 0 ≤ n)
    (h1 : n < (newGrid o w).volume) :
    ∃! p : ℤ × ℤ × ℤ, (∀ i, o i ≤ (![p.1, p.2.1, p.2.2] : IVec) i ∧
      (![p.1, p.2.1, p.2.2] : IVec) i < o i + w i) ∧ (newGrid o w).idx p.1 p.2.1 p.2.2 = n := by
  have hw0 := hw 0
  have hw1 := hw 1
  have hw2 := hw 2
  simp only [newGrid] at h1
  have hp0 : 0 < w 0 := by
    rcases lt_or_eq_of_le hw0 with h | h
    · exact h
    · rw [← h] at h1; simp at h1; omega
  have hp1 : 0 < w 1 := by
    rcases lt_or_eq_of_le hw1 with h | h
    · exact h
    · rw [← h] at h1; simp at h1; omega
  have hA : 0 < w 0 * w 1 := mul_pos hp0 hp1
  refine ⟨(o 0 + n % w 0, o 1 + n % (w 0 * w 1) / w 0, o 2 + n / (w 0 * w 1)), ⟨?_, ?_⟩, ?_⟩
  · have a1 := Int.emod_nonneg n hp0.ne'
    have a2 := Int.emod_lt_of_pos n hp0
    have b1 := Int.emod_nonneg n hA.ne'
    have b2 := Int.emod_lt_of_pos n hA
    have b3 := Int.ediv_nonneg b1 hp0.le
    have b4 : n % (w 0 * w 1) / w 0 < w 1 := Int.ediv_lt_of_lt_mul hp0 (by rw [mul_comm (w 1)]; exact b2)
    have c1 := Int.ediv_nonneg h0 hA.le
    have c2 : n / (w 0 * w 1) < w 2 := Int.ediv_lt_of_lt_mul hA (by rw [mul_comm (w 2)]; exact h1)
    intro i
    fin_cases i <;> simp <;> constructor <;> omega
  · simp only [Grid.idx, newGrid]
    have e1 : n % (w 0 * w 1) % w 0 = n % w 0 := Int.emod_emod_of_dvd n ⟨w 1, rfl⟩
    have e2 := Int.emod_add_mul_ediv (n % (w 0 * w 1)) (w 0)
    have e3 := Int.emod_add_mul_ediv n (w 0 * w 1)
    rw [e1] at e2
    linear_combination e2 + e3
  · rintro ⟨x, y, z⟩ ⟨hb, he⟩
    have k0 := hb 0
    have k1 := hb 1
    have k2 := hb 2
    simp at k0 k1 k2
    simp only [Grid.idx, newGrid] at he
    have hm : (x - o 0 + (y - o 1) * w 0) / (w 0 * w 1) = 0 := by
      refine Int.ediv_eq_zero_of_lt ?_ ?_
      · have : 0 ≤ (y - o 1) * w 0 := mul_nonneg (by omega) hp0.le
        omega
      · have : (y - o 1) * w 0 ≤ (w 1 - 1) * w 0 := mul_le_mul_of_nonneg_right (by omega) hp0.le
        nlinarith
    have q1 : n / (w 0 * w 1) = z - o 2 := by
      rw [← he, Int.add_mul_ediv_right _ _ hA.ne', hm, zero_add]
    have q2 : n % (w 0 * w 1) = x - o 0 + (y - o 1) * w 0 := by
      have := Int.emod_add_mul_ediv n (w 0 * w 1)
      rw [q1] at this
      linear_combination this - he
    have q3 : n % (w 0 * w 1) / w 0 = y - o 1 := by
      rw [q2, Int.add_mul_ediv_right _ _ hp0.ne',
        Int.ediv_eq_zero_of_lt (by omega) (by omega), zero_add]
    have q4 : n % w 0 = x - o 0 := by
      rw [← Int.emod_emod_of_dvd n (⟨w 1, rfl⟩ : w 0 ∣ w 0 * w 1), q2, Int.add_mul_emod_self_right]
      exact Int.emod_eq_of_lt (by omega) (by omega)
    rw [q1, q3, q4]
    simp only [Prod.mk.injEq]
    refine ⟨by ring, by ring, by ring⟩

example : (∀ i, (0 : ℤ) ≤ (![4, 5, 6] : IVec) i) ∧ (119 : ℤ) < (newGrid ![1, 2, 3] ![4, 5, 6]).volume := by
  constructor
  · intro i; fin_cases i <;> simp
  · decide +kernel

/-- `Coords` inverts `Idx` up to the origin: it returns coordinates relative to the grid's origin, so it is
the inverse exactly when the origin is zero. The full property (`Coords(Idx(x, y, z)) = (x, y, z)` for every
grid) is missing the case of a nonzero origin, where it is false. -/
theorem C33_coords_partial (o w : IVec) (x y z : ℤ)
    (h : ∀ i, o i ≤ (![x, y, z] : IVec) i ∧ (![x, y, z] : IVec) i < o i + w i) :
    (newGrid o w).coords ((newGrid o w).idx x y z) = some (x - o 0, y - o 1, z - o 2) := by
  have hr := C33_idx_range o w x y z h
  have h0 := h 0
  have h1 := h 1
  have h2 := h 2
  simp at h0 h1 h2
  have hp0 : 0 < w 0 := by omega
  have hp1 : 0 < w 1 := by omega
  have hA : 0 < w 0 * w 1 := mul_pos hp0 hp1
  obtain ⟨p, ⟨hp, hpe⟩, hu⟩ := C33_idx_bijective o w
    (fun i => by have := h i; omega) _ hr.1 hr.2
  unfold Grid.coords
  generalize hn : (newGrid o w).idx x y z = n at *
  have hm : 0 ≤ n % (w 0 * w 1) := Int.emod_nonneg n hA.ne'
  rw [show (newGrid o w).length = w 0 from rfl, show (newGrid o w).area = w 0 * w 1 from rfl]
  rw [if_neg (by push Not; exact ⟨hp0.ne', hA.ne'⟩)]
  rw [Int.tmod_eq_emod_of_nonneg hr.1, Int.tmod_eq_emod_of_nonneg hr.1, Int.tdiv_eq_ediv_of_nonneg hm,
    Int.tdiv_eq_ediv_of_nonneg hr.1]
  simp only [Grid.idx, newGrid] at hn
  have hm : (x - o 0 + (y - o 1) * w 0) / (w 0 * w 1) = 0 := by
    refine Int.ediv_eq_zero_of_lt ?_ ?_
    · have : 0 ≤ (y - o 1) * w 0 := mul_nonneg (by omega) hp0.le
      omega
    · have : (y - o 1) * w 0 ≤ (w 1 - 1) * w 0 := mul_le_mul_of_nonneg_right (by omega) hp0.le
      nlinarith
  have q1 : n / (w 0 * w 1) = z - o 2 := by
    rw [← hn, Int.add_mul_ediv_right _ _ hA.ne', hm, zero_add]
  have q2 : n % (w 0 * w 1) = x - o 0 + (y - o 1) * w 0 := by
    have := Int.emod_add_mul_ediv n (w 0 * w 1)
    rw [q1] at this
    linear_combination this - hn
  have q3 : n % (w 0 * w 1) / w 0 = y - o 1 := by
    rw [q2, Int.add_mul_ediv_right _ _ hp0.ne', Int.ediv_eq_zero_of_lt (by omega) (by omega), zero_add]
  have q4 : n % w 0 = x - o 0 := by
    rw [← Int.emod_emod_of_dvd n (⟨w 1, rfl⟩ : w 0 ∣ w 0 * w 1), q2, Int.add_mul_emod_self_right]
    exact Int.emod_eq_of_lt (by omega) (by omega)
  rw [q1, q3, q4]

/-- For grids whose origin is zero, `Coords` is the inverse of `Idx`. -/
theorem C33_coords_zero_origin_partial (w : IVec) (x y z : ℤ)
    (h : ∀ i, 0 ≤ (![x, y, z] : IVec) i ∧ (![x, y, z] : IVec) i < w i) :
    (newGrid (fun _ => 0) w).coords ((newGrid (fun _ => 0) w).idx x y z) = some (x, y, z) := by
  have := C33_coords_partial (fun _ => 0) w x y z (by simpa using h)
  simpa using this

example : (newGrid ![0, 0, 0] ![4, 5, 6]).coords 25 = some (1, 1, 1) := by decide +kernel

theorem C33_coords_counterexample :
    ∃ (o w : IVec) (x y z : ℤ), (∀ i, o i ≤ (![x, y, z] : IVec) i ∧ (![x, y, z] : IVec) i < o i + w i) ∧
      (newGrid o w).coords ((newGrid o w).idx x y z) ≠ some (x, y, z) := by
  refine ⟨![1, 2, 3], ![4, 5, 6], 2, 3, 4, ?_, by decide +kernel⟩
  intro i; fin_cases i <;> simp

/-! ## C34 -/

theorem bound_cases (x o w : ℤ) (h1 : -w ≤ x - o) (h2 : x - o ≤ 2 * w) :
    SameCell w (x - o) (bound x o w) ∧ 0 ≤ bound x o w ∧ bound x o w ≤ w := by
  unfold bound SameCell
  dsimp only
  split_ifs with a b
  · exact ⟨⟨1, by ring⟩, by omega, by omega⟩
  · exact ⟨⟨-1, by ring⟩, by omega, by omega⟩
  · exact ⟨⟨0, by ring⟩, by omega, by omega⟩

/-- Two cells whose numbers differ by less than a period and name the same cell are equal. -/
theorem sameCell_eq {n a b : ℤ} (hn : 0 < n) (h : SameCell n a b) (h1 : -n < b - a) (h2 : b - a < n) :
    b = a := by
  obtain ⟨k, rfl⟩ := h
  have h3 : -n < k * n := by linarith
  have h4 : k * n < n := by linarith
  have : k = 0 := by
    rcases lt_trichotomy k 0 with h | h | h
    · nlinarith
    · exact h
    · nlinarith
  subst this; simp

theorem intersectSB_complete {oS wS oB wB n : ℤ} (hn : 0 < n) (hle : wS ≤ wB)
    (hd1 : -n < oS - oB) (hd2 : oS - oB < n) {a b : ℤ} (ha : oS ≤ a ∧ a < oS + wS)
    (hb : oB ≤ b ∧ b < oB + wB) (hs : SameCell n a b) : intersectSB oS wS oB wB n = true := by
  unfold intersectSB
  simp only [Bool.or_eq_true, decide_eq_true_eq]
  by_contra hc
  push Not at hc
  obtain ⟨c1, c2⟩ := hc
  have hoS : 0 ≤ bound oS oB n ∧ bound oS oB n < n ∧ SameCell n (oS - oB) (bound oS oB n) := by
    unfold bound SameCell
    dsimp only
    split_ifs with a b
    · exact ⟨by omega, by omega, ⟨1, by ring⟩⟩
    · omega
    · exact ⟨by omega, by omega, ⟨0, by ring⟩⟩
  have hwB : wB < n := by omega
  have hwS : wS < n := by omega
  obtain ⟨o1, o2, k, ek⟩ := hoS
  obtain ⟨l, el⟩ := hs
  -- position of `a` relative to the big origin, using the representative of the small origin
  have hx : ∃ m : ℤ, b - oB = bound oS oB n + (a - oS) + m * n := ⟨l - k, by rw [ek, el]; ring⟩
  obtain ⟨m, em⟩ := hx
  have hm : m = -1 := by
    have u1 : 0 ≤ b - oB := by omega
    have u2 : b - oB < wB := by omega
    have u3 : m * n < 0 := by omega
    have u4 : -2 * n < m * n := by omega
    have : m < 0 := by
      by_contra hc; push Not at hc; have := mul_nonneg hc hn.le; omega
    have : -2 < m := by
      by_contra hc; push Not at hc
      have := mul_le_mul_of_nonneg_right hc hn.le; omega
    omega
  subst hm
  have hend : bound (oS + wS) oB n = bound oS oB n + wS - n := by
    unfold bound at *
    dsimp only at *
    split_ifs at * <;> omega
  omega

/-- `Intersect` never answers false for two boxes that share a cell of the periodic grid. Origins may be any
integers less than one period apart (the code keeps them in `[0, width)`); box widths may even exceed the
grid. -/
theorem C34_intersect_complete (cb1 cb2 : CellBounds) (n : ℤ) (hn : 0 < n)
    (ho : ∀ i, -n < cb1.origin i - cb2.origin i ∧ cb1.origin i - cb2.origin i < n)
    (a b : IVec) (ha : InBox cb1 a) (hb : InBox cb2 b) (hs : ∀ i, SameCell n (a i) (b i)) :
    cb1.intersect cb2 n = true := by
  have ax : ∀ i, intersectAxis (cb1.origin i) (cb1.width i) (cb2.origin i) (cb2.width i) n = true := by
    intro i
    have hoi := ho i
    unfold intersectAxis
    split
    · exact intersectSB_complete hn (by omega) hoi.1 hoi.2 (ha i) (hb i) (hs i)
    · refine intersectSB_complete hn (by omega) (by omega) (by omega) (hb i) (ha i) ?_
      obtain ⟨k, e⟩ := hs i
      exact ⟨-k, by rw [e]; ring⟩
  unfold CellBounds.intersect
  rw [ax 0, ax 1, ax 2]; rfl

/-- A case across the periodic boundary. -/
example : InBox ⟨![8, 0, 0], ![5, 3, 3]⟩ ![11, 1, 1] ∧ InBox ⟨![0, 1, 1], ![2, 3, 3]⟩ ![1, 1, 1] ∧
    (∀ i, SameCell 10 ((![11, 1, 1] : IVec) i) ((![1, 1, 1] : IVec) i)) ∧
    CellBounds.intersect ⟨![8, 0, 0], ![5, 3, 3]⟩ ⟨![0, 1, 1], ![2, 3, 3]⟩ 10 = true ∧
    CellBounds.intersect ⟨![8, 0, 0], ![2, 3, 3]⟩ ⟨![2, 1, 1], ![3, 3, 3]⟩ 10 = false := by
  refine ⟨?_, ?_, ?_, by decide +kernel, by decide +kernel⟩
  · intro i; fin_cases i <;> simp
  · intro i; fin_cases i <;> simp
  · intro i; fin_cases i
    · exact ⟨-1, by simp⟩
    · exact ⟨0, by simp⟩
    · exact ⟨0, by simp⟩

/-- Conversely `Intersect` is never wrong by more than one cell: when it answers true, then along each axis
some cell of one box, or the cell just after its end, is a cell of the other. -/
theorem C34_intersect_nearly_sound (cb1 cb2 : CellBounds) (n : ℤ)
    (ho : ∀ i, 0 ≤ cb1.origin i ∧ cb1.origin i < n ∧ 0 ≤ cb2.origin i ∧ cb2.origin i < n)
    (hw : ∀ i, 0 < cb1.width i ∧ cb1.width i ≤ n ∧ 0 < cb2.width i ∧ cb2.width i ≤ n)
    (h : cb1.intersect cb2 n = true) (i : Fin 3) :
    ∃ a b, SameCell n a b ∧ cb1.origin i ≤ a ∧ a ≤ cb1.origin i + cb1.width i ∧
      cb2.origin i ≤ b ∧ b ≤ cb2.origin i + cb2.width i := by
  have sb : ∀ oS wS oB wB : ℤ, 0 ≤ oS → oS < n → 0 ≤ oB → oB < n → 0 < wS → wS ≤ n →
      intersectSB oS wS oB wB n = true →
      ∃ a b, SameCell n a b ∧ oS ≤ a ∧ a ≤ oS + wS ∧ oB ≤ b ∧ b ≤ oB + wB := by
    intro oS wS oB wB h1 h2 h3 h4 h5 h6 h
    unfold intersectSB at h
    simp only [Bool.or_eq_true, decide_eq_true_eq] at h
    rcases h with h | h
    · obtain ⟨⟨k, e⟩, b1, b2⟩ := bound_cases (oS + wS) oB n (by omega) (by omega)
      exact ⟨oS + wS, oB + bound (oS + wS) oB n, ⟨k, by rw [e]; ring⟩, by omega, by omega, by omega,
        by omega⟩
    · obtain ⟨⟨k, e⟩, b1, b2⟩ := bound_cases oS oB n (by omega) (by omega)
      exact ⟨oS, oB + bound oS oB n, ⟨k, by rw [e]; ring⟩, by omega, by omega, by omega, by omega⟩
  have ax : intersectAxis (cb1.origin i) (cb1.width i) (cb2.origin i) (cb2.width i) n = true := by
    unfold CellBounds.intersect at h
    simp only [Bool.and_eq_true] at h
    fin_cases i
    · exact h.1
    · exact h.2.1
    · exact h.2.2
  have hoi := ho i
  have hwi := hw i
  unfold intersectAxis at ax
  split at ax
  · exact sb _ _ _ _ (by omega) (by omega) (by omega) (by omega) (by omega) (by omega) ax
  · obtain ⟨a, b, ⟨k, e⟩, q⟩ :=
      sb _ _ _ _ (by omega) (by omega) (by omega) (by omega) (by omega) (by omega) ax
    exact ⟨b, a, ⟨-k, by rw [e]; ring⟩, by omega, by omega, by omega, by omega⟩

/-- The extra cell does occur: boxes that only touch are reported as intersecting. -/
example : CellBounds.intersect ⟨![0, 0, 0], ![2, 2, 2]⟩ ⟨![2, 0, 0], ![3, 3, 3]⟩ 10 = true := by
  decide +kernel

/-- `IntersectUnbounded` is exactly "the two boxes share a cell". -/
theorem C34_intersectUnbounded (cb1 cb2 : CellBounds) (hw : ∀ i, 0 < cb1.width i ∧ 0 < cb2.width i) :
    cb1.intersectUnbounded cb2 = true ↔ ∃ c, InBox cb1 c ∧ InBox cb2 c := by
  have ax : ∀ i, unboundedAxis (cb1.origin i) (cb1.width i) (cb2.origin i) (cb2.width i) = true ↔
      ∃ c, (cb1.origin i ≤ c ∧ c < cb1.origin i + cb1.width i) ∧
        (cb2.origin i ≤ c ∧ c < cb2.origin i + cb2.width i) := by
    intro i
    have hwi := hw i
    unfold unboundedAxis
    split
    · simp only [decide_eq_true_eq]
      constructor
      · intro h; exact ⟨cb2.origin i, by omega, by omega⟩
      · rintro ⟨c, h1, h2⟩; omega
    · simp only [decide_eq_true_eq]
      constructor
      · intro h; exact ⟨cb1.origin i, by omega, by omega⟩
      · rintro ⟨c, h1, h2⟩; omega
  unfold CellBounds.intersectUnbounded
  simp only [Bool.and_eq_true]
  rw [ax 0, ax 1, ax 2]
  constructor
  · rintro ⟨⟨x, x1, x2⟩, ⟨y, y1, y2⟩, ⟨z, z1, z2⟩⟩
    refine ⟨![x, y, z], ?_, ?_⟩ <;> intro i <;> fin_cases i <;> simp <;> assumption
  · rintro ⟨c, h1, h2⟩
    exact ⟨⟨c 0, h1 0, h2 0⟩, ⟨c 1, h1 1, h2 1⟩, ⟨c 2, h1 2, h2 2⟩⟩

example : CellBounds.intersectUnbounded ⟨![0, 0, 0], ![2, 2, 2]⟩ ⟨![1, 0, 0], ![3, 3, 3]⟩ = true ∧
    CellBounds.intersectUnbounded ⟨![0, 0, 0], ![2, 2, 2]⟩ ⟨![2, 0, 0], ![3, 3, 3]⟩ = false := by
  decide +kernel

/-! ## C42 -/

theorem scaleSegC_same (cells : ℤ) (bw : ℚ) (o : ℤ) (x : ℚ) :
    SamePos cells (x * (cells / bw) - o) (scaleSegC cells bw o x) := by
  unfold scaleSegC
  dsimp only
  split
  · exact ⟨1, by push_cast; ring⟩
  · exact SamePos.refl _ _

theorem scaleSegC_range (cells : ℤ) (bw : ℚ) (o : ℤ) (x : ℚ) (hc : 0 < cells) (hx0 : 0 ≤ x) (hx : x < bw)
    (ho : 0 ≤ o ∧ o ≤ cells) : 0 ≤ scaleSegC cells bw o x ∧ scaleSegC cells bw o x < cells := by
  have hb : 0 < bw := lt_of_le_of_lt hx0 hx
  have hcq : (0 : ℚ) < cells := by exact_mod_cast hc
  have h1 : 0 ≤ x * (cells / bw) := by positivity
  have h2 : x * (cells / bw) < cells := by
    rw [mul_div_assoc', div_lt_iff₀ hb]
    nlinarith
  have h3 : (0 : ℚ) ≤ o := by exact_mod_cast ho.1
  have h4 : (o : ℚ) ≤ cells := by exact_mod_cast ho.2
  unfold scaleSegC
  dsimp only
  split
  · constructor <;> linarith
  · constructor <;> linarith

/-- `ScaleVecsSegment` keeps the number of positions, and expresses each in cells relative to the origin of
the segment's box, wrapped into one period. -/
theorem C42_segment (vcb : CellBounds) (vs : List Vec) (cells : ℤ) (bw : ℚ) (hc : 0 < cells)
    (ho : ∀ j, 0 ≤ vcb.origin j ∧ vcb.origin j ≤ cells)
    (hv : ∀ v ∈ vs, ∀ j, 0 ≤ v j ∧ v j < bw) :
    (vcb.scaleVecsSegment vs cells bw).length = vs.length ∧
      ∀ (i : Nat) (v : Vec), vs[i]? = some v → ∃ u, (vcb.scaleVecsSegment vs cells bw)[i]? = some u ∧
        ∀ j, 0 ≤ u j ∧ u j < cells ∧ SamePos cells (v j / (bw / cells) - vcb.origin j) (u j) := by
  refine ⟨by simp [CellBounds.scaleVecsSegment], ?_⟩
  intro i v hi
  refine ⟨fun j => scaleSegC cells bw (vcb.origin j) (v j),
    by simp only [CellBounds.scaleVecsSegment, List.getElem?_map, hi, Option.map_some], ?_⟩
  intro j
  have hm := hv v (List.mem_of_getElem? hi) j
  have hr := scaleSegC_range cells bw (vcb.origin j) (v j) hc hm.1 hm.2 (ho j)
  refine ⟨hr.1, hr.2, ?_⟩
  have := scaleSegC_same cells bw (vcb.origin j) (v j)
  have e : v j / (bw / cells) = v j * (cells / bw) := by rw [div_div_eq_mul_div, mul_div_assoc]
  rw [e]; exact this

example : CellBounds.scaleVecsSegment ⟨![2, 8, 0], ![1, 1, 1]⟩ [![10, 10, 10]] 10 50 = [![0, 4, 2]] := by
  simp only [CellBounds.scaleVecsSegment, List.map_cons, List.map_nil, List.cons.injEq, and_true]
  funext j; fin_cases j <;> simp [scaleSegC] <;> norm_num

/-- `ScaleVecsDomain` expresses each position in cells relative to the domain's origin, in a window of one
period that starts at the (folded) offset of the segment from the domain. -/
theorem C42_domain (vcb cb : CellBounds) (vs : List Vec) (cells : ℤ) (bw : ℚ) (hc : 0 < cells)
    (ho : ∀ j, 0 ≤ vcb.origin j ∧ vcb.origin j ≤ cells) (ho2 : ∀ j, 0 ≤ cb.origin j ∧ cb.origin j ≤ cells)
    (hv : ∀ v ∈ vs, ∀ j, 0 ≤ v j ∧ v j < bw) :
    ∃ d : Vec, (∀ j, |d j| ≤ cells / 2 ∧ SamePos cells (vcb.origin j - cb.origin j) (d j)) ∧
      (vcb.scaleVecsDomain cb vs cells bw).length = vs.length ∧
      ∀ (i : Nat) (v : Vec), vs[i]? = some v → ∃ u, (vcb.scaleVecsDomain cb vs cells bw)[i]? = some u ∧
        ∀ j, d j ≤ u j ∧ u j < d j + cells ∧ SamePos cells (v j / (bw / cells) - cb.origin j) (u j) := by
  refine ⟨fun j => domainDiff cells (vcb.origin j) (cb.origin j), ?_, by simp [CellBounds.scaleVecsDomain], ?_⟩
  · intro j
    have h1 := ho j
    have h2 := ho2 j
    have a1 : (0 : ℚ) ≤ vcb.origin j := by exact_mod_cast h1.1
    have a2 : (vcb.origin j : ℚ) ≤ cells := by exact_mod_cast h1.2
    have a3 : (0 : ℚ) ≤ cb.origin j := by exact_mod_cast h2.1
    have a4 : (cb.origin j : ℚ) ≤ cells := by exact_mod_cast h2.2
    unfold domainDiff
    dsimp only
    push_cast
    rw [abs_le]
    split_ifs with b1 b2
    · exact ⟨⟨by linarith, by linarith⟩, 1, by push_cast; ring⟩
    · exact ⟨⟨by linarith, by linarith⟩, -1, by push_cast; ring⟩
    · exact ⟨⟨by linarith, by linarith⟩, 0, by push_cast; ring⟩
  · intro i v hi
    refine ⟨fun j => scaleSegC cells bw (vcb.origin j) (v j) + domainDiff cells (vcb.origin j) (cb.origin j),
      by simp only [CellBounds.scaleVecsDomain, List.getElem?_map, hi, Option.map_some], ?_⟩
    intro j
    have hm := hv v (List.mem_of_getElem? hi) j
    have hr := scaleSegC_range cells bw (vcb.origin j) (v j) hc hm.1 hm.2 (ho j)
    refine ⟨by linarith [hr.1], by linarith [hr.2], ?_⟩
    obtain ⟨k, ek⟩ := scaleSegC_same cells bw (vcb.origin j) (v j)
    have e : v j / (bw / cells) = v j * (cells / bw) := by rw [div_div_eq_mul_div, mul_div_assoc]
    simp only
    rw [e, ek]
    have : ∃ l : ℤ, domainDiff cells (vcb.origin j) (cb.origin j) =
        (vcb.origin j : ℚ) - cb.origin j + l * cells := by
      unfold domainDiff
      dsimp only
      push_cast
      split_ifs with b1 b2
      · exact ⟨1, by push_cast; ring⟩
      · exact ⟨-1, by push_cast; ring⟩
      · exact ⟨0, by push_cast; ring⟩
    obtain ⟨l, el⟩ := this
    exact ⟨k + l, by rw [el]; push_cast; ring⟩

example : CellBounds.scaleVecsDomain ⟨![2, 8, 0], ![1, 1, 1]⟩ ⟨![1, 1, 1], ![5, 5, 5]⟩ [![10, 10, 10]] 10 50
    = [![1, 1, 1]] := by
  simp only [CellBounds.scaleVecsDomain, List.map_cons, List.map_nil, List.cons.injEq, and_true]
  funext j; fin_cases j <;> simp [scaleSegC, domainDiff] <;> norm_num

end Verif.Geom
