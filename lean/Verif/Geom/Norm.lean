import Verif.Geom.NormModel
import Verif.Geom.Grid

/-!
# C155: `Sub` followed by `Norm` is the distance in the periodic box

Specification: the length of a displacement `d` is `√(d₀² + d₁² + d₂²)`; two displacements are equivalent when they
differ by whole periods along every axis (`SamePos`).
-/

set_option autoImplicit false

namespace Verif.Geom

theorem dot_sq (v : Vec) : v.dot v = v 0 ^ 2 + v 1 ^ 2 + v 2 ^ 2 := by unfold Vec.dot; ring

theorem norm_le_of_abs (a b : Vec) (h : ∀ i, |a i| ≤ |b i|) : a.norm ≤ b.norm := by
  unfold Vec.norm
  apply Real.sqrt_le_sqrt
  rw [dot_sq, dot_sq]
  have := fun i => sq_le_sq.mpr (h i)
  have h0 := this 0
  have h1 := this 1
  have h2 := this 2
  exact_mod_cast (by linarith : a 0 ^ 2 + a 1 ^ 2 + a 2 ^ 2 ≤ b 0 ^ 2 + b 1 ^ 2 + b 2 ^ 2)

theorem norm_add_le (a b : Vec) : (a.add b).norm ≤ a.norm + b.norm := by
  have ha : (0 : ℝ) ≤ ((a.dot a : ℚ) : ℝ) := by rw [dot_sq]; exact_mod_cast (by positivity)
  have hb : (0 : ℝ) ≤ ((b.dot b : ℚ) : ℝ) := by rw [dot_sq]; exact_mod_cast (by positivity)
  have cs : ((a.dot b : ℚ) : ℝ) ≤ Real.sqrt ((a.dot a : ℚ) : ℝ) * Real.sqrt ((b.dot b : ℚ) : ℝ) := by
    rw [← Real.sqrt_mul ha]
    apply Real.le_sqrt_of_sq_le
    have : (a.dot b) ^ 2 ≤ a.dot a * b.dot b := by
      unfold Vec.dot
      nlinarith [sq_nonneg (a 0 * b 1 - a 1 * b 0), sq_nonneg (a 0 * b 2 - a 2 * b 0),
        sq_nonneg (a 1 * b 2 - a 2 * b 1)]
    exact_mod_cast this
  unfold Vec.norm
  rw [Real.sqrt_le_iff]
  refine ⟨by positivity, ?_⟩
  have e : (a.add b).dot (a.add b) = a.dot a + b.dot b + 2 * a.dot b := by
    unfold Vec.dot Vec.add; ring
  rw [e]
  push_cast
  have s1 := Real.sq_sqrt ha
  have s2 := Real.sq_sqrt hb
  nlinarith

/-- A position of the box. -/
def InPeriod (w : ℚ) (v : Vec) : Prop := ∀ i, 0 ≤ v i ∧ v i < w

theorem InPeriod.diff {w : ℚ} {v1 v2 : Vec} (h1 : InPeriod w v1) (h2 : InPeriod w v2) (i : Fin 3) :
    -2 * w ≤ v1 i - v2 i ∧ v1 i - v2 i < 2 * w := by
  obtain ⟨a, b⟩ := h1 i
  obtain ⟨c, d⟩ := h2 i
  constructor <;> linarith

theorem InPeriod.pos {w : ℚ} {v : Vec} (h : InPeriod w v) : 0 < w := lt_of_le_of_lt (h 0).1 (h 0).2

/-- C155: the displacement returned by `Sub` is the shortest equivalent one, and at most half a diagonal long. -/
theorem C155_shortest (v1 v2 : Vec) (w : ℚ) (h1 : InPeriod w v1) (h2 : InPeriod w v2) :
    (∀ d : Vec, (∀ i, SamePos w (v1 i - v2 i) (d i)) →
      (v1.sub v2 w).norm ≤ Real.sqrt ((d 0 : ℝ) ^ 2 + (d 1 : ℝ) ^ 2 + (d 2 : ℝ) ^ 2)) ∧
      (v1.sub v2 w).norm ≤ Real.sqrt 3 / 2 * w := by
  have hs := C31_sub v1 v2 w h1.pos (h1.diff h2)
  constructor
  · intro d hd
    have := norm_le_of_abs (v1.sub v2 w) d (fun i => (hs i).2.2 _ (hd i))
    refine this.trans (le_of_eq ?_)
    unfold Vec.norm
    rw [dot_sq]
    push_cast
    rfl
  · have hw := h1.pos
    have := norm_le_of_abs (v1.sub v2 w) (fun _ => w / 2) (fun i => by
      rw [abs_of_pos (half_pos hw)]; exact (hs i).2.1)
    refine this.trans (le_of_eq ?_)
    have hw' : (0 : ℝ) < w := by exact_mod_cast hw
    unfold Vec.norm
    rw [dot_sq, show ((((w / 2) ^ 2 + (w / 2) ^ 2 + (w / 2) ^ 2 : ℚ)) : ℝ) = 3 * ((w : ℝ) / 2) ^ 2 by push_cast; ring,
      Real.sqrt_mul (by norm_num), Real.sqrt_sq (by positivity)]
    ring

/-- C155: distances obtained from `Sub` and `Norm` form a metric on the positions of the box: zero exactly between equal
positions, the same in both directions, and never shortened by a detour. -/
theorem C155_metric (v1 v2 v3 : Vec) (w : ℚ) (h1 : InPeriod w v1) (h2 : InPeriod w v2) (h3 : InPeriod w v3) :
    ((v1.sub v2 w).norm = 0 ↔ v1 = v2) ∧ (v1.sub v2 w).norm = (v2.sub v1 w).norm ∧
      (v1.sub v3 w).norm ≤ (v1.sub v2 w).norm + (v2.sub v3 w).norm := by
  have hw := h1.pos
  refine ⟨⟨fun h => ?_, fun h => ?_⟩, ?_, ?_⟩
  · unfold Vec.norm at h
    have nn : (0 : ℝ) ≤ (((v1.sub v2 w).dot (v1.sub v2 w) : ℚ) : ℝ) := by
      rw [dot_sq]; exact_mod_cast (by positivity)
    rw [Real.sqrt_eq_zero nn] at h
    have h : (v1.sub v2 w).dot (v1.sub v2 w) = 0 := by exact_mod_cast h
    rw [dot_sq] at h
    have z : ∀ i, v1.sub v2 w i = 0 := by
      have a0 := sq_nonneg (v1.sub v2 w 0)
      have a1 := sq_nonneg (v1.sub v2 w 1)
      have a2 := sq_nonneg (v1.sub v2 w 2)
      intro i
      apply pow_eq_zero_iff (two_ne_zero) |>.mp
      fin_cases i
      · change v1.sub v2 w 0 ^ 2 = 0; linarith
      · change v1.sub v2 w 1 ^ 2 = 0; linarith
      · change v1.sub v2 w 2 ^ 2 = 0; linarith
    funext i
    obtain ⟨k, hk⟩ := (C31_sub v1 v2 w hw (h1.diff h2) i).1
    rw [z i] at hk
    obtain ⟨a, b⟩ := h1 i
    obtain ⟨c, d⟩ := h2 i
    have k1 : (k : ℚ) < 1 := by
      by_contra hc
      push Not at hc
      nlinarith
    have k2 : (-1 : ℚ) < k := by
      by_contra hc
      push Not at hc
      nlinarith
    have k0 : k = 0 := by
      have : k < 1 := by exact_mod_cast k1
      have : -1 < k := by exact_mod_cast k2
      omega
    rw [k0] at hk
    push_cast at hk
    linarith
  · subst h
    have z : v1.sub v1 w = fun _ => 0 := by
      funext i
      have := C31_sub_antisymm v1 v1 w h1 h1 i
      linarith
    rw [z]
    simp [Vec.norm, dot_sq]
  · have e : ∀ i, |v2.sub v1 w i| = |v1.sub v2 w i| := fun i => by
      rw [C31_sub_antisymm v1 v2 w h1 h2 i, abs_neg]
    exact le_antisymm (norm_le_of_abs _ _ (fun i => (e i).ge)) (norm_le_of_abs _ _ (fun i => (e i).le))
  · refine le_trans (norm_le_of_abs _ ((v1.sub v2 w).add (v2.sub v3 w)) (fun i => ?_)) (norm_add_le _ _)
    apply (C31_sub v1 v3 w hw (h1.diff h3) i).2.2
    obtain ⟨k, hk⟩ := (C31_sub v1 v2 w hw (h1.diff h2) i).1
    obtain ⟨l, hl⟩ := (C31_sub v2 v3 w hw (h2.diff h3) i).1
    refine ⟨k + l, ?_⟩
    unfold Vec.add
    rw [hk, hl]
    push_cast
    ring

/-- Positions on opposite sides of the box are close. -/
example : InPeriod 10 ![9, 1, 5] ∧ InPeriod 10 ![1, 9, 4] ∧ (Vec.sub ![9, 1, 5] ![1, 9, 4] 10).norm = 3 := by
  refine ⟨?_, ?_, ?_⟩
  · intro i; fin_cases i <;> simp <;> norm_num
  · intro i; fin_cases i <;> simp <;> norm_num
  · have : Vec.sub ![9, 1, 5] ![1, 9, 4] 10 = ![-2, 2, 1] := by
      funext i; fin_cases i <;> simp [Vec.sub, subFold1, subFold2] <;> norm_num
    rw [this]
    unfold Vec.norm
    rw [dot_sq]
    rw [Real.sqrt_eq_iff_mul_self_eq (by simp; norm_num) (by norm_num)]
    simp
    norm_num

end Verif.Geom
