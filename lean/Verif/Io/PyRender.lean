import Verif.Io.PyRenderModel
import Mathlib.Tactic.FinCases
import Mathlib.Tactic.FieldSimp
import Mathlib.Tactic.Ring
import Mathlib.Tactic.Linarith
import Mathlib.Tactic.NormNum

/-!
Property C121: the picture that `python/render.py` shows.
-/

set_option autoImplicit false

namespace Verif.Io

open Verif.Go Verif.Geom

/-! ## Spec -/

/-- The horizontal and the vertical axis of a view along `ax`: the other two axes in order. -/
def horizontal (ax : Fin 3) : Fin 3 := if ax = 0 then 1 else 0

def vertical (ax : Fin 3) : Fin 3 := if ax = 2 then 1 else 2

/-- The value of the cell with coordinates `c` of a grid that is stored with x moving fastest. -/
def cellValue (grid : List ℚ) (dim : Fin 3 → ℕ) (c : Fin 3 → ℕ) : ℚ := grid.getD (c 0 + c 1 * dim 0 + c 2 * (dim 0 * dim 1)) 0

/-- The cell `l` deep behind row `r` and column `q` of a view along `ax`. -/
def behind (ax : Fin 3) (r q l : ℕ) : Fin 3 → ℕ := fun k => if k = ax then l else if k = horizontal ax then q else r

/-- The picture is the mean over the given layers, at the right place: columns along the horizontal axis from left to right,
rows along the vertical axis from the upper edge down. -/
def ShowsLayers (f : ℚ → ℚ) (hd : ShowHeader) (grid : List ℚ) (ax : Fin 3) (ls : List ℕ) (p : Picture) : Prop :=
  p.rows = hd.dim (vertical ax) ∧ p.cols = hd.dim (horizontal ax) ∧
  p.left = hd.origin (horizontal ax) ∧ p.right = p.left + hd.span (horizontal ax) ∧
  p.top = hd.origin (vertical ax) ∧ p.bottom = p.top + hd.span (vertical ax) ∧
  ∀ r q, p.value r q = if ls = [] then none
    else some ((ls.map fun l => f (cellValue grid hd.dim (behind ax r q l))).sum / ls.length)

/-! ## Slices -/

theorem pySlice_mid {n : ℕ} {m : ℤ} (h0 : 0 ≤ m) (h1 : m ≤ (n : ℤ) / 2) :
    pySlice n ((n : ℤ) / 2 - m) ((n : ℤ) / 2 + m + 1) =
      (List.range (min (2 * m + 1) (n - ((n : ℤ) / 2 - m))).toNat).map fun i => ((n : ℤ) / 2 - m).toNat + i := by
  unfold pySlice
  have a : ¬ ((n : ℤ) / 2 - m < 0) := by omega
  have b : ¬ ((n : ℤ) / 2 + m + 1 < 0) := by omega
  have c : min ((n : ℤ) / 2 - m) n = (n : ℤ) / 2 - m := by omega
  dsimp only
  rw [if_neg a, if_neg b, c]
  have d : min ((n : ℤ) / 2 + m + 1) n - ((n : ℤ) / 2 - m) = min (2 * m + 1) (n - ((n : ℤ) / 2 - m)) := by omega
  rw [d]

/-! ## Images that are not projected -/

/-- C121: the picture is the mean over the layers of the slice, laid out with the right axes and edges. -/
theorem C121_layout (f : ℚ → ℚ) (hd : ShowHeader) (grid : List ℚ) (ax : Fin 3) (depth : Option ℤ) :
    ShowsLayers f hd grid ax (pySlice (hd.dim ax) ((hd.dim ax : ℤ) / 2 - depth.getD hd.minDepth / 2)
      ((hd.dim ax : ℤ) / 2 + depth.getD hd.minDepth / 2 + 1)) (pyShow3 f hd grid ax depth) := by
  have key : ∀ k j i, pyAt grid hd.dim k j i = cellValue grid hd.dim ![i, j, k] := by
    intro k j i
    unfold pyAt cellValue
    congr 1
    simp only [Matrix.cons_val_zero, Matrix.cons_val_one, Matrix.cons_val]
    ring
  have hm : ∀ (ls : List ℕ) (g : ℕ → ℚ), pyMean (ls.map g) = if ls = [] then none else some ((ls.map g).sum / ls.length) := by
    intro ls g
    unfold pyMean
    simp
  fin_cases ax
  · refine ⟨rfl, rfl, rfl, rfl, rfl, rfl, fun r q => (hm _ _).trans ?_⟩
    simp only [key]
    have : ∀ l, behind 0 r q l = ![l, q, r] := by
      intro l; funext k; fin_cases k <;> rfl
    simp only [Fin.zero_eta, this]
    rfl
  · refine ⟨rfl, rfl, rfl, rfl, rfl, rfl, fun r q => (hm _ _).trans ?_⟩
    simp only [key]
    have : ∀ l, behind 1 r q l = ![q, l, r] := by
      intro l; funext k; fin_cases k <;> rfl
    simp only [Fin.mk_one, this]
    rfl
  · refine ⟨rfl, rfl, rfl, rfl, rfl, rfl, fun r q => (hm _ _).trans ?_⟩
    simp only [key]
    have : ∀ l, behind 2 r q l = ![q, r, l] := by
      intro l; funext k; fin_cases k <;> rfl
    simp only [Fin.reduceFinMk, this]
    rfl

/-- A header of an image of 4 by 5 by 6 cells. -/
def exShow : ShowHeader := ⟨-1, ![4, 5, 6], fun _ => 0, ![4, 5, 6], 1, 3⟩

/-- A pixel of the view along z of an image with the layer number as value: layers 2 to 4. -/
example : (pyShow3 id exShow ((List.range 120).map fun i => ((i / 20 : ℕ) : ℚ)) 2 none).value 1 1 = some 3 := by
  decide +kernel

/-- C121: with an odd number of layers that does not exceed the image, that many layers around the middle are taken, and the
title gives the thickness of the slab. The wanted statement has any number of layers. -/
theorem C121_layers_partial (f : ℚ → ℚ) (hd : ShowHeader) (grid : List ℚ) (ax : Fin 3) {m : ℕ}
    (h1 : 2 * m + 1 ≤ hd.dim ax) : let depth : ℤ := 2 * m + 1
    ShowsLayers f hd grid ax ((List.range (2 * m + 1)).map fun i => hd.dim ax / 2 - m + i)
      (pyShow3 f hd grid ax (some depth)) ∧
      (pyShow3 f hd grid ax (some depth)).thickness = ((List.range (2 * m + 1)).map fun i => hd.dim ax / 2 - m + i).length * hd.pw := by
  intro depth
  have h := C121_layout f hd grid ax (some depth)
  have hd2 : depth / 2 = m := by omega
  simp only [Option.getD_some, hd2] at h
  rw [pySlice_mid (by omega) (by omega)] at h
  have e : (min (2 * (m : ℤ) + 1) ((hd.dim ax : ℤ) - ((hd.dim ax : ℤ) / 2 - m))).toNat = 2 * m + 1 := by omega
  have e' : (((hd.dim ax : ℕ) : ℤ) / 2 - (m : ℤ)).toNat = hd.dim ax / 2 - m := by omega
  rw [e, e'] at h
  refine ⟨h, ?_⟩
  show hd.pw * ((depth : ℤ) : ℚ) = _
  rw [List.length_map, List.length_range]
  push_cast [depth]
  ring

example : 2 * 1 + 1 ≤ exShow.dim 2 := by decide

/-- C121: with an even number of layers below the width of the image, one layer too many is taken; the title gives the
thickness without it. -/
theorem C121_even_counterexample (f : ℚ → ℚ) (hd : ShowHeader) (grid : List ℚ) (ax : Fin 3) {m : ℕ}
    (h1 : 2 * m + 1 ≤ hd.dim ax) : let depth : ℤ := 2 * m
    ShowsLayers f hd grid ax ((List.range (2 * m + 1)).map fun i => hd.dim ax / 2 - m + i)
      (pyShow3 f hd grid ax (some depth)) ∧
      (pyShow3 f hd grid ax (some depth)).thickness = 2 * m * hd.pw := by
  intro depth
  have h := C121_layout f hd grid ax (some depth)
  have hd2 : depth / 2 = m := by omega
  simp only [Option.getD_some, hd2] at h
  rw [pySlice_mid (by omega) (by omega)] at h
  have e : (min (2 * (m : ℤ) + 1) ((hd.dim ax : ℤ) - ((hd.dim ax : ℤ) / 2 - m))).toNat = 2 * m + 1 := by omega
  have e' : (((hd.dim ax : ℕ) : ℤ) / 2 - (m : ℤ)).toNat = hd.dim ax / 2 - m := by omega
  rw [e, e'] at h
  refine ⟨h, ?_⟩
  show hd.pw * ((depth : ℤ) : ℚ) = _
  push_cast [depth]
  ring

/-- C121: a slab thicker than the image. The program counts from the other end and shows the last two of four layers. -/
theorem C121_thick_counterexample (f : ℚ → ℚ) (grid : List ℚ) :
    let hd : ShowHeader := ⟨-1, ![4, 4, 4], fun _ => 0, ![4, 4, 4], 1, 1⟩
    ShowsLayers f hd grid 2 [2, 3] (pyShow3 f hd grid 2 (some 8)) ∧ (pyShow3 f hd grid 2 (some 8)).thickness = 8 := by
  intro hd
  constructor
  · have h := C121_layout f hd grid 2 (some 8)
    have e : pySlice (hd.dim 2) ((hd.dim 2 : ℤ) / 2 - (some 8).getD hd.minDepth / 2)
        ((hd.dim 2 : ℤ) / 2 + (some 8).getD hd.minDepth / 2 + 1) = [2, 3] := by decide
    rw [e] at h
    exact h
  · show (1 : ℚ) * ((8 : ℤ) : ℚ) = 8
    norm_num

/-- C121: the position in the title is the lower edge of the middle layer when the image is as wide along the axes of the
view as along x. The wanted statement is the middle of the slab and has no condition. -/
theorem C121_title_partial (f : ℚ → ℚ) (hd : ShowHeader) (grid : List ℚ) (ax : Fin 3) (depth : Option ℤ)
    (h : hd.dim (2 - ax) = hd.dim ax) :
    (pyShow3 f hd grid ax depth).mid = hd.origin ax + ((hd.dim ax / 2 : ℕ) : ℚ) * hd.pw := by
  have e : ∀ n : ℕ, (((n : ℤ) / 2 : ℤ) : ℚ) = ((n / 2 : ℕ) : ℚ) := by
    intro n
    rw [← Int.cast_natCast (R := ℚ) (n / 2)]
    norm_cast
  fin_cases ax
  · show hd.origin 0 + (((hd.dim 2 : ℤ) / 2 : ℤ) : ℚ) * hd.pw = _
    rw [e, show hd.dim 2 = hd.dim 0 from h]
    rfl
  · show hd.origin 1 + (((hd.dim 1 : ℤ) / 2 : ℤ) : ℚ) * hd.pw = _
    rw [e]
    rfl
  · show hd.origin 2 + (((hd.dim 0 : ℤ) / 2 : ℤ) : ℚ) * hd.pw = _
    rw [e, show hd.dim 0 = hd.dim 2 from h]
    rfl

example : exShow.dim (2 - 1) = exShow.dim 1 := rfl

/-- C121: in an image of 4 by 5 by 6 cells of width 1 the slab of one layer from 3 to 4 is said to be at 2. -/
theorem C121_title_counterexample (f : ℚ → ℚ) (grid : List ℚ) :
    ShowsLayers f exShow grid 2 [3] (pyShow3 f exShow grid 2 (some 1)) ∧ (pyShow3 f exShow grid 2 (some 1)).mid = 2 := by
  constructor
  · have h := C121_layout f exShow grid 2 (some 1)
    have e : pySlice (exShow.dim 2) ((exShow.dim 2 : ℤ) / 2 - (some 1).getD exShow.minDepth / 2)
        ((exShow.dim 2 : ℤ) / 2 + (some 1).getD exShow.minDepth / 2 + 1) = [3] := by decide
    rw [e] at h
    exact h
  · show (0 : ℚ) + ((((4 : ℕ) : ℤ) / 2 : ℤ) : ℚ) * 1 = 2
    norm_num

/-! ## Projected images -/

/-- C121: a projected image is shown as it is, with the right axes and edges, and the title gives the middle and the thickness
of the projected region; another axis than that of the image is refused. -/
theorem C121_projected (f : ℚ → ℚ) (hd : ShowHeader) (grid : List ℚ) (ax : Fin 3) (hpw : hd.pw ≠ 0) :
    (hd.axis ≠ ax.val → pyShow2 f hd grid ax = none) ∧
    (hd.axis = ax.val → ∃ p, pyShow2 f hd grid ax = some p ∧
      p.rows = hd.dim (vertical ax) ∧ p.cols = hd.dim (horizontal ax) ∧
      p.left = hd.origin (horizontal ax) ∧ p.right = p.left + hd.span (horizontal ax) ∧
      p.top = hd.origin (vertical ax) ∧ p.bottom = p.top + hd.span (vertical ax) ∧
      (∀ r q, p.value r q = some (f (grid.getD (q + r * hd.dim (horizontal ax)) 0))) ∧
      p.mid = hd.origin ax + hd.span ax / 2 ∧ p.thickness = hd.span ax) := by
  constructor
  · intro h
    unfold pyShow2
    rw [if_pos h]
  · intro h
    have ht : hd.pw * (hd.span ax / hd.pw) = hd.span ax := by field_simp
    unfold pyShow2
    rw [if_neg (not_not.mpr h)]
    refine ⟨_, rfl, ?_, ?_, ?_, ?_, ?_, ?_, ?_, rfl, ht⟩
    all_goals
      dsimp only
      try rw [h]
      try intro r q
      fin_cases ax
      all_goals
        simp [vertical, horizontal, add_comm]

example : (⟨1, ![4, 5, 6], fun _ => 0, ![4, 5, 6], 1, 3⟩ : ShowHeader).axis = ((1 : Fin 3).val : ℤ) := rfl

end Verif.Io
