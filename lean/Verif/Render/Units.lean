import Verif.Render.UnitsModel
import Verif.Main.Pipeline

/-!
# C152: one manager, boxes with different numbers of sample points

Specification: `sampleAt`, the sample number `j` of buffer number `bi`, made of three draws of its own.
-/

set_option autoImplicit false

namespace Verif.Render

open Verif.Go Verif.Geom

/-- Fold a point of the unit cube into the unit tetrahedron. -/
def foldPoint (p : Vec) : Vec := (distributeUnit [p]).headD 0

/-- The sample number `j` of buffer number `bi` when every buffer has `m` samples. -/
def sampleAt (draw : ℕ → ℚ) (m bi j : ℕ) : Vec := foldPoint fun k => draw (3 * (m * bi + j) + k.val)

theorem distributeUnit_map (l : List Vec) : distributeUnit l = l.map foldPoint := by
  unfold foldPoint distributeUnit
  simp

theorem maxPoints_le (points : List ℤ) : 0 ≤ maxPoints points ∧ ∀ p ∈ points, p ≤ maxPoints points := by
  unfold maxPoints
  have key : ∀ (l : List ℤ) (m : ℤ), m ≤ l.foldl (fun m p => if p > m then p else m) m ∧
      ∀ p ∈ l, p ≤ l.foldl (fun m p => if p > m then p else m) m := by
    intro l
    induction l with
    | nil => intro m; exact ⟨le_refl _, by simp⟩
    | cons a l ih =>
      intro m
      rw [List.foldl_cons]
      obtain ⟨h1, h2⟩ := ih (if a > m then a else m)
      refine ⟨le_trans (by split <;> omega) h1, fun p hp => ?_⟩
      rcases List.mem_cons.mp hp with rfl | hp
      · exact le_trans (by split <;> omega) h1
      · exact h2 p hp
  exact key points 0

theorem maxPoints_mem (points : List ℤ) : maxPoints points = 0 ∨ maxPoints points ∈ points := by
  unfold maxPoints
  have key : ∀ (l : List ℤ) (m : ℤ), l.foldl (fun m p => if p > m then p else m) m = m ∨
      l.foldl (fun m p => if p > m then p else m) m ∈ l := by
    intro l
    induction l with
    | nil => intro m; exact Or.inl rfl
    | cons a l ih =>
      intro m
      rw [List.foldl_cons]
      rcases ih (if a > m then a else m) with h | h
      · rw [h]
        split
        · exact Or.inr (List.mem_cons_self ..)
        · exact Or.inl rfl
      · exact Or.inr (List.mem_cons_of_mem _ h)
  exact key points 0

/-- The buffers as drawn. -/
def drawn (draw : ℕ → ℚ) (nUnit m : ℕ) : List (List Vec) :=
  (List.range nUnit).map fun bi => (List.range m).map fun j => sampleAt draw m bi j

/-- The buffers cut to `len`. -/
def cutTo (data : List (List Vec)) (len : ℕ) : List (WBuf Vec) := data.map fun d => ⟨d, 0, len⟩

theorem unitBufs_eq (draw : ℕ → ℚ) (nUnit m : ℕ) : unitBufs draw nUnit m = cutTo (drawn draw nUnit m) m := by
  unfold unitBufs cutTo drawn
  rw [List.map_map]
  refine List.map_congr_left fun bi _ => ?_
  rw [Function.comp_apply, distributeUnit_map]
  unfold drawPoints
  rw [List.map_map]
  congr 1
  refine List.map_congr_left fun j _ => ?_
  unfold sampleAt
  rw [Function.comp_apply]
  congr 1
  funext k
  congr 1
  ring

theorem resliceUnits_cut (data : List (List Vec)) (m len : ℕ) (hm : ∀ d ∈ data, d.length = m) (p : ℤ) (hne : data ≠ []) :
    resliceUnits (cutTo data len) p = if 0 ≤ p ∧ p ≤ m then some (cutTo data p.toNat) else none := by
  unfold resliceUnits cutTo
  have e : ∀ d ∈ data, (WBuf.slice (⟨d, 0, len⟩ : WBuf Vec) 0 p) =
      if 0 ≤ p ∧ p ≤ m then some ⟨d, 0, p.toNat⟩ else none := by
    intro d hd
    unfold WBuf.slice
    simp [hm d hd]
  clear hm
  split
  · rename_i h
    clear hne
    induction data with
    | nil => rfl
    | cons d data ih =>
      have e1 := e d (List.mem_cons_self ..)
      rw [if_pos h] at e1
      simp only [List.map_cons, List.mapM_cons, e1, Option.bind_eq_bind, Option.bind_some]
      rw [ih fun x hx => e x (List.mem_cons_of_mem _ hx)]
      rfl
  · rename_i h
    cases data with
    | nil => exact absurd rfl hne
    | cons d data =>
      have e1 := e d (List.mem_cons_self ..)
      rw [if_neg h] at e1
      simp only [List.map_cons, List.mapM_cons, e1, Option.bind_eq_bind, Option.bind_none]

theorem cutTo_visible (data : List (List Vec)) (len : ℕ) : (cutTo data len).map WBuf.visible = data.map (·.take len) := by
  unfold cutTo
  rw [List.map_map]
  rfl

theorem passUnits_cut (points : List ℤ) (data : List (List Vec)) (m : ℕ) (hm : ∀ d ∈ data, d.length = m) (hne : data ≠ [])
    (hp : ∀ p ∈ points, 0 ≤ p ∧ p ≤ m) (box : List ℕ) (hb : ∀ i ∈ box, i < points.length) (len : ℕ) :
    passUnits points (box.map fun (i : ℕ) => (i : ℤ)) (cutTo data len) =
      some (box.map fun i => data.map (·.take (points.getD i 0).toNat)) := by
  induction box generalizing len with
  | nil => rfl
  | cons i box ih =>
    have hi := hb i (List.mem_cons_self ..)
    have e : rd points (i : ℤ) = some (points.getD i 0) := by
      rw [rd_natCast, List.getElem?_eq_getElem hi, List.getD_eq_getElem _ _ hi]
    have hg : points.getD i 0 ∈ points := by
      rw [List.getD_eq_getElem _ _ hi]
      exact List.getElem_mem hi
    rw [List.map_cons]
    unfold passUnits
    rw [e, Option.bind_eq_bind, Option.bind_some, resliceUnits_cut data m len hm _ hne, if_pos (hp _ hg),
      Option.bind_eq_bind, Option.bind_some, ih (fun x hx => hb x (List.mem_cons_of_mem _ hx)), Option.bind_eq_bind,
      Option.bind_some, cutTo_visible]
    rfl

/-- A sample lies in the unit tetrahedron. -/
theorem sampleAt_unit (draw : ℕ → ℚ) (hd : ∀ n, 0 ≤ draw n ∧ draw n ≤ 1) (m bi j : ℕ) :
    UnitPoint (sampleAt draw m bi j) := by
  unfold sampleAt
  have h := (Verif.Main.distributeUnit_unit [fun k => draw (3 * (m * bi + j) + k.val)] (by
    intro p hp j
    rw [List.mem_singleton.mp hp]
    exact hd _)).2
  refine h _ ?_
  unfold foldPoint distributeUnit
  simp

/-- C152: whatever the order of the passes, and however many points the boxes of the passes before asked for, a pass
over a box is given exactly the number of points the box asks for, in every buffer the first of the same drawn samples. -/
theorem C152_points (draw : ℕ → ℚ) (nUnit : ℕ) (hn : 0 < nUnit) (points : List ℤ) (hp : ∀ p ∈ points, 0 ≤ p)
    (box : List ℕ) (hb : ∀ i ∈ box, i < points.length) :
    ∃ us : List (List (List Vec)), passUnits points (box.map fun (i : ℕ) => (i : ℤ)) (unitBufs draw nUnit (maxPoints points).toNat) = some us ∧
      us.length = box.length ∧
      ∀ (k i : ℕ), box[k]? = some i → ∃ u : List (List Vec), us[k]? = some u ∧ u.length = nUnit ∧
        ∀ bi < nUnit, ∃ b : List Vec, u[bi]? = some b ∧ (b.length : ℤ) = points.getD i 0 ∧
          ∀ j < b.length, b[j]? = some (sampleAt draw (maxPoints points).toNat bi j) := by
  have hM := maxPoints_le points
  have hlen : ∀ d ∈ drawn draw nUnit (maxPoints points).toNat, d.length = (maxPoints points).toNat := by
    intro d hd
    obtain ⟨bi, -, rfl⟩ := List.mem_map.mp hd
    simp
  have hne : drawn draw nUnit (maxPoints points).toNat ≠ [] := by
    intro h
    have := congrArg List.length h
    unfold drawn at this
    simp at this
    omega
  rw [unitBufs_eq, passUnits_cut points _ (maxPoints points).toNat hlen hne
    (fun p h => ⟨hp p h, by rw [Int.toNat_of_nonneg hM.1]; exact hM.2 p h⟩) box hb]
  refine ⟨_, rfl, by simp, fun k i hk => ⟨_, by rw [List.getElem?_map, hk]; rfl, by simp [drawn], fun bi hbi => ?_⟩⟩
  have hi : i < points.length := hb i (List.mem_of_getElem? hk)
  have hg : points.getD i 0 ∈ points := by
    rw [List.getD_eq_getElem _ _ hi]
    exact List.getElem_mem hi
  have h0 := hp _ hg
  have h1 := hM.2 _ hg
  generalize maxPoints points = M at *
  refine ⟨((List.range M.toNat).map fun j => sampleAt draw M.toNat bi j).take (points.getD i 0).toNat, ?_, ?_, fun j hj => ?_⟩
  · unfold drawn
    simp [hbi]
  · rw [List.length_take, List.length_map, List.length_range]
    omega
  · rw [List.length_take, List.length_map, List.length_range] at hj
    rw [List.getElem?_take_of_lt (by omega), List.getElem?_map, List.getElem?_range (by omega)]
    rfl

/-- C152: all samples lie in the unit tetrahedron, and no two of them share a draw. -/
theorem C152_samples (draw : ℕ → ℚ) (hd : ∀ n, 0 ≤ draw n ∧ draw n ≤ 1) (m : ℕ) :
    (∀ bi j, UnitPoint (sampleAt draw m bi j)) ∧
    ∀ (bi j bi' j' : ℕ) (k k' : Fin 3), j < m → j' < m →
      3 * (m * bi + j) + k.val = 3 * (m * bi' + j') + k'.val → bi = bi' ∧ j = j' ∧ k = k' := by
  refine ⟨sampleAt_unit draw hd m, fun bi j bi' j' k k' hj hj' h => ?_⟩
  have hk := k.isLt
  have hk' := k'.isLt
  have e : m * bi + j = m * bi' + j' := by omega
  have e2 : k.val = k'.val := by omega
  have d : ∀ b i, i < m → (m * b + i) / m = b ∧ (m * b + i) % m = i := by
    intro b i hi
    have : 0 < m := by omega
    constructor
    · rw [Nat.mul_add_div this, Nat.div_eq_of_lt hi, Nat.add_zero]
    · rw [Nat.mul_add_mod, Nat.mod_eq_of_lt hi]
  have d1 := d bi j hj
  have d2 := d bi' j' hj'
  rw [e] at d1
  exact ⟨d1.1.symm.trans d2.1, d1.2.symm.trans d2.2, Fin.ext e2⟩

/-- C152: the buffer for sampled velocities holds the samples of every box, and is no longer than one of them needs. -/
theorem C152_weights (points : List ℤ) :
    (∀ p ∈ points, p ≤ weightsLen points) ∧ (weightsLen points = 0 ∨ weightsLen points ∈ points) :=
  ⟨(maxPoints_le points).2, maxPoints_mem points⟩

/-- C152: a box that asks for a negative number of points makes its pass panic. -/
theorem C152_negative (draw : ℕ → ℚ) (nUnit m : ℕ) (hn : 0 < nUnit) (points : List ℤ) (i : ℕ) (hi : i < points.length)
    (h : points[i] < 0) (box : List ℤ) : passUnits points ((i : ℤ) :: box) (unitBufs draw nUnit m) = none := by
  have hlen : ∀ d ∈ drawn draw nUnit m, d.length = m := by
    intro d hd
    obtain ⟨bi, -, rfl⟩ := List.mem_map.mp hd
    simp
  have hne : drawn draw nUnit m ≠ [] := by
    intro h
    have := congrArg List.length h
    unfold drawn at this
    simp at this
    omega
  unfold passUnits
  rw [rd_natCast, List.getElem?_eq_getElem hi, unitBufs_eq, Option.bind_eq_bind, Option.bind_some,
    resliceUnits_cut _ m m hlen _ hne, if_neg (by omega)]
  rfl

/-- Three boxes that ask for 1, 3 and 2 points; the box with the most points comes after the one with the fewest. -/
example : (passUnits [1, 3, 2] [0, 1, 2, 1] (unitBufs (fun n => 1 / (n + 2)) 2 (maxPoints [1, 3, 2]).toNat)).map
    (fun us => us.map fun u => u.map List.length) = some [[1, 1], [3, 3], [2, 2], [3, 3]] := by decide +kernel

example : (∀ p ∈ ([1, 3, 2] : List ℤ), 0 ≤ p) ∧ (∀ i ∈ ([0, 1, 2, 1] : List ℕ), i < [1, 3, 2].length) ∧
    (∀ n : ℕ, 0 ≤ (1 : ℚ) / (n + 2) ∧ (1 : ℚ) / (n + 2) ≤ 1) := by
  refine ⟨by decide, by decide, fun n => ⟨by positivity, ?_⟩⟩
  rw [div_le_one (by positivity)]
  have : (0 : ℚ) ≤ n := by positivity
  linarith

example : weightsLen [1, 3, 2] = 3 := by decide

end Verif.Render
