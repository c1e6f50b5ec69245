import Verif.Render.BufModel
import Verif.Render.Project
import Verif.Geom.DerivOps

/-!
# Quantities and finalised buffers: C55, C56, C92, C93
-/

set_option autoImplicit false

namespace Verif.Render

open Verif.Go Verif.Geom

/-! ## C55 -/

/-- Every quantity but the first has a name which is read back as the same quantity. Missing: density, whose name
cannot be printed (see `C55_counterexample`). -/
theorem C55_names_partial (q : ℤ) (h1 : 1 ≤ q) (h2 : q ≤ 4) :
    ∃ s, quantityString q = some s ∧ quantityFromString s = (q, true) := by
  rcases (by omega : q = 1 ∨ q = 2 ∨ q = 3 ∨ q = 4) with rfl | rfl | rfl | rfl
  · exact ⟨"DensityGradient", by decide, by decide⟩
  · exact ⟨"Velocity", by decide, by decide⟩
  · exact ⟨"VelocityDivergence", by decide, by decide⟩
  · exact ⟨"VelocityCurl", by decide, by decide⟩

/-- The names that are accepted: exactly five, each standing for its own quantity; every other string is rejected. -/
theorem C55_parse (s : String) (q : ℤ) :
    quantityFromString s = (q, true) ↔
      (s = "Density" ∧ q = 0) ∨ (s = "DensityGradient" ∧ q = 1) ∨ (s = "Velocity" ∧ q = 2) ∨
      (s = "VelocityDivergence" ∧ q = 3) ∨ (s = "VelocityCurl" ∧ q = 4) := by
  unfold quantityFromString
  constructor
  · intro h
    split_ifs at h <;> simp_all
  · rintro (⟨rfl, rfl⟩ | ⟨rfl, rfl⟩ | ⟨rfl, rfl⟩ | ⟨rfl, rfl⟩ | ⟨rfl, rfl⟩) <;> decide

example : quantityFromString "Velocity" = (2, true) ∧ (quantityFromString "velocity").2 = false := by decide

/-- Printing the first quantity, density, panics. -/
theorem C55_counterexample : quantityFromString "Density" = (0, true) ∧ quantityString 0 = none := by decide

/-! ## C56 -/

/-- What is computed for a cell. -/
def meanWith (B : BArith) (v : Vec) (n : ℤ) (j : Fin 3) : ℚ := if n = 0 then 0 else B.mean (v j) n

/-- Mean per cell: sum over count, zero where there is nothing. -/
def meanOf (v : Vec) (n : ℤ) (j : Fin 3) : ℚ := if n = 0 then 0 else v j / n

theorem means_with (B : BArith) (pick : Fin 3 → Fin 3) (vecs : List Vec) (num : List ℤ) (hn : num.length = vecs.length) :
    ∃ out, forRange 0 vecs.length (fun i out => meanStep pick vecs num i out B)
        (fun _ => List.replicate vecs.length 0) = some out ∧
      (∀ j, (out j).length = vecs.length) ∧
      ∀ (i : ℤ) v n, rd vecs i = some v → rd num i = some n → ∀ j, rd (out j) i = some (meanWith B v n (pick j)) := by
  obtain ⟨out, e, hl, hv, -⟩ := forRange_nat
    (fun k (out : Fin 3 → List ℚ) => (∀ j, (out j).length = vecs.length) ∧
      (∀ (i : ℤ) v n, i < k → rd vecs i = some v → rd num i = some n → ∀ j, rd (out j) i = some (meanWith B v n (pick j))) ∧
      (∀ (i : ℤ), k ≤ i → i < vecs.length → ∀ j, rd (out j) i = some 0))
    (Nat.zero_le vecs.length) (fun i out => meanStep pick vecs num i out B) (fun _ => List.replicate vecs.length 0)
    (by
      refine ⟨fun j => List.length_replicate, fun i v n h0 h1 => ?_, fun i h0 h1 j => ?_⟩
      · have := (rd_some_lt h1).1
        simp at h0
        omega
      · obtain ⟨k, rfl⟩ := Int.eq_ofNat_of_zero_le (by simpa using h0)
        rw [rd_natCast, List.getElem?_replicate, if_pos (by exact_mod_cast h1)])
    (by
      rintro k out - hk ⟨hl, hv, hz⟩
      obtain ⟨v, hv'⟩ := rd_isSome (xs := vecs) (i := (k : ℤ)) (by omega) (by exact_mod_cast hk)
      obtain ⟨n, hn'⟩ := rd_isSome (xs := num) (i := (k : ℤ)) (by omega) (by rw [hn]; exact_mod_cast hk)
      by_cases h0 : n = 0
      · refine ⟨out, ?_, hl, ?_, fun i h1 h2 j => hz i (by push_cast at h1; omega) h2 j⟩
        · unfold meanStep
          refine bind_of hv' (bind_of hn' ?_)
          rw [if_pos h0]
        · intro i v' n' h1 h2 h3 j
          push_cast at h1
          rcases (by omega : i < k ∨ i = k) with h | rfl
          · exact hv i v' n' h h2 h3 j
          · rw [hz k le_rfl (by exact_mod_cast hk) j]
            rw [hn'] at h3
            cases h3
            unfold meanWith
            rw [if_pos h0]
      · have hw : ∀ j, wr (out j) (k : ℤ) (B.mean (v (pick j)) n) = some ((out j).set k (B.mean (v (pick j)) n)) := fun j =>
          wr_natCast (by rw [hl j]; exact hk)
        have hset : ∀ j, (![(out 0).set k (B.mean (v (pick 0)) n), (out 1).set k (B.mean (v (pick 1)) n),
            (out 2).set k (B.mean (v (pick 2)) n)] : Fin 3 → List ℚ) j = (out j).set k (B.mean (v (pick j)) n) := by
          intro j; fin_cases j <;> rfl
        refine ⟨![(out 0).set k (B.mean (v (pick 0)) n), (out 1).set k (B.mean (v (pick 1)) n), (out 2).set k (B.mean (v (pick 2)) n)],
          ?_, ?_, ?_, ?_⟩
        · unfold meanStep
          refine bind_of hv' (bind_of hn' ?_)
          rw [if_neg h0]
          exact bind_of (hw 0) (bind_of (hw 1) (bind_of (hw 2) rfl))
        · intro j
          rw [hset j, List.length_set, hl j]
        · intro i v' n' h1 h2 h3 j
          push_cast at h1
          rw [hset j, rd_set _ _ _ _ (by rw [hl j]; exact hk)]
          rcases (by omega : i < k ∨ i = k) with h | rfl
          · rw [if_neg (by omega)]
            exact hv i v' n' h h2 h3 j
          · rw [if_pos rfl]
            rw [hv'] at h2
            rw [hn'] at h3
            cases h2
            cases h3
            unfold meanWith
            rw [if_neg h0]
        · intro i h1 h2 j
          push_cast at h1
          rw [hset j, rd_set _ _ _ _ (by rw [hl j]; exact hk), if_neg (by omega)]
          exact hz i (by omega) h2 j)
  refine ⟨out, e, hl, fun i v n h1 h2 => hv i v n ?_ h1 h2⟩
  exact (rd_some_lt h1).2

theorem means_spec (pick : Fin 3 → Fin 3) (vecs : List Vec) (num : List ℤ) (hn : num.length = vecs.length) :
    ∃ out, forRange 0 vecs.length (fun i out => meanStep pick vecs num i out)
        (fun _ => List.replicate vecs.length 0) = some out ∧
      (∀ j, (out j).length = vecs.length) ∧
      ∀ (i : ℤ) v n, rd vecs i = some v → rd num i = some n → ∀ j, rd (out j) i = some (meanOf v n (pick j)) :=
  means_with exactB pick vecs num hn

/-- **C56** holds for images of at least 30 cells, and for empty ones. Missing: between 1 and 29 cells the call panics
(see `C56_counterexample`). -/
theorem C56_mean_partial (vecs : List Vec) (num : List ℤ) (hn : num.length = vecs.length)
    (hlen : vecs.length = 0 ∨ 30 ≤ vecs.length) :
    ∃ out, velFinalize vecs num = some out ∧ (∀ j, (out j).length = vecs.length) ∧
      ∀ (i : ℤ) v n, rd vecs i = some v → rd num i = some n →
        ∀ j, rd (out j) i = some (if n = 0 then 0 else v j / n) := by
  obtain ⟨out, e, hl, hv⟩ := means_spec id vecs num hn
  refine ⟨out, ?_, hl, hv⟩
  rw [← e]
  unfold velFinalize
  rcases hlen with h | h
  · rw [h]
    rw [forRange_empty (by simp), forRange_empty (by simp)]
  · have : ¬ (vecs.length : ℤ).tdiv 30 = 0 := by
      rw [Int.tdiv_eq_ediv_of_nonneg (by positivity)]
      omega
    simp only [if_neg this]

example : ∃ out, velFinalize (List.replicate 30 ![2, 4, 6]) (List.replicate 29 2 ++ [0]) = some out ∧
    rd (out 1) 3 = some 2 ∧ rd (out 1) 29 = some 0 := by
  obtain ⟨out, e, -, h⟩ := C56_mean_partial (List.replicate 30 ![2, 4, 6]) (List.replicate 29 2 ++ [0]) (by simp) (by simp)
  refine ⟨out, e, ?_, ?_⟩
  · rw [h 3 ![2, 4, 6] 2 (by decide +kernel) (by decide +kernel) 1]
    decide +kernel
  · rw [h 29 ![2, 4, 6] 0 (by decide +kernel) (by decide +kernel) 1]
    decide +kernel

/-- Between 1 and 29 cells finalising a velocity image always panics. -/
theorem C56_counterexample (vecs : List Vec) (num : List ℤ) (h1 : 0 < vecs.length) (h2 : vecs.length < 30) :
    velFinalize vecs num = none := by
  unfold velFinalize
  have : (vecs.length : ℤ).tdiv 30 = 0 := by
    rw [Int.tdiv_eq_ediv_of_nonneg (by positivity)]
    omega
  rw [forRange_step (by exact_mod_cast h1)]
  simp only [if_pos this]
  rfl

example : velFinalize (List.replicate 27 ![1, 1, 1]) (List.replicate 27 1) = none :=
  C56_counterexample _ _ (by simp) (by simp)

/-! ## C92: velocity images -/

/-- Value that a point with velocity `v` adds to a velocity image with weight `s`: momentum and count
(render/box.go 520-525, 560-566, 619-624, 659-668 with `ptVal = s`). -/
def velDep (s : ℚ) (v : ℤ → Vec) (idx : ℤ) : Vec × ℤ := (fun j => s * v idx j, 1)

theorem velDep_sum (s : ℚ) (v : ℤ → Vec) (S : Finset ℤ) :
    ∑ idx ∈ S, velDep s v idx = (fun j => s * ∑ idx ∈ S, v idx j, (S.card : ℤ)) := by
  apply Prod.ext
  · rw [Prod.fst_sum]
    funext j
    rw [Finset.sum_apply]
    dsimp only
    rw [Finset.mul_sum]
    rfl
  · rw [Prod.snd_sum]
    simp [velDep]

/-- Arithmetic mean of the velocities of some points, zero when there are none. -/
def meanVelocity (v : ℤ → Vec) (S : Finset ℤ) (j : Fin 3) : ℚ := if S.card = 0 then 0 else (∑ idx ∈ S, v idx j) / S.card

theorem meanOf_velDep (s : ℚ) (v : ℤ → Vec) (S : Finset ℤ) (j : Fin 3) :
    meanOf (∑ idx ∈ S, velDep s v idx).1 (∑ idx ∈ S, velDep s v idx).2 j = s * meanVelocity v S j := by
  rw [velDep_sum]
  unfold meanOf meanVelocity
  by_cases h : S.card = 0
  · simp [h]
  · have h' : (S.card : ℤ) ≠ 0 := by exact_mod_cast h
    rw [if_neg h', if_neg h]
    dsimp only
    push_cast
    ring

/-- The points of voxel `(x, y, z)` of the image. -/
def voxelPoints (cells : ℤ) (domCb : CellBounds) (S : Finset ℤ) (g : ℤ → IVec) (x y z : ℤ) : Finset ℤ :=
  S.filter fun idx => ∀ j, cells ∣ g idx j - ((![x, y, z] : IVec) j + domCb.origin j)

/-- **C92**, three dimensions: rendering velocities into an empty image and finalising gives in every voxel the mean
velocity of the points inside it. -/
theorem C92_velocity3 (cells : ℤ) (bufCb domCb : CellBounds) (h : Placed cells bufCb domCb)
    (hw : ∀ j, 0 ≤ bufCb.width j)
    (h30 : 30 ≤ domCb.width 0 * domCb.width 1 * domCb.width 2) (xs : List Vec)
    (P v : ℤ → Vec) (low high jump : ℤ) (hj : 0 < jump)
    (hP : ∀ idx ∈ visited low high jump, rd xs idx = some (P idx))
    (hin : ∀ idx ∈ visited low high jump, ∀ j, 0 ≤ P idx j ∧ P idx j < bufCb.width j) :
    ∃ buf grid out, seg3Interpolate bufCb xs (velDep 1 v) low high jump
        (List.replicate (bufferSize3 bufCb).toNat 0) = some buf ∧
      seg3Add bufCb domCb cells buf (List.replicate (boxLen3 domCb).toNat 0) = some grid ∧
      velFinalize (grid.map Prod.fst) (grid.map Prod.snd) = some out ∧
      ∀ x y z, IsCell domCb.width x y z → ∀ j,
        rd (out j) (x + y * domCb.width 0 + z * (domCb.width 0 * domCb.width 1)) =
          some (meanVelocity v (voxelPoints cells domCb (visited low high jump)
            (fun idx a => cellOf (P idx) a + bufCb.origin a) x y z) j) := by
  have hn : 0 ≤ domCb.width 0 * domCb.width 1 * domCb.width 2 := by omega
  obtain ⟨buf, grid, e1, e2, hl, hg⟩ := segment_image cells bufCb domCb h hw xs P low high jump hj hP hin (velDep 1 v)
    (List.replicate (boxLen3 domCb).toNat 0) (by simp [boxLen3, Int.toNat_of_nonneg hn])
  have hlen : (grid.length : ℤ) = domCb.width 0 * domCb.width 1 * domCb.width 2 := by
    rw [hl]; simp [boxLen3, Int.toNat_of_nonneg hn]
  obtain ⟨out, e3, -, ho⟩ := C56_mean_partial (grid.map Prod.fst) (grid.map Prod.snd) (by simp)
    (Or.inr (by rw [List.length_map]; omega))
  refine ⟨buf, grid, out, e1, e2, e3, fun x y z hc j => ?_⟩
  obtain ⟨v0, hv0, hv1⟩ := hg x y z hc
  have hr := flat_range hc
  have hz := cells_zero (M := Vec × ℤ) (boxLen3 domCb).toNat
  have hv0' : v0 = 0 := by
    have := hz.2 _ hr.1 (by rw [boxLen3, Int.toNat_of_nonneg hn]; exact hr.2)
    rw [hv0] at this
    exact Option.some.inj this
  rw [hv0', zero_add] at hv1
  have hmap : ∀ {β : Type} (f : Vec × ℤ → β) (i : ℤ) (a : Vec × ℤ), rd grid i = some a → rd (grid.map f) i = some (f a) := by
    intro β f i a hi
    rw [rd_some_iff] at hi ⊢
    refine ⟨hi.1, ?_⟩
    rw [List.getElem?_map, hi.2]
    rfl
  rw [ho _ _ _ (hmap Prod.fst _ _ hv1) (hmap Prod.snd _ _ hv1) j]
  have := meanOf_velDep 1 v (voxelPoints cells domCb (visited low high jump)
            (fun idx a => cellOf (P idx) a + bufCb.origin a) x y z) j
  rw [one_mul] at this
  rw [← this]
  rfl

example : Placed 8 ⟨![0, 0, 0], ![8, 8, 8]⟩ ⟨![1, 2, 3], ![4, 4, 4]⟩ ∧
    (30 : ℤ) ≤ (![4, 4, 4] : IVec) 0 * (![4, 4, 4] : IVec) 1 * (![4, 4, 4] : IVec) 2 := by
  refine ⟨?_, by decide⟩
  intro j; fin_cases j <;> decide

/-- Projected velocity images: the value of a pixel is the mean velocity of the points seen in it divided by the depth
of the image in cells. So it is the mean velocity exactly when the depth is one cell (or the mean is zero). Missing:
deeper images, for which the property is false (see `C92_projected_counterexample`). -/
theorem C92_projected_partial (cells proj : ℤ) (bufCb domCb : CellBounds) (h : Placed cells bufCb domCb)
    (hc0 : 0 < cells) (hw : ∀ j, 0 ≤ bufCb.width j)
    (h30 : 30 ≤ domCb.width (projDims proj).1 * domCb.width (projDims proj).2.1) (xs : List Vec)
    (P v : ℤ → Vec) (low high jump : ℤ) (hj : 0 < jump)
    (hP : ∀ idx ∈ visited low high jump, rd xs idx = some (P idx))
    (hf : ∀ idx ∈ visited low high jump, P idx (projDims proj).2.2 ≠ 0)
    (hin : ∀ idx ∈ visited low high jump, ∀ j, 0 ≤ P idx j ∧ P idx j < bufCb.width j) :
    ∃ buf grid out, seg2Interpolate bufCb domCb cells proj xs
        (velDep (1 / (domCb.width (projDims proj).2.2 : ℚ)) v) low high jump
        (List.replicate (bufCb.width (projDims proj).1 * bufCb.width (projDims proj).2.1).toNat 0) = some buf ∧
      seg2Add bufCb domCb cells proj buf (List.replicate (boxLen2 domCb proj).toNat 0) = some grid ∧
      velFinalize (grid.map Prod.fst) (grid.map Prod.snd) = some out ∧
      ∀ i k, (0 ≤ i ∧ i < domCb.width (projDims proj).1) → (0 ≤ k ∧ k < domCb.width (projDims proj).2.1) → ∀ j,
        rd (out j) (i + k * domCb.width (projDims proj).1) =
          some (1 / (domCb.width (projDims proj).2.2 : ℚ) * meanVelocity v ((visited low high jump).filter fun idx =>
            InPixel cells proj domCb (fun a => cellOf (P idx) a + bufCb.origin a) i k) j) := by
  have hn : 0 ≤ domCb.width (projDims proj).1 * domCb.width (projDims proj).2.1 := by omega
  obtain ⟨buf, grid, e1, e2, hl, hg⟩ := segment_image2 cells proj bufCb domCb h hc0 hw xs P low high jump hj hP hf hin
    (velDep (1 / (domCb.width (projDims proj).2.2 : ℚ)) v)
    (List.replicate (boxLen2 domCb proj).toNat 0) (by simp [boxLen2, Int.toNat_of_nonneg hn])
  have hlen : (grid.length : ℤ) = domCb.width (projDims proj).1 * domCb.width (projDims proj).2.1 := by
    rw [hl]; simp [boxLen2, Int.toNat_of_nonneg hn]
  obtain ⟨out, e3, -, ho⟩ := C56_mean_partial (grid.map Prod.fst) (grid.map Prod.snd) (by simp)
    (Or.inr (by rw [List.length_map]; omega))
  refine ⟨buf, grid, out, e1, e2, e3, fun i k hi hk j => ?_⟩
  obtain ⟨v0, hv0, hv1⟩ := hg i k hi hk
  have hr := flat2_range hi hk
  have hz := cells_zero (M := Vec × ℤ) (boxLen2 domCb proj).toNat
  have hv0' : v0 = 0 := by
    have := hz.2 _ hr.1 (by rw [boxLen2, Int.toNat_of_nonneg hn]; exact hr.2)
    rw [hv0] at this
    exact Option.some.inj this
  rw [hv0', zero_add] at hv1
  beta_reduce at hv1
  rw [sum_depth hc0 (h _).1] at hv1
  have hmap : ∀ {β : Type} (f : Vec × ℤ → β) (i : ℤ) (a : Vec × ℤ), rd grid i = some a → rd (grid.map f) i = some (f a) := by
    intro β f i a hi
    rw [rd_some_iff] at hi ⊢
    refine ⟨hi.1, ?_⟩
    rw [List.getElem?_map, hi.2]
    rfl
  rw [ho _ _ _ (hmap Prod.fst _ _ hv1) (hmap Prod.snd _ _ hv1) j, ← meanOf_velDep]
  rfl

example : Placed 16 ⟨![0, 0, 0], ![16, 16, 16]⟩ ⟨![1, 2, 3], ![6, 6, 1]⟩ ∧
    (30 : ℤ) ≤ (![6, 6, 1] : IVec) (projDims 2).1 * (![6, 6, 1] : IVec) (projDims 2).2.1 := by
  refine ⟨?_, by decide⟩
  intro j; fin_cases j <;> decide

/-- One particle moving with velocity 1 along the first axis in the middle of an image 2 cells deep and 6×5 pixels
wide: its pixel shows velocity 1/2. -/
theorem C92_projected_counterexample :
    ((do
      let buf ← seg2Interpolate ⟨![0, 0, 0], ![6, 5, 2]⟩ ⟨![0, 0, 0], ![6, 5, 2]⟩ 16 2 [![1/2, 1/2, 1/2]]
        (velDep (1 / 2) fun _ => ![1, 0, 0]) 0 1 1 (List.replicate 30 0)
      let grid ← seg2Add ⟨![0, 0, 0], ![6, 5, 2]⟩ ⟨![0, 0, 0], ![6, 5, 2]⟩ 16 2 buf (List.replicate 30 0)
      let out ← velFinalize (grid.map Prod.fst) (grid.map Prod.snd)
      rd (out 0) 0) = some (1 / 2)) ∧
    meanVelocity (fun _ => ![1, 0, 0]) {0} 0 = 1 := by
  constructor
  · decide +kernel
  · simp [meanVelocity]

/-! ## C93: divergence, curl and gradient images -/

/-- The mean velocity field of an image: sums `vecs` and counts `num`, one field per component. -/
def meanField (w : IVec) (vecs : List Vec) (num : List ℤ) (j : Fin 3) (x y z : ℤ) : ℚ :=
  meanOf ((rd vecs (x + w 0 * (y + w 1 * z))).getD 0) ((rd num (x + w 0 * (y + w 1 * z))).getD 0) j

/-- The field of the values that are computed. -/
def fieldWith (B : BArith) (w : IVec) (vecs : List Vec) (num : List ℤ) (j : Fin 3) (x y z : ℤ) : ℚ :=
  meanWith B ((rd vecs (x + w 0 * (y + w 1 * z))).getD 0) ((rd num (x + w 0 * (y + w 1 * z))).getD 0) j

theorem means_hold_with {B : BArith} {w : IVec} {pick : Fin 3 → Fin 3} {vecs : List Vec} {num : List ℤ}
    {out : Fin 3 → List ℚ} (hn : num.length = vecs.length) (hv : (vecs.length : ℤ) = w 0 * w 1 * w 2)
    (hl : ∀ j, (out j).length = vecs.length)
    (ho : ∀ (i : ℤ) v n, rd vecs i = some v → rd num i = some n → ∀ j, rd (out j) i = some (meanWith B v n (pick j)))
    (j : Fin 3) : HoldsField w (out j) (fieldWith B w vecs num (pick j)) := by
  refine ⟨by rw [hl j]; exact hv, fun x y z hc => ?_⟩
  have hr := cell_range hc
  obtain ⟨v, ev⟩ := rd_isSome (xs := vecs) hr.1 (by rw [hv]; exact hr.2)
  obtain ⟨n, en⟩ := rd_isSome (xs := num) hr.1 (by rw [hn, hv]; exact hr.2)
  rw [ho _ v n ev en j]
  unfold fieldWith
  rw [ev, en]
  rfl

theorem means_hold {w : IVec} {pick : Fin 3 → Fin 3} {vecs : List Vec} {num : List ℤ} {out : Fin 3 → List ℚ}
    (hn : num.length = vecs.length) (hv : (vecs.length : ℤ) = w 0 * w 1 * w 2)
    (hl : ∀ j, (out j).length = vecs.length)
    (ho : ∀ (i : ℤ) v n, rd vecs i = some v → rd num i = some n → ∀ j, rd (out j) i = some (meanOf v n (pick j)))
    (j : Fin 3) : HoldsField w (out j) (meanField w vecs num (pick j)) :=
  means_hold_with (B := exactB) hn hv hl ho j

theorem HoldsField.map {w : IVec} {xs : List ℚ} {F : ℤ → ℤ → ℤ → ℚ} (h : HoldsField w xs F) (f : ℚ → ℚ) :
    HoldsField w (xs.map f) (fun x y z => f (F x y z)) := by
  refine ⟨by rw [List.length_map]; exact h.1, fun x y z hc => ?_⟩
  have := h.2 x y z hc
  obtain ⟨k, hk⟩ := Int.eq_ofNat_of_zero_le (cell_range hc).1
  rw [hk, rd_natCast] at this ⊢
  rw [List.getElem?_map, this]
  rfl

/-- A curl image holds, away from the faces of the third axis, the curl of the mean velocity field. Missing: those
faces, where the derivative along the third axis is wrong (C43). -/
theorem C93_curl_partial (o w : IVec) (boxWidth : ℚ) (cells : ℤ) (hw : ∀ i, 0 < w i) (dflt : DerivOptions)
    (hu : Usable (newGridLocation o w boxWidth cells) ⟨true, .none, 4⟩) (vecs : List Vec) (num : List ℤ)
    (hn : num.length = vecs.length) (hv : (vecs.length : ℤ) = w 0 * w 1 * w 2) (out : Fin 3 → List ℚ)
    (e : curlFinalize (newGridLocation o w boxWidth cells) dflt vecs num = some out)
    (x y z : ℤ) (hc : IsCell w x y z) (hz1 : 2 ≤ z) (hz2 : z < w 2 - 2) :
    let D := fun axis j => derivAt (newGridLocation o w boxWidth cells) axis ⟨true, .none, 4⟩ (meanField w vecs num j) x y z
    rd (out 0) (x + w 0 * (y + w 1 * z)) = some (D 1 2 - D 2 1) ∧
    rd (out 1) (x + w 0 * (y + w 1 * z)) = some (D 2 0 - D 0 2) ∧
    rd (out 2) (x + w 0 * (y + w 1 * z)) = some (D 0 1 - D 1 0) := by
  unfold curlFinalize at e
  obtain ⟨m, em, e⟩ := Option.bind_eq_some_iff.mp e
  obtain ⟨r, er, e⟩ := Option.bind_eq_some_iff.mp e
  cases e
  obtain ⟨m', em', hl, ho⟩ := means_spec id vecs num hn
  rw [em] at em'
  cases em'
  exact C91_curl_partial o w boxWidth cells hw (some ⟨true, .none, 4⟩) dflt hu rfl m (meanField w vecs num)
    (fun j => means_hold hn hv hl ho j) _ (fun j => by rw [List.length_replicate]; exact hv) r er x y z hc hz1 hz2

/-- A divergence image holds, away from the faces of the third axis, ∂x v₀ + ∂y v₀ + ∂z v₂: the second term uses the
first component. It is the divergence where the first two components have the same derivative along the second axis.
Missing: everywhere else (see `C93_divergence_counterexample`), and the faces of the third axis. -/
theorem C93_divergence_partial (o w : IVec) (boxWidth : ℚ) (cells : ℤ) (hw : ∀ i, 0 < w i) (dflt : DerivOptions)
    (hu : Usable (newGridLocation o w boxWidth cells) ⟨true, .none, 4⟩) (vecs : List Vec) (num : List ℤ)
    (hn : num.length = vecs.length) (hv : (vecs.length : ℤ) = w 0 * w 1 * w 2) (out : List ℚ)
    (e : divFinalize (newGridLocation o w boxWidth cells) dflt vecs num = some out)
    (x y z : ℤ) (hc : IsCell w x y z) (hz1 : 2 ≤ z) (hz2 : z < w 2 - 2) :
    let D := fun axis j => derivAt (newGridLocation o w boxWidth cells) axis ⟨true, .none, 4⟩ (meanField w vecs num j) x y z
    rd out (x + w 0 * (y + w 1 * z)) = some (D 0 0 + D 1 0 + D 2 2) ∧
    (rd out (x + w 0 * (y + w 1 * z)) = some (D 0 0 + D 1 1 + D 2 2) ↔ D 1 0 = D 1 1) := by
  unfold divFinalize at e
  obtain ⟨m, em, e⟩ := Option.bind_eq_some_iff.mp e
  obtain ⟨r, er, e⟩ := Option.bind_eq_some_iff.mp e
  cases e
  obtain ⟨m', em', hl, ho⟩ := means_spec ![0, 0, 2] vecs num hn
  rw [em] at em'
  cases em'
  have key := C91_divergence_partial o w boxWidth cells hw (some ⟨true, .none, 4⟩) dflt hu rfl m
    (fun j => meanField w vecs num ((![0, 0, 2] : Fin 3 → Fin 3) j))
    (fun j => means_hold hn hv hl ho j) _ (by rw [List.length_replicate]; exact hv) r er x y z hc hz1 hz2
  intro D
  have k : rd r.out (x + w 0 * (y + w 1 * z)) = some (D 0 0 + D 1 0 + D 2 2) := key
  refine ⟨k, ?_⟩
  rw [k, Option.some.injEq]
  constructor <;> intro h <;> linarith

/-- A density gradient image holds the gradient of the density, its third component away from the faces. -/
theorem C93_gradient_partial (o w : IVec) (boxWidth : ℚ) (cells : ℤ) (hw : ∀ i, 0 < w i) (dflt : DerivOptions)
    (hu : Usable (newGridLocation o w boxWidth cells) ⟨true, .none, 4⟩) (vals : List ℚ) (V : ℤ → ℤ → ℤ → ℚ)
    (hv : HoldsField w vals V) (out : Fin 3 → List ℚ)
    (e : gradFinalize (newGridLocation o w boxWidth cells) dflt vals = some out)
    (x y z : ℤ) (hc : IsCell w x y z) :
    let D := fun axis => derivAt (newGridLocation o w boxWidth cells) axis ⟨true, .none, 4⟩ V x y z
    rd (out 0) (x + w 0 * (y + w 1 * z)) = some (D 0) ∧ rd (out 1) (x + w 0 * (y + w 1 * z)) = some (D 1) ∧
    (2 ≤ z → z < w 2 - 2 → rd (out 2) (x + w 0 * (y + w 1 * z)) = some (D 2)) := by
  unfold gradFinalize at e
  obtain ⟨r, er, e⟩ := Option.bind_eq_some_iff.mp e
  cases e
  exact C91_gradient_partial o w boxWidth cells hw (some ⟨true, .none, 4⟩) dflt hu rfl _ V (HoldsField.map hv exactB.conv) _
    (fun j => by rw [List.length_replicate]; exact hv.1) r er x y z hc

example : Usable (newGridLocation ![0, 0, 0] ![6, 6, 7] 10 20) ⟨true, .none, 4⟩ := by
  refine ⟨Or.inr rfl, ?_⟩
  intro axis h0 h1
  rcases (by omega : axis = 0 ∨ axis = 1 ∨ axis = 2) with rfl | rfl | rfl <;>
    exact ⟨by decide, by decide, fun _ => by decide⟩

/-- Shear flow `v = (y, 0, 0)` on a 5×5×5 image, one point per cell: its divergence is zero, the image shows 1. -/
theorem C93_divergence_counterexample :
    (divFinalize (newGridLocation ![0, 0, 0] ![5, 5, 5] 10 10) derivOptionsDefault
      ((List.range 125).map fun i => ![((i / 5 % 5 : ℕ) : ℚ), 0, 0]) (List.replicate 125 1)).bind (fun out => rd out 62) =
      some 1 := by
  decide +kernel

end Verif.Render
