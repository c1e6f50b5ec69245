import Verif.Scripts.Lines

/-!
# C114: what profiles say about the density, and the table that the profile program prints
-/

set_option autoImplicit false

namespace Verif.Scripts

open Verif.Go Verif.Halo

/-! ## Linear densities -/

theorem bilinear_affine (A : ℚ) (B : Fin 3 → ℚ) (m : Fin 3) (P : Fin 3 → ℚ) :
    bilinear (fun p => A + ∑ a, B a * p a) m P = A + B m * ⌊P m⌋ + B (m + 1) * P (m + 1) + B (m + 2) * P (m + 2) := by
  rw [bilinear_eq]
  simp only [sum_axes m, corner, onAxes_0, onAxes_1, onAxes_2]
  push_cast
  ring

/-- On the main axis the points of a ray are on integers for even `S` and half way between integers for odd `S`. -/
theorem rayPoint_main {u : Fin 3 → ℚ} (hu : u ≠ 0) (S : ℤ) (j : ℕ) :
    rayPoint S u (majorAxis u) j (majorAxis u) = (if S % 2 = 0 then (0 : ℚ) else 1 / 2) +
      ⌊rayPoint S u (majorAxis u) j (majorAxis u)⌋ := by
  have hm := majorAxis_ne hu
  have h1 : ∃ s : ℤ, rayPoint S u (majorAxis u) j (majorAxis u) = S / 2 + s := by
    unfold rayPoint
    rcases lt_or_gt_of_ne hm with h | h
    · refine ⟨-j, ?_⟩
      rw [abs_of_neg h]; push_cast; field_simp
    · refine ⟨j, ?_⟩
      rw [abs_of_pos h]; push_cast; field_simp
  obtain ⟨s, hs⟩ := h1
  rw [hs]
  split_ifs with h
  · obtain ⟨t, rfl⟩ : ∃ t, S = 2 * t := ⟨S / 2, by omega⟩
    have : ((2 * t : ℤ) : ℚ) / 2 + s = ((t + s : ℤ) : ℚ) := by push_cast; ring
    rw [this, Int.floor_intCast, zero_add]
  · obtain ⟨t, rfl⟩ : ∃ t, S = 2 * t + 1 := ⟨S / 2, by omega⟩
    have e : ((2 * t + 1 : ℤ) : ℚ) / 2 + s = 1 / 2 + ((t + s : ℤ) : ℚ) := by push_cast; ring
    have f : ⌊(1 / 2 : ℚ) + ((t + s : ℤ) : ℚ)⌋ = t + s := by
      rw [Int.floor_eq_iff]
      constructor <;> linarith
    rw [e, f]

/-- C114: for a density that is a linear function of the position of the centre of each cell, the profile gives the density at
the point of the ray, moved by half a cell along each axis for even `S`, and along the two other axes than the main axis for
odd `S`. Missing: the profile does not give the density at the point itself, because the code takes the value of a cell for
the value at its lower corner. -/
theorem C114_linear_partial (grid : List Fl) (o : Fin 3 → ℤ) (S : ℤ) (u : Fin 3 → ℚ) (cw : ℝ) (hS : 0 ≤ S) (hu : u ≠ 0)
    (hg : (grid.length : ℤ) = S * S * S) (A : ℚ) (B : Fin 3 → ℚ)
    (hlin : ∀ p : Fin 3 → ℤ, (∀ a, 0 ≤ p a ∧ p a < S) →
      cellOf ⟨o, fun _ => S⟩ grid p = some (.num (A + ∑ a, B a * (p a + 1 / 2)))) :
    let m := majorAxis u
    ∃ rs rhos, extractLine grid ⟨o, fun _ => S⟩ u cw = some (rs, rhos) ∧ S / 2 - 1 ≤ rs.length ∧
      ∀ j < rs.length, rhos[j]? = some (.num (A + ∑ a, B a * (rayPoint S u m j a +
        if a = m ∧ S % 2 = 1 then 0 else 1 / 2))) := by
  intro m
  obtain ⟨rs, rhos, h1, h2, h3, h4, h5, h6⟩ := C114_points grid o S u cw hS hu hg
  refine ⟨rs, rhos, h1, h3, fun j hj => ?_⟩
  obtain ⟨-, hin, -, hq⟩ := h6 j hj
  rw [hq (fun p => (A + ∑ a, B a * (1 / 2)) + ∑ a, B a * p a) (by
    intro d1 hd1 d2 hd2
    rw [hlin _ (hin d1 hd1 d2 hd2)]
    simp only [mul_add, Finset.sum_add_distrib]
    congr 2
    ring)]
  rw [bilinear_affine]
  have hmain := rayPoint_main hu S j
  congr 2
  simp only [sum_axes m]
  have n1 : ¬ (m + 1 = m) := by generalize m = k; revert k; decide
  have n2 : ¬ (m + 2 = m) := by generalize m = k; revert k; decide
  simp only [n1, n2, false_and, if_false, true_and]
  by_cases hp : S % 2 = 0
  · have hp' : ¬ S % 2 = 1 := by omega
    rw [if_pos hp] at hmain
    rw [if_neg hp']
    have : (⌊rayPoint S u m j m⌋ : ℚ) = rayPoint S u m j m := by
      change rayPoint S u m j m = 0 + (⌊rayPoint S u m j m⌋ : ℚ) at hmain
      linarith
    rw [this]; ring
  · have hp' : S % 2 = 1 := by omega
    rw [if_neg hp] at hmain
    rw [if_pos hp']
    have : (⌊rayPoint S u m j m⌋ : ℚ) = rayPoint S u m j m - 1 / 2 := by
      change rayPoint S u m j m = 1 / 2 + (⌊rayPoint S u m j m⌋ : ℚ) at hmain
      linarith
    rw [this]; ring

/-- A grid of 4 x 4 x 4 cells with the density `x + 10 y + 100 z` at the centres of the cells. -/
def linGrid : List Fl :=
  (List.range 64).map fun i =>
    .num (((i % 4 : ℕ) : ℚ) + 1 / 2 + 10 * (((i / 4 % 4 : ℕ) : ℚ) + 1 / 2) + 100 * (((i / 16 : ℕ) : ℚ) + 1 / 2))

example : (linGrid.length : ℤ) = 4 * 4 * 4 ∧ (![1, -2, 1] : Fin 3 → ℚ) ≠ 0 ∧
    (∀ p : Fin 3 → ℤ, (∀ a, 0 ≤ p a ∧ p a < 4) →
      cellOf ⟨fun _ => 0, fun _ => 4⟩ linGrid p = some (.num (0 + ∑ a, (![1, 10, 100] : Fin 3 → ℚ) a * (p a + 1 / 2)))) ∧
    extractSquares linGrid ⟨fun _ => 0, fun _ => 4⟩ ![1, -2, 1] =
      some ([0, 3 / 2], [.num (5 / 2 + 25 + 250), .num (3 + 15 + 300)]) := by
  refine ⟨by decide, by decide +kernel, ?_, by decide +kernel⟩
  intro p hp
  have key : ∀ x y z : Fin 4, cellOf ⟨fun _ => 0, fun _ => 4⟩ linGrid ![(x : ℕ), (y : ℕ), (z : ℕ)] =
      some (.num (0 + (1 * (((x : ℕ) : ℚ) + 1 / 2) + 10 * (((y : ℕ) : ℚ) + 1 / 2) + 100 * (((z : ℕ) : ℚ) + 1 / 2)))) := by
    decide +kernel
  have h0 := hp 0
  have h1 := hp 1
  have h2 := hp 2
  obtain ⟨x, hx⟩ := Int.eq_ofNat_of_zero_le h0.1
  obtain ⟨y, hy⟩ := Int.eq_ofNat_of_zero_le h1.1
  obtain ⟨z, hz⟩ := Int.eq_ofNat_of_zero_le h2.1
  have e : p = ![(x : ℤ), (y : ℤ), (z : ℤ)] := by
    funext a; fin_cases a <;> assumption
  have := key ⟨x, by omega⟩ ⟨y, by omega⟩ ⟨z, by omega⟩
  rw [e, Fin.sum_univ_three]
  simpa using this

/-- C114 fails at the middle of the image: for the density `x + 10 y + 100 z` the first value of each profile of a
4 x 4 x 4 image, at radius 0, should be the density `2 + 20 + 200` at the middle. -/
theorem C114_center_counterexample : ∃ rs rhos, extractLine linGrid ⟨fun _ => 0, fun _ => 4⟩ ![1, 0, 0] 1 = some (rs, rhos) ∧
    rs[0]? = some 0 ∧ rhos[0]? = some (.num (5 / 2 + 25 + 250)) := by
  have h : extractSquares linGrid ⟨fun _ => 0, fun _ => 4⟩ ![1, 0, 0] = some ([0], [.num (5 / 2 + 25 + 250)]) := by
    decide +kernel
  refine ⟨_, _, bind_of h rfl, ?_, rfl⟩
  simp

/-- C114 fails for images that are not cubes: the profile in the z direction of an image of 4 x 4 x 8 cells is empty. -/
theorem C114_box_counterexample (cw : ℝ) :
    extractLine (List.replicate 128 (.num 1)) ⟨fun _ => 0, ![4, 4, 8]⟩ ![0, 0, 1] cw = some ([], []) := by
  have h : extractSquares (List.replicate 128 (.num 1)) ⟨fun _ => 0, ![4, 4, 8]⟩ ![0, 0, 1] = some ([], []) := by
    decide +kernel
  exact bind_of h rfl

/-! ## Bounds -/

/-- C114: a profile of a cubic image without NaN cells has no NaN, and its values are between the smallest and the largest
value of the image. -/
theorem C114_bounds (grid : List Fl) (o : Fin 3 → ℤ) (S : ℤ) (u : Fin 3 → ℚ) (cw : ℝ) (hS : 0 ≤ S) (hu : u ≠ 0)
    (hg : (grid.length : ℤ) = S * S * S) (lo hi : ℚ) (hv : ∀ v ∈ grid, ∃ q, v = .num q ∧ lo ≤ q ∧ q ≤ hi) :
    ∃ rs rhos, extractLine grid ⟨o, fun _ => S⟩ u cw = some (rs, rhos) ∧ rs.length = rhos.length ∧
      ∀ rho ∈ rhos, ∃ q, rho = .num q ∧ lo ≤ q ∧ q ≤ hi := by
  obtain ⟨rs, rhos, h1, h2, h3, h4, h5, h6⟩ := C114_points grid o S u cw hS hu hg
  refine ⟨rs, rhos, h1, h2, fun rho hr => ?_⟩
  obtain ⟨j, hj, e⟩ := List.getElem_of_mem hr
  obtain ⟨-, hin, -, hq⟩ := h6 j (by omega)
  set P := rayPoint S u (majorAxis u) j
  set m := majorAxis u
  have hc : ∀ p : Fin 3 → ℤ, (∀ a, 0 ≤ p a ∧ p a < S) →
      ∃ q, cellOf ⟨o, fun _ => S⟩ grid p = some (.num q) ∧ lo ≤ q ∧ q ≤ hi := by
    intro p hp
    obtain ⟨v, ev⟩ := cellOf_some (b := ⟨o, fun _ => S⟩) hg hp
    have hlt := cellIdx_lt (b := ⟨o, fun _ => S⟩) hp
    have hmem : v ∈ grid := by
      obtain ⟨i, hi⟩ := Int.eq_ofNat_of_zero_le hlt.1
      unfold cellOf at ev
      rw [hi, rd_natCast] at ev
      exact List.mem_of_getElem? ev
    obtain ⟨q, rfl, a, b⟩ := hv v hmem
    exact ⟨q, ev, a, b⟩
  let val : (Fin 3 → ℤ) → ℚ := fun p =>
    match cellOf ⟨o, fun _ => S⟩ grid p with
    | some (.num q) => q
    | _ => lo
  have hval : ∀ d1 < 2, ∀ d2 < 2, cellOf ⟨o, fun _ => S⟩ grid (corner m P d1 d2) = some (.num (val (corner m P d1 d2))) ∧
      lo ≤ val (corner m P d1 d2) ∧ val (corner m P d1 d2) ≤ hi := by
    intro d1 hd1 d2 hd2
    obtain ⟨q, e, a, b⟩ := hc _ (hin d1 hd1 d2 hd2)
    have : val (corner m P d1 d2) = q := by simp only [val, e]
    rw [this]
    exact ⟨e, a, b⟩
  have hrho := hq val fun d1 hd1 d2 hd2 => (hval d1 hd1 d2 hd2).1
  rw [List.getElem?_eq_getElem hj, e] at hrho
  refine ⟨_, Option.some.inj hrho, ?_⟩
  rw [bilinear_eq]
  obtain ⟨-, a00, b00⟩ := hval 0 (by omega) 0 (by omega)
  obtain ⟨-, a01, b01⟩ := hval 0 (by omega) 1 (by omega)
  obtain ⟨-, a10, b10⟩ := hval 1 (by omega) 0 (by omega)
  obtain ⟨-, a11, b11⟩ := hval 1 (by omega) 1 (by omega)
  have f1 := Int.floor_le (P (m + 1))
  have f2 := Int.lt_floor_add_one (P (m + 1))
  have f3 := Int.floor_le (P (m + 2))
  have f4 := Int.lt_floor_add_one (P (m + 2))
  generalize hx : P (m + 1) - ⌊P (m + 1)⌋ = x
  generalize hy : P (m + 2) - ⌊P (m + 2)⌋ = y
  have x0 : 0 ≤ x := by linarith
  have x1 : 0 ≤ 1 - x := by linarith
  have y0 : 0 ≤ y := by linarith
  have y1 : 0 ≤ 1 - y := by linarith
  generalize val (corner m P 0 0) = v1 at *
  generalize val (corner m P 0 1) = v2 at *
  generalize val (corner m P 1 0) = v3 at *
  generalize val (corner m P 1 1) = v4 at *
  have w1 := mul_nonneg x1 y1
  have w2 := mul_nonneg x1 y0
  have w3 := mul_nonneg x0 y1
  have w4 := mul_nonneg x0 y0
  constructor
  · have := mul_le_mul_of_nonneg_right a00 w1
    have := mul_le_mul_of_nonneg_right a01 w2
    have := mul_le_mul_of_nonneg_right a10 w3
    have := mul_le_mul_of_nonneg_right a11 w4
    nlinarith
  · have := mul_le_mul_of_nonneg_right b00 w1
    have := mul_le_mul_of_nonneg_right b01 w2
    have := mul_le_mul_of_nonneg_right b10 w3
    have := mul_le_mul_of_nonneg_right b11 w4
    nlinarith

example : ∀ v ∈ linGrid, ∃ q, v = Fl.num q ∧ 0 ≤ q ∧ q ≤ 400 := by
  have h : ∀ v ∈ linGrid, (match v with | .num q => decide (0 ≤ q ∧ q ≤ 400) | .nan => false) = true := by decide +kernel
  intro v hv
  have := h v hv
  cases v with
  | nan => simp at this
  | num q => exact ⟨q, rfl, by simpa using this⟩

/-- C114: the radii of a profile of a cubic image start at 0 and grow by the same positive step, which is at least the width
of a cell. -/
theorem C114_radii (grid : List Fl) (o : Fin 3 → ℤ) (S : ℤ) (u : Fin 3 → ℚ) (cw : ℝ) (hS : 0 ≤ S) (hu : u ≠ 0)
    (hcw : 0 < cw) (hg : (grid.length : ℤ) = S * S * S) :
    ∃ rs rhos, extractLine grid ⟨o, fun _ => S⟩ u cw = some (rs, rhos) ∧
      ∃ step : ℝ, cw ≤ step ∧ ∀ j < rs.length, rs[j]? = some (j * step) := by
  obtain ⟨rs, rhos, h1, h2, h3, h4, h5, h6⟩ := C114_points grid o S u cw hS hu hg
  have hm := abs_pos.mpr (majorAxis_ne hu)
  have hs : (1 : ℚ) ≤ ∑ a, (u a / |u (majorAxis u)|) ^ 2 := by
    have : (u (majorAxis u) / |u (majorAxis u)|) ^ 2 = 1 := by
      rw [div_pow, sq_abs, div_self]
      exact pow_ne_zero 2 (majorAxis_ne hu)
    calc (1 : ℚ) = (u (majorAxis u) / |u (majorAxis u)|) ^ 2 := this.symm
      _ ≤ _ := Finset.single_le_sum (f := fun a => (u a / |u (majorAxis u)|) ^ 2) (fun a _ => sq_nonneg _)
        (Finset.mem_univ _)
  refine ⟨rs, rhos, h1, cw * Real.sqrt ((∑ a, (u a / |u (majorAxis u)|) ^ 2 : ℚ) : ℝ), ?_, fun j hj => ?_⟩
  · refine le_mul_of_one_le_right hcw.le ?_
    rw [Real.one_le_sqrt]
    exact_mod_cast hs
  · rw [(h6 j hj).1]
    have e : (∑ a, (rayPoint S u (majorAxis u) j a - S / 2) ^ 2 : ℚ) =
        (j : ℚ) ^ 2 * ∑ a, (u a / |u (majorAxis u)|) ^ 2 := by
      rw [Finset.mul_sum]
      refine Finset.sum_congr rfl fun a _ => ?_
      unfold rayPoint
      field_simp
      ring
    have e2 : (((j : ℚ) ^ 2 * ∑ a, (u a / |u (majorAxis u)|) ^ 2 : ℚ) : ℝ) =
        (j : ℝ) ^ 2 * ((∑ a, (u a / |u (majorAxis u)|) ^ 2 : ℚ) : ℝ) := by push_cast; rfl
    rw [e, e2, Real.sqrt_mul (by positivity), Real.sqrt_sq (by positivity)]
    congr 1
    ring

example : ∃ step : ℝ, (1 : ℝ) ≤ step ∧ ∃ rs rhos,
    extractLine linGrid ⟨fun _ => 0, fun _ => 4⟩ ![1, -2, 1] 1 = some (rs, rhos) ∧ rs.length = 2 ∧ rs[1]? = some step := by
  obtain ⟨rs, rhos, h, step, h1, h2⟩ := C114_radii linGrid (fun _ => 0) 4 ![1, -2, 1] 1 (by norm_num)
    (by decide +kernel) one_pos (by decide)
  have h' : extractSquares linGrid ⟨fun _ => 0, fun _ => 4⟩ ![1, -2, 1] =
      some ([0, 3 / 2], [.num (5 / 2 + 25 + 250), .num (3 + 15 + 300)]) := by decide +kernel
  have hl : rs.length = 2 := by
    have : extractLine linGrid ⟨fun _ => 0, fun _ => 4⟩ ![1, -2, 1] 1 = some (_, _) := bind_of h' rfl
    rw [this] at h
    have := (Prod.mk.inj (Option.some.inj h)).1
    rw [← this]; rfl
  exact ⟨step, h1, rs, rhos, h, hl, by rw [h2 1 (by omega)]; simp⟩

/-! ## The table -/

theorem minLen_spec {α β : Type} (profs : List (List α × List β)) (m : ℕ) :
    (profs.foldl (fun m p => if m > p.1.length then p.1.length else m) m ≤ m) ∧
    (∀ p ∈ profs, profs.foldl (fun m p => if m > p.1.length then p.1.length else m) m ≤ p.1.length) ∧
    (profs.foldl (fun m p => if m > p.1.length then p.1.length else m) m = m ∨
      ∃ p ∈ profs, profs.foldl (fun m p => if m > p.1.length then p.1.length else m) m = p.1.length) := by
  induction profs generalizing m with
  | nil => simp
  | cons p ps ih =>
    obtain ⟨h1, h2, h3⟩ := ih (if m > p.1.length then p.1.length else m)
    rw [List.foldl_cons]
    refine ⟨?_, ?_, ?_⟩
    · split_ifs at h1 ⊢ <;> omega
    · intro q hq
      rcases List.mem_cons.1 hq with rfl | hq
      · split_ifs at h1 ⊢ <;> omega
      · exact h2 q hq
    · rcases h3 with h3 | ⟨q, hq, h3⟩
      · rw [h3]
        split_ifs
        · exact .inr ⟨p, by simp, rfl⟩
        · exact .inl rfl
      · exact .inr ⟨q, by simp [hq], h3⟩

theorem row_spec {α β : Type} (profs : List (List α × List β)) (col : ℕ)
    (h : ∀ p ∈ profs, col < p.1.length ∧ col < p.2.length) (acc : List (α × β)) :
    ∃ row, profs.foldlM (fun (row : List (α × β)) p => do
      let r ← rd p.1 col
      let rho ← rd p.2 col
      some (row ++ [(r, rho)])) acc = some (acc ++ row) ∧ row.length = profs.length ∧
      ∀ k (hk : k < profs.length), ∃ r rho, row[k]? = some (r, rho) ∧ profs[k].1[col]? = some r ∧
        profs[k].2[col]? = some rho := by
  induction profs generalizing acc with
  | nil => exact ⟨[], by simp, rfl, fun k hk => absurd hk (by simp)⟩
  | cons p ps ih =>
    obtain ⟨a, b⟩ := h p (by simp)
    obtain ⟨row, e, l, hr⟩ := ih (fun q hq => h q (by simp [hq])) (acc ++ [(p.1[col], p.2[col])])
    refine ⟨(p.1[col], p.2[col]) :: row, ?_, by simp [l], ?_⟩
    · rw [List.foldlM_cons]
      refine bind_of (bind_of (rd_of_lt a) (bind_of (rd_of_lt b) rfl)) ?_
      rw [e]; simp
    · intro k hk
      cases k with
      | zero => exact ⟨p.1[col], p.2[col], by simp, by simp [a], by simp [b]⟩
      | succ k =>
        obtain ⟨r, rho, h1, h2, h3⟩ := hr k (by simpa using hk)
        exact ⟨r, rho, by simpa using h1, by simpa using h2, by simpa using h3⟩

theorem printProfiles_spec {α β : Type} (profs : List (List α × List β)) (hne : profs ≠ [])
    (heq : ∀ p ∈ profs, p.1.length = p.2.length) :
    ∃ rows, printProfiles profs = some rows ∧ (∀ p ∈ profs, rows.length ≤ p.1.length) ∧
      (∃ p ∈ profs, rows.length = p.1.length) ∧
      ∀ col < rows.length, ∃ row, rows[col]? = some row ∧ row.length = profs.length ∧
        ∀ k (hk : k < profs.length), ∃ r rho, row[k]? = some (r, rho) ∧ profs[k].1[col]? = some r ∧
          profs[k].2[col]? = some rho := by
  obtain ⟨p0, ps, rfl⟩ := List.exists_cons_of_ne_nil hne
  obtain ⟨h1, h2, h3⟩ := minLen_spec (p0 :: ps) p0.1.length
  set minLen := (p0 :: ps).foldl (fun m p => if m > p.1.length then p.1.length else m) p0.1.length with hml
  obtain ⟨rows, e, hinv⟩ := forRange_spec (fun (c : ℤ) (rows : List (List (α × β))) => (rows.length : ℤ) = c ∧
      ∀ col < rows.length, ∃ row, rows[col]? = some row ∧ row.length = (p0 :: ps).length ∧
        ∀ k (hk : k < (p0 :: ps).length), ∃ r rho, row[k]? = some (r, rho) ∧ (p0 :: ps)[k].1[col]? = some r ∧
          (p0 :: ps)[k].2[col]? = some rho) (lo := 0) (hi := (minLen : ℤ)) (by omega)
    (fun col rows => do
      let row ← (p0 :: ps).foldlM (fun (row : List (α × β)) p => do
        let r ← rd p.1 col
        let rho ← rd p.2 col
        some (row ++ [(r, rho)])) []
      some (rows ++ [row])) [] ⟨rfl, fun col h => absurd h (by simp)⟩ (by
    intro c rows c0 c1 ⟨hl, hr⟩
    obtain ⟨c, rfl⟩ := Int.eq_ofNat_of_zero_le c0
    have hl : rows.length = c := by exact_mod_cast hl
    have c1 : c < minLen := by exact_mod_cast c1
    obtain ⟨row, e, l, hrow⟩ := row_spec (p0 :: ps) c (fun p hp => by
      have := h2 p hp
      have := heq p hp
      omega) []
    refine ⟨rows ++ [row], bind_of e (by simp), ?_, ?_⟩
    · simp [hl]
    · intro col hcol
      by_cases hc : col < rows.length
      · obtain ⟨row', e', x⟩ := hr col hc
        exact ⟨row', by rw [List.getElem?_append_left hc]; exact e', x⟩
      · have : col = c := by simp at hcol; omega
        subst this
        exact ⟨row, by rw [← hl]; simp, l, hrow⟩)
  have hlen : rows.length = minLen := by exact_mod_cast hinv.1
  refine ⟨rows, bind_of (rd_of_lt (by simp : 0 < (p0 :: ps).length)) e, fun p hp => by rw [hlen]; exact h2 p hp, ?_, hinv.2⟩
  rcases h3 with h3 | ⟨p, hp, h3⟩
  · exact ⟨p0, by simp, by rw [hlen, h3]⟩
  · exact ⟨p, hp, by rw [hlen, h3]⟩

theorem lineProfilesFrom_spec {grid : List Fl} {b : Bounds} (h0 : ∀ j, 0 ≤ b.span j)
    (hg : (grid.length : ℤ) = b.span 0 * b.span 1 * b.span 2) (cw : ℝ) (draw : ℕ → Fin 3 → ℚ) (N : ℕ) :
    ∀ (f k : ℕ) (acc : List (List ℝ × List Fl)), acc.length = k → k ≤ N → N < f + k →
      (∀ i (hi : i < acc.length), extractLine grid b (draw i) cw = some acc[i]) →
      ∃ out, lineProfilesFrom grid b cw draw N f k acc = some (out, N) ∧ out.length = N ∧
        ∀ i (hi : i < out.length), extractLine grid b (draw i) cw = some out[i] := by
  intro f
  induction f with
  | zero => intro k acc h1 h2 h3; omega
  | succ f ih =>
    intro k acc h1 h2 h3 h4
    unfold lineProfilesFrom
    split_ifs with h
    · exact ⟨acc, by rw [← h, h1], h, h4⟩
    · obtain ⟨rs, rhos, e, -⟩ := C114_no_panic grid b (draw k) cw h0 hg
      obtain ⟨out, e', l, ho⟩ := ih (k + 1) (acc ++ [(rs, rhos)]) (by simp [h1]) (by omega) (by omega) (by
        intro i hi
        by_cases hc : i < acc.length
        · rw [List.getElem_append_left hc]; exact h4 i hc
        · have : i = k := by simp at hi; omega
          subst this
          rw [List.getElem_append_right (by omega)]
          simpa [h1] using e)
      exact ⟨out, bind_of e e', l, ho⟩

/-- C114: each table of the profile program is complete. For any grid that fills its bounds, any directions and any positive
number of profiles, the program tries one direction per profile and does not panic. The table has as many rows as the shortest
profile has points. Row `i` has, for each profile, the radius and the density of point `i`. -/
theorem C114_table (grid : List Fl) (b : Bounds) (cw : ℝ) (draw : ℕ → Fin 3 → ℚ) (profCount fuel : ℕ)
    (h0 : ∀ j, 0 ≤ b.span j) (hg : (grid.length : ℤ) = b.span 0 * b.span 1 * b.span 2) (hN : 0 < profCount)
    (hf : profCount < fuel) :
    ∃ profs rows, lineProfilesFrom grid b cw draw profCount fuel 0 [] = some (profs, profCount) ∧
      profileTable grid b cw draw profCount fuel = some rows ∧ profs.length = profCount ∧
      (∀ k (hk : k < profs.length), extractLine grid b (draw k) cw = some profs[k] ∧ rows.length ≤ profs[k].1.length) ∧
      (∃ p ∈ profs, rows.length = p.1.length) ∧
      ∀ i < rows.length, ∃ row, rows[i]? = some row ∧ row.length = profCount ∧
        ∀ k (hk : k < profs.length), ∃ r rho, row[k]? = some (r, rho) ∧ profs[k].1[i]? = some r ∧
          profs[k].2[i]? = some rho := by
  obtain ⟨profs, e, l, hp⟩ := lineProfilesFrom_spec h0 hg cw draw profCount fuel 0 [] rfl (by omega) (by omega)
    (fun i hi => absurd hi (by simp))
  have heq : ∀ p ∈ profs, p.1.length = p.2.length := by
    intro p hpm
    obtain ⟨i, hi, rfl⟩ := List.getElem_of_mem hpm
    obtain ⟨rs, rhos, e, h, -⟩ := C114_no_panic grid b (draw i) cw h0 hg
    rw [hp i hi] at e
    have := Option.some.inj e
    rw [this]; exact h
  obtain ⟨rows, er, h1, h2, h3⟩ := printProfiles_spec profs (by rintro rfl; simp at l; omega) heq
  refine ⟨profs, rows, e, bind_of e er, l, fun k hk => ⟨hp k hk, h1 _ (List.getElem_mem hk)⟩, h2, fun i hi => ?_⟩
  obtain ⟨row, a, c, d⟩ := h3 i hi
  exact ⟨row, a, c.trans l, d⟩

example : ∃ rows, profileTable linGrid ⟨fun _ => 0, fun _ => 4⟩ 1 (fun k => ![1, -2, k]) 3 4 = some rows ∧
    rows.length ≤ 2 := by
  obtain ⟨profs, rows, h1, h2, h3, h4, h5, h6⟩ := C114_table linGrid ⟨fun _ => 0, fun _ => 4⟩ 1 (fun k => ![1, -2, k]) 3 4
    (by decide) (by decide) (by norm_num) (by norm_num)
  refine ⟨rows, h2, ?_⟩
  obtain ⟨a, c⟩ := h4 0 (by omega)
  obtain ⟨rs, rhos, e, -, h⟩ := C114_no_panic linGrid ⟨fun _ => 0, fun _ => 4⟩ ![1, -2, (0 : ℕ)] 1 (by decide) (by decide)
  rw [a] at e
  have := Option.some.inj e
  rw [this] at c
  have h : (rs.length : ℤ) ≤ 2 := h
  simp only at c
  omega

end Verif.Scripts
