import Verif.Scripts.Remove

/-!
# C114: line profiles
-/

set_option autoImplicit false

namespace Verif.Scripts

open Verif.Go Verif.Halo

/-! ## The loop -/

/-- The squared distance that belongs to point `j`. -/
def lineSq (u : Fin 3 → ℚ) (j : ℤ) : ℚ :=
  (lineOffset u j).1 * (lineOffset u j).1 + (lineOffset u j).2.1 * (lineOffset u j).2.1 +
    (lineOffset u j).2.2 * (lineOffset u j).2.2

theorem lineLoop_spec {grid : List Fl} {b : Bounds} {u : Fin 3 → ℚ}
    (hok : ∀ (j : ℤ) r, linePoint grid b u j = some r → ∃ rho, r = some rho) (L : ℕ) :
    ∀ (f j : ℕ) (sq : List ℚ) (rhos : List Fl), j + f = L → sq.length = L → rhos.length = L →
      ∃ (n : ℕ) (sq' : List ℚ) (rhos' : List Fl), j ≤ n ∧ n ≤ L ∧
        lineLoop grid b u f j (sq, rhos, j) = some (sq', rhos', (n : ℤ)) ∧ sq'.length = L ∧ rhos'.length = L ∧
        (∀ i : ℕ, i < j → sq'[i]? = sq[i]? ∧ rhos'[i]? = rhos[i]?) ∧
        (∀ i : ℕ, j ≤ i → i < n → sq'[i]? = some (lineSq u i) ∧
          ∃ rho, linePoint grid b u i = some (some rho) ∧ rhos'[i]? = some rho) ∧
        (n < L → linePoint grid b u n = none) := by
  intro f
  induction f with
  | zero =>
    intro j sq rhos h l1 l2
    exact ⟨j, sq, rhos, le_rfl, by omega, rfl, l1, l2, fun _ _ => ⟨rfl, rfl⟩, fun i a b => by omega, fun h' => by omega⟩
  | succ f ih =>
    intro j sq rhos h l1 l2
    unfold lineLoop
    cases e : linePoint grid b u j with
    | none =>
      exact ⟨j, sq, rhos, le_rfl, by omega, rfl, l1, l2, fun _ _ => ⟨rfl, rfl⟩, fun i a b => by omega, fun _ => e⟩
    | some r =>
      obtain ⟨rho, rfl⟩ := hok _ _ e
      obtain ⟨n, sq', rhos', h1, h2, h3, h4, h5, h6, h7, h8⟩ := ih (j + 1) (sq.set j (lineSq u j)) (rhos.set j rho)
        (by omega) (by simpa using l1) (by simpa using l2)
      refine ⟨n, sq', rhos', by omega, h2, ?_, h4, h5, ?_, ?_, h8⟩
      · refine bind_of rfl (bind_of (wr_natCast (show j < rhos.length by omega)) (bind_of (wr_natCast (show j < sq.length by omega)) ?_))
        push_cast at h3
        exact h3
      · intro i hi
        obtain ⟨a, c⟩ := h6 i (by omega)
        rw [a, c, List.getElem?_set, List.getElem?_set, if_neg (by omega), if_neg (by omega)]
        exact ⟨rfl, rfl⟩
      · intro i hi hn
        rcases Nat.eq_or_lt_of_le hi with rfl | hlt
        · obtain ⟨a, c⟩ := h6 j (by omega)
          rw [a, c, List.getElem?_set_self (by omega), List.getElem?_set_self (by omega)]
          exact ⟨rfl, rho, e, rfl⟩
        · exact h7 i (by omega) hn

theorem extractSquares_spec {grid : List Fl} {b : Bounds} {u : Fin 3 → ℚ} (h0 : ∀ j, 0 ≤ b.span j)
    (hok : ∀ (j : ℤ) r, linePoint grid b u j = some r → ∃ rho, r = some rho) :
    ∃ (n : ℕ) (sq : List ℚ) (rhos : List Fl), (n : ℤ) ≤ b.span (majorAxis u) / 2 ∧
      extractSquares grid b u = some (sq, rhos) ∧ sq.length = n ∧ rhos.length = n ∧
      (∀ i : ℕ, i < n → sq[i]? = some (lineSq u i) ∧
          ∃ rho, linePoint grid b u i = some (some rho) ∧ rhos[i]? = some rho) ∧
      ((n : ℤ) < b.span (majorAxis u) / 2 → linePoint grid b u n = none) := by
  have hs := h0 (majorAxis u)
  obtain ⟨s, hs'⟩ := Int.eq_ofNat_of_zero_le hs
  have hl : Int.tdiv (b.span (majorAxis u)) 2 = ((s / 2 : ℕ) : ℤ) := by rw [hs']; rfl
  have hd : b.span (majorAxis u) / 2 = ((s / 2 : ℕ) : ℤ) := by omega
  obtain ⟨n, sq, rhos, -, h2, h3, h4, h5, -, h7, h8⟩ := lineLoop_spec hok (s / 2) (s / 2) 0
    (List.replicate (s / 2) 0) (List.replicate (s / 2) (.num 0)) (by omega) (by simp) (by simp)
  refine ⟨n, sq.take n, rhos.take n, by rw [hd]; exact_mod_cast h2, ?_, by simp; omega, by simp; omega, ?_, ?_⟩
  · unfold extractSquares
    rw [hl]
    dsimp only
    rw [if_neg (by omega), Int.toNat_natCast]
    exact bind_of h3 (by simp)
  · intro i hi
    rw [List.getElem?_take_of_lt hi, List.getElem?_take_of_lt hi]
    exact h7 i (by omega) hi
  · intro h
    exact h8 (by rw [hd] at h; exact_mod_cast h)

/-! ## Geometry -/

theorem majorAxis_spec (u : Fin 3 → ℚ) : ∀ i, |u i| ≤ |u (majorAxis u)| := by
  unfold majorAxis
  dsimp only
  intro i
  split_ifs with h1 h2 h2 <;> fin_cases i <;> simp only [Fin.zero_eta, Fin.mk_one, Fin.reduceFinMk] at * <;> linarith

theorem majorAxis_ne {u : Fin 3 → ℚ} (hu : u ≠ 0) : u (majorAxis u) ≠ 0 := by
  intro h
  apply hu
  funext i
  have := majorAxis_spec u i
  rw [h, abs_zero] at this
  exact abs_nonpos_iff.mp this

/-- The cell with the given positions on the axis `a` and on the two after it. -/
def onAxes (a : Fin 3) (i0 i1 i2 : ℤ) : Fin 3 → ℤ := fun k => if k = a then i0 else if k = a + 1 then i1 else i2

theorem onAxes_idx (b : Bounds) (a : Fin 3) (i0 i1 i2 : ℤ) :
    i0 * gridMult b a + i1 * gridMult b (a + 1) + i2 * gridMult b (a + 2) = cellIdx b (onAxes a i0 i1 i2) := by
  fin_cases a
  · show i0 * gridMult b 0 + i1 * gridMult b 1 + i2 * gridMult b 2 = i2 * b.span 0 * b.span 1 + i1 * b.span 0 + i0
    simp only [gridMult]; ring
  · show i0 * gridMult b 1 + i1 * gridMult b 2 + i2 * gridMult b 0 = i1 * b.span 0 * b.span 1 + i0 * b.span 0 + i2
    simp only [gridMult]; ring
  · show i0 * gridMult b 2 + i1 * gridMult b 0 + i2 * gridMult b 1 = i0 * b.span 0 * b.span 1 + i2 * b.span 0 + i1
    simp only [gridMult]; ring

theorem onAxes_mem {b : Bounds} {a : Fin 3} {i0 i1 i2 : ℤ} (h0 : 0 ≤ i0 ∧ i0 < b.span a)
    (h1 : 0 ≤ i1 ∧ i1 < b.span (a + 1)) (h2 : 0 ≤ i2 ∧ i2 < b.span (a + 2)) :
    ∀ j, 0 ≤ onAxes a i0 i1 i2 j ∧ onAxes a i0 i1 i2 j < b.span j := by
  intro j
  unfold onAxes
  split_ifs with e1 e2
  · rw [e1]; exact h0
  · rw [e2]; exact h1
  · have : j = a + 2 := by
      clear h0 h1 h2; revert e1 e2; revert j; revert a; decide
    rw [this]; exact h2

theorem cellOf_some {b : Bounds} {grid : List Fl} (hg : (grid.length : ℤ) = b.span 0 * b.span 1 * b.span 2)
    {p : Fin 3 → ℤ} (hp : ∀ j, 0 ≤ p j ∧ p j < b.span j) : ∃ v, cellOf b grid p = some v := by
  have := cellIdx_lt hp
  exact rd_isSome this.1 (by rw [hg]; exact this.2)

/-- What a turn of the loop does, with the reads in terms of cells. -/
theorem linePoint_cells (grid : List Fl) (b : Bounds) (u : Fin 3 → ℚ) (j : ℤ) :
    linePoint grid b u j =
      let a := majorAxis u
      let x0 := (b.span 0 : ℚ) / 2 + (lineOffset u j).1
      let x1 := (b.span 1 : ℚ) / 2 + (lineOffset u j).2.1
      let x2 := (b.span 2 : ℚ) / 2 + (lineOffset u j).2.2
      if trunc x0 < 0 ∨ trunc x1 < 0 ∨ trunc x2 < 0 ∨ trunc x0 + 1 ≥ b.span a ∨ trunc x1 + 1 ≥ b.span (a + 1) ∨
        trunc x2 + 1 ≥ b.span (a + 2) then none
      else some (do
        let g00 ← cellOf b grid (onAxes a (trunc x0) (trunc x1) (trunc x2))
        let g01 ← cellOf b grid (onAxes a (trunc x0) (trunc x1) (trunc x2 + 1))
        let g10 ← cellOf b grid (onAxes a (trunc x0) (trunc x1 + 1) (trunc x2))
        let g11 ← cellOf b grid (onAxes a (trunc x0) (trunc x1 + 1) (trunc x2 + 1))
        some ((((g00.scale (1 - (x1 - trunc x1))).scale (1 - (x2 - trunc x2))).add
          ((g01.scale (1 - (x1 - trunc x1))).scale (x2 - trunc x2))).add
          ((g10.scale (x1 - trunc x1)).scale (1 - (x2 - trunc x2))) |>.add
          ((g11.scale (x1 - trunc x1)).scale (x2 - trunc x2)))) := by
  unfold linePoint cellOf
  simp only [onAxes_idx]

theorem linePoint_ok {grid : List Fl} {b : Bounds} {u : Fin 3 → ℚ}
    (hg : (grid.length : ℤ) = b.span 0 * b.span 1 * b.span 2) (j : ℤ) (r : Option Fl)
    (h : linePoint grid b u j = some r) : ∃ rho, r = some rho := by
  rw [linePoint_cells] at h
  dsimp only at h
  split_ifs at h with hc
  simp only [not_or, not_lt, ge_iff_le, not_le] at hc
  obtain ⟨c0, c1, c2, d0, d1, d2⟩ := hc
  obtain ⟨v1, e1⟩ := cellOf_some hg (onAxes_mem (b := b) (a := majorAxis u) ⟨c0, by omega⟩ ⟨c1, by omega⟩ ⟨c2, by omega⟩)
  obtain ⟨v2, e2⟩ := cellOf_some hg (onAxes_mem (b := b) (a := majorAxis u) ⟨c0, by omega⟩ ⟨c1, by omega⟩
    ⟨by omega, d2⟩)
  obtain ⟨v3, e3⟩ := cellOf_some hg (onAxes_mem (b := b) (a := majorAxis u) ⟨c0, by omega⟩ ⟨by omega, d1⟩
    ⟨c2, by omega⟩)
  obtain ⟨v4, e4⟩ := cellOf_some hg (onAxes_mem (b := b) (a := majorAxis u) ⟨c0, by omega⟩ ⟨by omega, d1⟩
    ⟨by omega, d2⟩)
  rw [e1, e2, e3, e4] at h
  exact ⟨_, (Option.some.inj h).symm⟩

/-- C114: extracting a profile never panics, for any direction and any grid that fills its bounds, and the two lists it gives
have the same length, at most half the number of cells along the main axis of the direction. -/
theorem C114_no_panic (grid : List Fl) (b : Bounds) (u : Fin 3 → ℚ) (cw : ℝ) (h0 : ∀ j, 0 ≤ b.span j)
    (hg : (grid.length : ℤ) = b.span 0 * b.span 1 * b.span 2) :
    ∃ rs rhos, extractLine grid b u cw = some (rs, rhos) ∧ rs.length = rhos.length ∧
      (rs.length : ℤ) ≤ b.span (majorAxis u) / 2 := by
  obtain ⟨n, sq, rhos, h1, h2, h3, h4, -, -⟩ := extractSquares_spec (u := u) h0 (linePoint_ok hg)
  exact ⟨_, rhos, bind_of h2 rfl, by simp [h3, h4], by simpa [h3] using h1⟩

example : ∃ (grid : List Fl) (b : Bounds), (∀ j, 0 ≤ b.span j) ∧ (grid.length : ℤ) = b.span 0 * b.span 1 * b.span 2 ∧
    b.span 0 ≠ b.span 1 :=
  ⟨List.replicate 24 (.num 1), ⟨fun _ => 0, ![2, 3, 4]⟩, by decide, by decide, by decide⟩

/-! ## Specification for cubic images -/

/-- Point `j` of the ray from the middle of an image of `S` cells along each axis in the direction `u`, in units of cells: the
points are one cell apart along the axis `m`. -/
def rayPoint (S : ℤ) (u : Fin 3 → ℚ) (m : Fin 3) (j : ℕ) : Fin 3 → ℚ := fun a => S / 2 + j / |u m| * u a

/-- The four cells around a point in the plane of cells across the axis `m`. -/
def corner (m : Fin 3) (P : Fin 3 → ℚ) (d1 d2 : ℕ) : Fin 3 → ℤ :=
  onAxes m ⌊P m⌋ (⌊P (m + 1)⌋ + d1) (⌊P (m + 2)⌋ + d2)

/-- The weight of a cell in a linear interpolation, the distance between cells being 1. -/
def tent (x : ℚ) : ℚ := 1 - |x|

/-- Bilinear interpolation between the four cells around a point in the plane of cells across the axis `m`. -/
def bilinear (q : (Fin 3 → ℤ) → ℚ) (m : Fin 3) (P : Fin 3 → ℚ) : ℚ :=
  ∑ d1 ∈ Finset.range 2, ∑ d2 ∈ Finset.range 2,
    q (corner m P d1 d2) * tent (P (m + 1) - corner m P d1 d2 (m + 1)) * tent (P (m + 2) - corner m P d1 d2 (m + 2))

theorem onAxes_0 (a : Fin 3) (i0 i1 i2 : ℤ) : onAxes a i0 i1 i2 a = i0 := by simp [onAxes]

theorem onAxes_1 (a : Fin 3) (i0 i1 i2 : ℤ) : onAxes a i0 i1 i2 (a + 1) = i1 := by
  unfold onAxes
  rw [if_neg (by revert a; decide), if_pos rfl]

theorem onAxes_2 (a : Fin 3) (i0 i1 i2 : ℤ) : onAxes a i0 i1 i2 (a + 2) = i2 := by
  unfold onAxes
  rw [if_neg (by revert a; decide), if_neg (by revert a; decide)]

theorem tent_0 {x : ℚ} : tent (x - (⌊x⌋ + ((0 : ℕ) : ℤ) : ℤ)) = 1 - (x - ⌊x⌋) := by
  have := Int.floor_le x
  unfold tent
  push_cast
  rw [add_zero, abs_of_nonneg (by linarith)]

theorem tent_1 {x : ℚ} : tent (x - (⌊x⌋ + ((1 : ℕ) : ℤ) : ℤ)) = x - ⌊x⌋ := by
  have := Int.lt_floor_add_one x
  unfold tent
  push_cast
  rw [abs_of_nonpos (by linarith)]
  ring

theorem bilinear_eq (q : (Fin 3 → ℤ) → ℚ) (m : Fin 3) (P : Fin 3 → ℚ) :
    bilinear q m P = q (corner m P 0 0) * (1 - (P (m + 1) - ⌊P (m + 1)⌋)) * (1 - (P (m + 2) - ⌊P (m + 2)⌋)) +
      q (corner m P 0 1) * (1 - (P (m + 1) - ⌊P (m + 1)⌋)) * (P (m + 2) - ⌊P (m + 2)⌋) +
      q (corner m P 1 0) * (P (m + 1) - ⌊P (m + 1)⌋) * (1 - (P (m + 2) - ⌊P (m + 2)⌋)) +
      q (corner m P 1 1) * (P (m + 1) - ⌊P (m + 1)⌋) * (P (m + 2) - ⌊P (m + 2)⌋) := by
  unfold bilinear
  simp only [Finset.sum_range_succ, Finset.sum_range_zero, zero_add]
  simp only [corner, onAxes_1, onAxes_2, tent_0, tent_1]
  ring

/-! ## Profiles of cubic images -/

theorem lineOffset_ray {u : Fin 3 → ℚ} (hu : u ≠ 0) (S : ℤ) (j : ℕ) :
    (lineOffset u j).1 = rayPoint S u (majorAxis u) j (majorAxis u) - S / 2 ∧
    (lineOffset u j).2.1 = rayPoint S u (majorAxis u) j (majorAxis u + 1) - S / 2 ∧
    (lineOffset u j).2.2 = rayPoint S u (majorAxis u) j (majorAxis u + 2) - S / 2 := by
  have hm := majorAxis_ne hu
  unfold lineOffset rayPoint
  dsimp only
  split_ifs with h
  · rw [abs_of_neg h]
    refine ⟨?_, ?_, ?_⟩ <;> (push_cast; field_simp; try ring)
  · have h' : 0 < u (majorAxis u) := lt_of_le_of_ne (not_lt.mp h) (Ne.symm hm)
    rw [abs_of_pos h']
    refine ⟨?_, ?_, ?_⟩ <;> (push_cast; field_simp; try ring)

theorem rayPoint_bound {u : Fin 3 → ℚ} (hu : u ≠ 0) (S : ℤ) (j : ℕ) (a : Fin 3) :
    (S : ℚ) / 2 - j ≤ rayPoint S u (majorAxis u) j a ∧ rayPoint S u (majorAxis u) j a ≤ S / 2 + j := by
  have hm := abs_pos.mpr (majorAxis_ne hu)
  have h1 := majorAxis_spec u a
  have h2 : |(j : ℚ) / |u (majorAxis u)| * u a| ≤ j := by
    rw [abs_mul, abs_of_nonneg (by positivity), div_mul_eq_mul_div, div_le_iff₀ hm]
    exact mul_le_mul_of_nonneg_left h1 (by positivity)
  have := abs_le.mp h2
  unfold rayPoint
  constructor <;> linarith [this.1, this.2]

theorem sum_axes (m : Fin 3) (f : Fin 3 → ℚ) : ∑ a, f a = f m + f (m + 1) + f (m + 2) := by
  rw [Fin.sum_univ_three]
  fin_cases m
  · rfl
  · show f 0 + f 1 + f 2 = f 1 + f 2 + f 0
    ring
  · show f 0 + f 1 + f 2 = f 2 + f 0 + f 1
    ring

theorem lineSq_ray {u : Fin 3 → ℚ} (hu : u ≠ 0) (S : ℤ) (j : ℕ) :
    lineSq u j = ∑ a, (rayPoint S u (majorAxis u) j a - S / 2) ^ 2 := by
  obtain ⟨h0, h1, h2⟩ := lineOffset_ray hu S j
  rw [sum_axes (majorAxis u)]
  unfold lineSq
  rw [h0, h1, h2]
  ring

/-- A turn of the loop for a cubic image in terms of the point on the ray. -/
theorem linePoint_cubic {grid : List Fl} {o : Fin 3 → ℤ} {S : ℤ} {u : Fin 3 → ℚ} (hu : u ≠ 0) (j : ℕ)
    (hj : (j : ℤ) < S / 2) :
    linePoint grid ⟨o, fun _ => S⟩ u j =
      let m := majorAxis u
      let P := rayPoint S u m j
      if ∀ a, P a < S - 1 then some (do
        let g00 ← cellOf ⟨o, fun _ => S⟩ grid (corner m P 0 0)
        let g01 ← cellOf ⟨o, fun _ => S⟩ grid (corner m P 0 1)
        let g10 ← cellOf ⟨o, fun _ => S⟩ grid (corner m P 1 0)
        let g11 ← cellOf ⟨o, fun _ => S⟩ grid (corner m P 1 1)
        some ((((g00.scale (1 - (P (m + 1) - ⌊P (m + 1)⌋))).scale (1 - (P (m + 2) - ⌊P (m + 2)⌋))).add
          ((g01.scale (1 - (P (m + 1) - ⌊P (m + 1)⌋))).scale (P (m + 2) - ⌊P (m + 2)⌋))).add
          ((g10.scale (P (m + 1) - ⌊P (m + 1)⌋)).scale (1 - (P (m + 2) - ⌊P (m + 2)⌋))) |>.add
          ((g11.scale (P (m + 1) - ⌊P (m + 1)⌋)).scale (P (m + 2) - ⌊P (m + 2)⌋))))
      else none := by
  obtain ⟨h0, h1, h2⟩ := lineOffset_ray hu S j
  have hb := rayPoint_bound hu S j
  have hjq : (j : ℚ) ≤ S / 2 - 1 := by
    have : 2 * (j : ℤ) + 2 ≤ S := by omega
    have : (2 * (j : ℚ) + 2) ≤ S := by exact_mod_cast this
    linarith
  rw [linePoint_cells]
  dsimp only
  rw [h0, h1, h2]
  simp only [add_sub_cancel]
  have hpos : ∀ a, 0 ≤ rayPoint S u (majorAxis u) j a := fun a => by linarith [(hb a).1]
  rw [trunc_of_nonneg (hpos _), trunc_of_nonneg (hpos _), trunc_of_nonneg (hpos _)]
  have hfl : ∀ a, (⌊rayPoint S u (majorAxis u) j a⌋ + 1 ≥ S ↔ ¬ rayPoint S u (majorAxis u) j a < S - 1) := by
    intro a
    rw [ge_iff_le, ← sub_le_iff_le_add, Int.le_floor, not_lt]
    push_cast
    rfl
  have hall : (∀ a, rayPoint S u (majorAxis u) j a < S - 1) ↔
      (rayPoint S u (majorAxis u) j (majorAxis u) < S - 1 ∧ rayPoint S u (majorAxis u) j (majorAxis u + 1) < S - 1 ∧
        rayPoint S u (majorAxis u) j (majorAxis u + 2) < S - 1) := by
    constructor
    · intro h; exact ⟨h _, h _, h _⟩
    · rintro ⟨a1, a2, a3⟩ a
      have : a = majorAxis u ∨ a = majorAxis u + 1 ∨ a = majorAxis u + 2 := by
        generalize majorAxis u = m
        revert a m; decide
      rcases this with e | e | e <;> rw [e] <;> assumption
  have hn : ∀ a, ¬ ⌊rayPoint S u (majorAxis u) j a⌋ < 0 := fun a => not_lt.mpr (Int.floor_nonneg.mpr (hpos a))
  by_cases hc : ∀ a, rayPoint S u (majorAxis u) j a < S - 1
  · rw [if_pos hc, if_neg]
    · simp only [corner, Nat.cast_zero, Nat.cast_one, add_zero]
    · rw [hall] at hc
      simp only [hfl, hn, false_or, not_or, not_not]
      exact hc
  · rw [if_neg hc, if_pos]
    rw [hall] at hc
    simp only [hfl, hn, false_or]
    tauto

/-- C114: the profile of a cubic image. The ray starts in the middle of the image and the points are one cell apart along the
main axis of the direction. There are `S / 2` points, or one less if `S` is even and the last point would be too close to a
face. Each radius is the distance of the point from the middle. Each density is the bilinear interpolation between the four
cells around the point in the plane across the main axis, or NaN if one of the four is NaN. -/
theorem C114_points (grid : List Fl) (o : Fin 3 → ℤ) (S : ℤ) (u : Fin 3 → ℚ) (cw : ℝ) (hS : 0 ≤ S) (hu : u ≠ 0)
    (hg : (grid.length : ℤ) = S * S * S) :
    let m := majorAxis u
    ∃ rs rhos, extractLine grid ⟨o, fun _ => S⟩ u cw = some (rs, rhos) ∧ rs.length = rhos.length ∧
      S / 2 - 1 ≤ rs.length ∧ (rs.length : ℤ) ≤ S / 2 ∧ (S % 2 = 1 → (rs.length : ℤ) = S / 2) ∧
      ∀ j < rs.length,
        rs[j]? = some (cw * Real.sqrt ((∑ a, (rayPoint S u m j a - S / 2) ^ 2 : ℚ) : ℝ)) ∧
        (∀ d1 < 2, ∀ d2 < 2, ∀ a, 0 ≤ corner m (rayPoint S u m j) d1 d2 a ∧ corner m (rayPoint S u m j) d1 d2 a < S) ∧
        ((∃ d1 < 2, ∃ d2 < 2, cellOf ⟨o, fun _ => S⟩ grid (corner m (rayPoint S u m j) d1 d2) = some .nan) →
          rhos[j]? = some .nan) ∧
        (∀ q : (Fin 3 → ℤ) → ℚ,
          (∀ d1 < 2, ∀ d2 < 2, cellOf ⟨o, fun _ => S⟩ grid (corner m (rayPoint S u m j) d1 d2) =
            some (.num (q (corner m (rayPoint S u m j) d1 d2)))) →
          rhos[j]? = some (.num (bilinear q m (rayPoint S u m j)))) := by
  intro m
  obtain ⟨n, sq, rhos, h1, h2, h3, h4, h5, h6⟩ := extractSquares_spec (u := u) (b := ⟨o, fun _ => S⟩)
    (fun _ => hS) (linePoint_ok (b := ⟨o, fun _ => S⟩) hg)
  change (n : ℤ) ≤ S / 2 at h1
  change (n : ℤ) < S / 2 → _ at h6
  have hlow : ((n : ℤ) < S / 2 → S % 2 = 0 ∧ (n : ℤ) = S / 2 - 1) := by
    intro hn
    have hp := h6 hn
    rw [linePoint_cubic hu n hn] at hp
    dsimp only at hp
    split_ifs at hp with hc
    rw [not_forall] at hc
    obtain ⟨a, ha⟩ := hc
    have hb := (rayPoint_bound hu S n a).2
    rw [not_lt] at ha
    have h7 : (S : ℚ) - 1 ≤ S / 2 + n := ha.trans hb
    have h8 : (S : ℚ) ≤ 2 * n + 2 := by linarith
    have h8 : S ≤ 2 * n + 2 := by exact_mod_cast h8
    omega
  refine ⟨_, rhos, bind_of h2 rfl, by simp [h3, h4], ?_, ?_, ?_, ?_⟩
  · simp only [List.length_map, h3]
    by_contra hcon
    have := hlow (by omega)
    omega
  · simpa [h3] using h1
  · intro hodd
    simp only [List.length_map, h3]
    by_contra hcon
    have := hlow (by omega)
    omega
  · intro j hj
    simp only [List.length_map, h3] at hj
    obtain ⟨e1, rho, e2, e3⟩ := h5 j hj
    have hj' : (j : ℤ) < S / 2 := by omega
    rw [linePoint_cubic hu j hj'] at e2
    dsimp only at e2
    split_ifs at e2 with hc
    have hin : ∀ d1 < 2, ∀ d2 < 2, ∀ a, 0 ≤ corner m (rayPoint S u m j) d1 d2 a ∧
        corner m (rayPoint S u m j) d1 d2 a < S := by
      intro d1 hd1 d2 hd2
      have hb := rayPoint_bound hu S j
      have hjq : (j : ℚ) ≤ S / 2 - 1 := by
        have : 2 * (j : ℤ) + 2 ≤ S := by omega
        have : (2 * (j : ℚ) + 2) ≤ S := by exact_mod_cast this
        linarith
      have hpos : ∀ a, 0 ≤ ⌊rayPoint S u m j a⌋ := fun a => Int.floor_nonneg.mpr (by linarith [(hb a).1])
      have hup : ∀ a, ⌊rayPoint S u m j a⌋ + 1 < S := by
        intro a
        have : ⌊rayPoint S u m j a⌋ < S - 1 := by
          rw [Int.floor_lt]; push_cast; exact hc a
        omega
      refine onAxes_mem (b := ⟨o, fun _ => S⟩) ?_ ?_ ?_
      · exact ⟨hpos _, by have := hup m; show _ < S; omega⟩
      · have := hup (m + 1); have := hpos (m + 1)
        exact ⟨by omega, by show _ < S; omega⟩
      · have := hup (m + 2); have := hpos (m + 2)
        exact ⟨by omega, by show _ < S; omega⟩
    have hval : ∀ d1 < 2, ∀ d2 < 2, ∃ v, cellOf ⟨o, fun _ => S⟩ grid (corner m (rayPoint S u m j) d1 d2) = some v :=
      fun d1 hd1 d2 hd2 => cellOf_some (b := ⟨o, fun _ => S⟩) hg (hin d1 hd1 d2 hd2)
    refine ⟨?_, hin, ?_, ?_⟩
    · rw [List.getElem?_map, e1, Option.map_some, lineSq_ray hu S j, mul_comm]
    · rintro ⟨d1, hd1, d2, hd2, hnan⟩
      rw [e3]
      obtain ⟨v00, f00⟩ := hval 0 (by omega) 0 (by omega)
      obtain ⟨v01, f01⟩ := hval 0 (by omega) 1 (by omega)
      obtain ⟨v10, f10⟩ := hval 1 (by omega) 0 (by omega)
      obtain ⟨v11, f11⟩ := hval 1 (by omega) 1 (by omega)
      rw [f00, f01, f10, f11] at e2
      have e2 := (Option.some.inj (Option.some.inj e2)).symm
      rw [e2]
      have hd : (d1 = 0 ∨ d1 = 1) ∧ (d2 = 0 ∨ d2 = 1) := by omega
      rcases hd with ⟨rfl | rfl, rfl | rfl⟩
      · rw [f00] at hnan; cases hnan
        cases v01 <;> cases v10 <;> cases v11 <;> rfl
      · rw [f01] at hnan; cases hnan
        cases v00 <;> cases v10 <;> cases v11 <;> rfl
      · rw [f10] at hnan; cases hnan
        cases v00 <;> cases v01 <;> cases v11 <;> rfl
      · rw [f11] at hnan; cases hnan
        cases v00 <;> cases v01 <;> cases v10 <;> rfl
    · intro q hq
      have f00 := hq 0 (by omega) 0 (by omega)
      have f01 := hq 0 (by omega) 1 (by omega)
      have f10 := hq 1 (by omega) 0 (by omega)
      have f11 := hq 1 (by omega) 1 (by omega)
      rw [f00, f01, f10, f11] at e2
      have e2 := (Option.some.inj (Option.some.inj e2)).symm
      rw [e3, e2, bilinear_eq]
      rfl

end Verif.Scripts
