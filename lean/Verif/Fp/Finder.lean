import Verif.Fp.Halo

/-! # C147: the subhalo finder in machine arithmetic -/

set_option autoImplicit false

namespace Verif.Fp

open Verif.Go Verif.Halo

/-! ## Relative errors -/

theorem f64_near {x : ℚ} (h : 0 ≤ x) : x * (1 - 1 / 2 ^ 53) ≤ f64 x ∧ f64 x ≤ x * (1 + 1 / 2 ^ 53) := by
  have := f64_err x
  rw [abs_of_nonneg h, abs_le] at this
  constructor <;> linarith [this.1, this.2]

theorem f64_near_sq (x : ℚ) :
    x ^ 2 * (1 - 1 / 2 ^ 53) ^ 2 ≤ f64 x * f64 x ∧ f64 x * f64 x ≤ x ^ 2 * (1 + 1 / 2 ^ 53) ^ 2 := by
  rcases le_total 0 x with h | h
  · obtain ⟨h1, h2⟩ := f64_near h
    have h0 : 0 ≤ x * (1 - 1 / 2 ^ 53) := mul_nonneg h (by norm_num)
    have h0' := f64_nonneg h
    have a := mul_le_mul h1 h1 h0 h0'
    have b := mul_le_mul h2 h2 h0' (le_trans h0' h2)
    constructor
    · calc _ = x * (1 - 1 / 2 ^ 53) * (x * (1 - 1 / 2 ^ 53)) := by ring
        _ ≤ _ := a
    · calc _ ≤ _ := b
        _ = _ := by ring
  · obtain ⟨h1, h2⟩ := f64_near (x := -x) (by linarith)
    have h0 : 0 ≤ -x * (1 - 1 / 2 ^ 53) := mul_nonneg (by linarith) (by norm_num)
    have h0' := f64_nonneg (x := -x) (by linarith)
    have a := mul_le_mul h1 h1 h0 h0'
    have b := mul_le_mul h2 h2 h0' (le_trans h0' h2)
    have e : f64 (-x) = -f64 x := rnd_neg 53 x
    rw [e] at a b
    constructor
    · calc _ = -x * (1 - 1 / 2 ^ 53) * (-x * (1 - 1 / 2 ^ 53)) := by ring
        _ ≤ _ := a
        _ = _ := by ring
    · calc _ = -f64 x * -f64 x := by ring
        _ ≤ _ := b
        _ = _ := by ring

/-- A sum of squares of rounded differences. -/
theorem sumSq64_near (f : Fusing) (a b c : ℚ) :
    (a ^ 2 + b ^ 2 + c ^ 2) * (1 - 1 / 2 ^ 53) ^ 5 ≤ sumSq64 f (f64 a) (f64 b) (f64 c) ∧
      sumSq64 f (f64 a) (f64 b) (f64 c) ≤ (a ^ 2 + b ^ 2 + c ^ 2) * (1 + 1 / 2 ^ 53) ^ 5 := by
  obtain ⟨a1, a2⟩ := f64_near_sq a
  obtain ⟨b1, b2⟩ := f64_near_sq b
  obtain ⟨c1, c2⟩ := f64_near_sq c
  have ha := sq_nonneg a
  have hb := sq_nonneg b
  have hc := sq_nonneg c
  unfold sumSq64
  generalize hA : f64 a * f64 a = A at *
  generalize hB : f64 b * f64 b = B at *
  generalize hC : f64 c * f64 c = C at *
  generalize a ^ 2 = a' at *
  generalize b ^ 2 = b' at *
  generalize c ^ 2 = c' at *
  have A0 : 0 ≤ A := by rw [← hA]; exact mul_self_nonneg _
  have B0 : 0 ≤ B := by rw [← hB]; exact mul_self_nonneg _
  have C0 : 0 ≤ C := by rw [← hC]; exact mul_self_nonneg _
  obtain ⟨pA1, pA2⟩ := f64_near A0
  obtain ⟨pB1, pB2⟩ := f64_near B0
  obtain ⟨pC1, pC2⟩ := f64_near C0
  have fA := f64_nonneg A0
  have fB := f64_nonneg B0
  have fC := f64_nonneg C0
  generalize f64 A = FA at *
  generalize f64 B = FB at *
  generalize f64 C = FC at *
  obtain ⟨s, hs⟩ : ∃ s, s = (if f.y = true then f64 (FA + B) else if f.x = true then f64 (A + FB) else f64 (FA + FB)) := ⟨_, rfl⟩
  have hsb : (A + B) * (1 - 1 / 2 ^ 53) ^ 2 ≤ s ∧ s ≤ (A + B) * (1 + 1 / 2 ^ 53) ^ 2 ∧ 0 ≤ s := by
    have gen : ∀ u, 0 ≤ u → (A + B) * (1 - 1 / 2 ^ 53) ≤ u → u ≤ (A + B) * (1 + 1 / 2 ^ 53) →
        (A + B) * (1 - 1 / 2 ^ 53) ^ 2 ≤ f64 u ∧ f64 u ≤ (A + B) * (1 + 1 / 2 ^ 53) ^ 2 ∧ 0 ≤ f64 u := by
      intro u u0 u1 u2
      obtain ⟨v1, v2⟩ := f64_near u0
      refine ⟨?_, ?_, f64_nonneg u0⟩ <;> linarith
    rw [hs]
    split_ifs
    · exact gen _ (by linarith) (by linarith) (by linarith)
    · exact gen _ (by linarith) (by linarith) (by linarith)
    · exact gen _ (by linarith) (by linarith) (by linarith)
  rw [← hs]
  obtain ⟨s1, s2, s0⟩ := hsb
  have gen : ∀ u, 0 ≤ u → (A + B + C) * (1 - 1 / 2 ^ 53) ^ 2 ≤ u → u ≤ (A + B + C) * (1 + 1 / 2 ^ 53) ^ 2 →
      (a' + b' + c') * (1 - 1 / 2 ^ 53) ^ 5 ≤ f64 u ∧ f64 u ≤ (a' + b' + c') * (1 + 1 / 2 ^ 53) ^ 5 := by
    intro u u0 u1 u2
    obtain ⟨v1, v2⟩ := f64_near u0
    constructor <;> linarith
  split_ifs
  · exact gen _ (by linarith) (by linarith) (by linarith)
  · exact gen _ (by linarith) (by linarith) (by linarith)

/-- The scaled radii. -/
def scaled64 (rs : List ℚ) (mult : ℚ) : List ℚ := rs.map fun r => f64 (r * mult)

theorem co_scaled64 (rs : List ℚ) (mult : ℚ) (i : ℕ) : co (scaled64 rs mult) i = f64 (co rs i * mult) := by
  unfold co scaled64
  rw [List.getD_eq_getElem?_getD, List.getD_eq_getElem?_getD, List.getElem?_map]
  cases rs[i]? <;> simp [f64_zero]

theorem reach_near {r s mult : ℚ} (hr : 0 ≤ r) (hs : 0 ≤ s) (hm : 0 < mult) :
    mult * (r + s) * (1 - 1 / 2 ^ 53) ^ 2 ≤ f64 (f64 (r * mult) + f64 (s * mult)) ∧
      f64 (f64 (r * mult) + f64 (s * mult)) ≤ mult * (r + s) * (1 + 1 / 2 ^ 53) ^ 2 := by
  have h1 : 0 ≤ r * mult := mul_nonneg hr hm.le
  have h2 : 0 ≤ s * mult := mul_nonneg hs hm.le
  obtain ⟨a1, a2⟩ := f64_near h1
  obtain ⟨b1, b2⟩ := f64_near h2
  have a0 := f64_nonneg h1
  have b0 := f64_nonneg h2
  obtain ⟨c1, c2⟩ := f64_near (add_nonneg a0 b0)
  rw [show mult * (r + s) = r * mult + s * mult by ring]
  constructor <;> linarith

/-! ## The test of a pair -/

/-- The test of `markSubhalos`, for scaled radii. -/
def TouchF (f : Fusing) (xs ys zs rs : List ℚ) (i j : ℕ) : Prop :=
  sumSq64 f (f64 (co xs i - co xs j)) (f64 (co ys i - co ys j)) (f64 (co zs i - co zs j)) ≤
    f64 (f64 (co rs i + co rs j) * f64 (co rs i + co rs j))

instance (f : Fusing) (xs ys zs rs : List ℚ) (i j : ℕ) : Decidable (TouchF f xs ys zs rs i j) := by
  unfold TouchF
  infer_instance

/-- The test is right except within a relative difference of `2 ^ -50`. -/
theorem touchF_near (f : Fusing) {xs ys zs rs : List ℚ} {mult : ℚ} {i j : ℕ} (hi : 0 ≤ co rs i) (hj : 0 ≤ co rs j)
    (hm : 0 < mult) :
    (TouchF f xs ys zs (scaled64 rs mult) i j → Touch xs ys zs rs (mult * (1 + 1 / 2 ^ 50)) i j) ∧
      (Touch xs ys zs rs (mult * (1 - 1 / 2 ^ 50)) i j → TouchF f xs ys zs (scaled64 rs mult) i j) := by
  unfold TouchF Touch
  rw [co_scaled64, co_scaled64]
  obtain ⟨d1, d2⟩ := sumSq64_near f (co xs i - co xs j) (co ys i - co ys j) (co zs i - co zs j)
  obtain ⟨r1, r2⟩ := reach_near hi hj hm
  have S0 : 0 ≤ mult * (co rs i + co rs j) := mul_nonneg hm.le (add_nonneg hi hj)
  have D0 : 0 ≤ (co xs i - co xs j) ^ 2 + (co ys i - co ys j) ^ 2 + (co zs i - co zs j) ^ 2 := by positivity
  rw [show mult * (1 + 1 / 2 ^ 50) * (co rs i + co rs j) = mult * (co rs i + co rs j) * (1 + 1 / 2 ^ 50) by ring,
    show mult * (1 - 1 / 2 ^ 50) * (co rs i + co rs j) = mult * (co rs i + co rs j) * (1 - 1 / 2 ^ 50) by ring,
    mul_pow (mult * (co rs i + co rs j)) (1 + 1 / 2 ^ 50), mul_pow (mult * (co rs i + co rs j)) (1 - 1 / 2 ^ 50)]
  generalize sumSq64 f (f64 (co xs i - co xs j)) (f64 (co ys i - co ys j)) (f64 (co zs i - co zs j)) = V at *
  generalize (co xs i - co xs j) ^ 2 + (co ys i - co ys j) ^ 2 + (co zs i - co zs j) ^ 2 = D at *
  generalize f64 (f64 (co rs i * mult) + f64 (co rs j * mult)) = R at *
  generalize mult * (co rs i + co rs j) = S at *
  have R0 : 0 ≤ R := le_trans (mul_nonneg S0 (by norm_num)) r1
  obtain ⟨q1, q2⟩ := f64_near (mul_self_nonneg R)
  have s1 : S ^ 2 * (1 - 1 / 2 ^ 53) ^ 4 ≤ R * R := by
    have := mul_le_mul r1 r1 (mul_nonneg S0 (by norm_num)) R0
    calc _ = S * (1 - 1 / 2 ^ 53) ^ 2 * (S * (1 - 1 / 2 ^ 53) ^ 2) := by ring
      _ ≤ _ := this
  have s2 : R * R ≤ S ^ 2 * (1 + 1 / 2 ^ 53) ^ 4 := by
    have := mul_le_mul r2 r2 R0 (le_trans R0 r2)
    calc _ ≤ _ := this
      _ = _ := by ring
  have hS := sq_nonneg S
  generalize S ^ 2 = T at *
  generalize f64 (R * R) = Q at *
  generalize R * R = P at *
  constructor <;> intro h
  · have h1 : D * (1 - 1 / 2 ^ 53) ^ 5 ≤ T * (1 + 1 / 2 ^ 53) ^ 5 := by linarith
    have h2 : T * (1 + 1 / 2 ^ 53) ^ 5 ≤ T * (1 + 1 / 2 ^ 50) ^ 2 * (1 - 1 / 2 ^ 53) ^ 5 := by
      rw [mul_assoc]
      exact mul_le_mul_of_nonneg_left (by norm_num) hS
    exact le_of_mul_le_mul_right (le_trans h1 h2) (by norm_num)
  · have h1 : D * (1 + 1 / 2 ^ 53) ^ 5 ≤ T * (1 - 1 / 2 ^ 50) ^ 2 * (1 + 1 / 2 ^ 53) ^ 5 :=
      mul_le_mul_of_nonneg_right h (by norm_num)
    have h2 : T * (1 - 1 / 2 ^ 50) ^ 2 * (1 + 1 / 2 ^ 53) ^ 5 ≤ T * (1 - 1 / 2 ^ 53) ^ 5 := by
      rw [mul_assoc]
      exact mul_le_mul_of_nonneg_left (by norm_num) hS
    linarith

/-! ## The cells of one halo -/

/-- The test of `markSubhalos` with the order of the indices. -/
def keep64 (f : Fusing) (xs ys zs rs : List ℚ) (ih : ℕ) (j : ℤ) : Bool :=
  decide ((ih : ℤ) < j ∧ TouchF f xs ys zs rs ih j.toNat)

theorem markSubhalos64_spec (f : Fusing) {xs ys zs rs : List ℚ} {n ih : ℕ} (hx : xs.length = n) (hy : ys.length = n)
    (hz : zs.length = n) (hr : rs.length = n) (hih : ih < n) (idxs : List ℤ) (hb : Below n idxs) (subs : List ℤ) :
    markSubhalos64 f ih idxs xs ys zs rs subs = some (subs ++ idxs.filter (keep64 f xs ys zs rs ih)) := by
  unfold markSubhalos64
  refine bind_of (rd_co (by omega)) (bind_of (rd_co (by omega)) (bind_of (rd_co (by omega)) (bind_of (rd_co (by omega)) ?_)))
  induction idxs generalizing subs with
  | nil => simp
  | cons j idxs ih' =>
    obtain ⟨k, hk, rfl⟩ := hb j List.mem_cons_self
    have ih'' := fun subs => ih' (fun v hv => hb v (List.mem_cons_of_mem _ hv)) subs
    rw [List.foldlM_cons]
    by_cases hle : (k : ℤ) ≤ ih
    · rw [List.filter_cons_of_neg (by simp [keep64]; omega)]
      refine bind_of (if_pos hle) (ih'' subs)
    · by_cases ht : TouchF f xs ys zs rs ih k
      · rw [List.filter_cons_of_pos (by simp [keep64, ht]; omega)]
        refine bind_of (a := subs ++ [(k : ℤ)]) ?_ ?_
        · rw [if_neg hle]
          refine bind_of (rd_co (by omega)) (bind_of (rd_co (by omega)) (bind_of (rd_co (by omega))
            (bind_of (rd_co (by omega)) ?_)))
          rw [if_pos]
          exact ht
        · rw [ih'' (subs ++ [(k : ℤ)])]
          simp
      · rw [List.filter_cons_of_neg (by simp [keep64, ht])]
        refine bind_of (a := subs) ?_ (ih'' subs)
        rw [if_neg hle]
        refine bind_of (rd_co (by omega)) (bind_of (rd_co (by omega)) (bind_of (rd_co (by omega))
            (bind_of (rd_co (by omega)) ?_)))
        rw [if_neg]
        exact ht

/-- The list of halos of higher index that are found for a halo. -/
def partners64 (f : Fusing) (cells : ℤ) (I : ℕ → ℤ) (n : ℕ) (b : Bounds) (xs ys zs rs : List ℚ) (ih : ℕ) : List ℤ :=
  (cellList cells b).flatMap fun idx => (listed I n idx).filter (keep64 f xs ys zs rs ih)

theorem markCells64_spec (f : Fusing) {cells : ℤ} {width : ℚ} {N n : ℕ} {I : ℕ → ℤ} {g : Grid}
    (hf : Filled64 cells width N I n g) (hn : n ≤ N) {b : Bounds} (hg : GoodBounds cells b) {cap : ℤ}
    (hcap : ∀ idx, 0 ≤ idx → idx < cells * cells * cells → ((listed I n idx).length : ℤ) ≤ cap)
    {xs ys zs rs : List ℚ} {ih : ℕ} (hx : xs.length = n) (hy : ys.length = n) (hz : zs.length = n)
    (hr : rs.length = n) (hih : ih < n) (subs : List ℤ) :
    markCells64 f g cap b ih xs ys zs rs subs = some (subs ++ partners64 f cells I n b xs ys zs rs ih) := by
  have h0 := hg 0
  have h1 := hg 1
  have h2 := hg 2
  unfold markCells64 partners64
  rw [hf.hcells]
  rw [forRange_append (fun (dz : ℕ) => (List.range (b.span 1).toNat).flatMap fun (dy : ℕ) =>
    (List.range (b.span 0).toNat).flatMap fun (dx : ℕ) => (listed I n (periodic (b.origin 2) dz cells * cells * cells +
      periodic (b.origin 1) dy cells * cells + periodic (b.origin 0) dx cells)).filter (keep64 f xs ys zs rs ih)) _ (by omega)]
  · unfold cellList
    simp only [List.flatMap_assoc, List.flatMap_map]
  intro dz hdz s
  rw [forRange_append (fun (dy : ℕ) =>
    (List.range (b.span 0).toNat).flatMap fun (dx : ℕ) => (listed I n (periodic (b.origin 2) dz cells * cells * cells +
      periodic (b.origin 1) dy cells * cells + periodic (b.origin 0) dx cells)).filter (keep64 f xs ys zs rs ih)) _ (by omega)]
  intro dy hdy s
  rw [forRange_append (fun (dx : ℕ) => (listed I n (periodic (b.origin 2) dz cells * cells * cells +
      periodic (b.origin 1) dy cells * cells + periodic (b.origin 0) dx cells)).filter (keep64 f xs ys zs rs ih)) _ (by omega)]
  intro dx hdx s
  have p0 := periodic_range h0.1 (c := cells) (d := dx) (by omega) (by omega)
  have p1 := periodic_range h1.1 (c := cells) (d := dy) (by omega) (by omega)
  have p2 := periodic_range h2.1 (c := cells) (d := dz) (by omega) (by omega)
  obtain ⟨r0, r1⟩ := index_range p0 p1 p2
  have ee : periodic (b.origin 2) dz cells * cells * cells + periodic (b.origin 1) dy cells * cells +
      periodic (b.origin 0) dx cells = periodic (b.origin 0) dx cells + periodic (b.origin 1) dy cells * cells +
      periodic (b.origin 2) dz cells * cells * cells := by ring
  rw [ee]
  refine bind_of (hf.read hn r0 r1 (hcap _ r0 r1)) ?_
  refine markSubhalos64_spec f hx hy hz hr hih _ ?_ s
  intro v hv
  obtain ⟨i, hi, _, rfl⟩ := mem_listed.mp hv
  exact ⟨i, hi, rfl⟩

/-! ## The bounds of a sphere -/

/-- First and last cell, before they are made integers. -/
theorem sphereBounds64_core {pos R width : ℚ} {cells : ℤ} (hW : 0 < width) (hc : 0 < cells) (hc' : cells ≤ 2 ^ 48)
    (h0 : 0 ≤ pos) (h1 : pos ≤ width) (hR : 0 ≤ R) (hR' : 2 * R + width / cells + width / 2 ^ 46 ≤ width) :
    ∃ (A B : ℚ) (k : ℤ), (k = 0 ∧ R ≤ pos ∨ k = 1 ∧ pos < R) ∧ 0 ≤ A ∧ A ≤ B ∧
      |A * (width / cells) - (pos - R + k * width)| ≤ width / 2 ^ 49 ∧
      |B * (width / cells) - (pos + R + k * width)| ≤ width / 2 ^ 49 ∧
      sphereBounds64 pos R (f64 (width / f64 cells)) width = (⌊A⌋, ⌊B⌋ - ⌊A⌋ + 1) := by
  have hcq : (0 : ℚ) < cells := by exact_mod_cast hc
  have hd0 : 0 < width / cells := div_pos hW hcq
  have hc53 : cells ≤ 2 ^ 53 := le_trans hc' (by norm_num)
  have hcw : 0 ≤ f64 (width / f64 cells) := by
    have := (abs_le.mp (cellWidth_rel hW hc hc53).2).1
    linarith
  have m1 := f64_err (pos - R)
  have m2 := f64_err (pos + R)
  rw [abs_of_nonneg (by linarith : 0 ≤ pos + R)] at m2
  obtain ⟨m21, m22⟩ := abs_le.mp m2
  have mx0 := f64_nonneg (x := pos + R) (by linarith)
  unfold sphereBounds64
  dsimp only
  by_cases hm : pos - R < 0
  · have hn : f64 (pos - R) < 0 := (rnd_neg_iff (by norm_num) _).mpr hm
    rw [abs_of_neg hm] at m1
    obtain ⟨m11, m12⟩ := abs_le.mp m1
    rw [if_pos hn]
    generalize f64 (pos - R) = mn at *
    generalize f64 (pos + R) = mx at *
    have n0 : 0 ≤ mn + width := by linarith
    have n1 := f64_err (mn + width)
    rw [abs_of_nonneg n0] at n1
    obtain ⟨n11, n12⟩ := abs_le.mp n1
    have n13 := f64_nonneg n0
    have n2 := f64_err (mx + width)
    have x0 : 0 ≤ mx + width := by linarith
    rw [abs_of_nonneg x0] at n2
    obtain ⟨n21, n22⟩ := abs_le.mp n2
    have n23 := f64_nonneg x0
    rw [if_pos (by linarith : f64 (mn + width) > mx)]
    obtain ⟨a0, a1⟩ := cells_quot hW hc hc53 n13
    obtain ⟨b0, b1⟩ := cells_quot hW hc hc53 n23
    rw [trunc_of_nonneg a0, trunc_of_nonneg b0]
    refine ⟨_, _, 1, .inr ⟨rfl, by linarith⟩, a0,
      f64_mono (div_le_div_of_nonneg_right (f64_mono (by linarith)) hcw), ?_, ?_, rfl⟩
    · obtain ⟨a11, a12⟩ := abs_le.mp a1
      rw [abs_le]
      push_cast
      constructor <;> linarith
    · obtain ⟨b11, b12⟩ := abs_le.mp b1
      rw [abs_le]
      push_cast
      constructor <;> linarith
  · have hn : ¬ f64 (pos - R) < 0 := fun h => hm ((rnd_neg_iff (by norm_num) _).mp h)
    rw [abs_of_nonneg (not_lt.mp hm)] at m1
    obtain ⟨m11, m12⟩ := abs_le.mp m1
    have hle : ¬ f64 (pos - R) > f64 (pos + R) := not_lt.mpr (f64_mono (by linarith))
    rw [if_neg hn, if_neg hle]
    obtain ⟨a0, a1⟩ := cells_quot hW hc hc53 (not_lt.mp hn)
    obtain ⟨b0, b1⟩ := cells_quot hW hc hc53 mx0
    rw [trunc_of_nonneg a0, trunc_of_nonneg b0]
    refine ⟨_, _, 0, .inl ⟨rfl, by linarith⟩, a0,
      f64_mono (div_le_div_of_nonneg_right (f64_mono (by linarith)) hcw), ?_, ?_, rfl⟩
    · obtain ⟨a11, a12⟩ := abs_le.mp a1
      rw [abs_le]
      push_cast
      constructor <;> linarith
    · obtain ⟨b11, b12⟩ := abs_le.mp b1
      rw [abs_le]
      push_cast
      constructor <;> linarith

/-- The bounds along one axis: they fit into the grid, and contain the cell of every coordinate in reach. -/
theorem sphereBounds64_spec {pos R width : ℚ} {cells : ℤ} (hW : 0 < width) (hc : 0 < cells) (hc' : cells ≤ 2 ^ 48)
    (h0 : 0 ≤ pos) (h1 : pos ≤ width) (hR : 0 ≤ R) (hR' : 2 * R + width / cells + width / 2 ^ 46 ≤ width) :
    (let b := sphereBounds64 pos R (f64 (width / f64 cells)) width
     0 ≤ b.1 ∧ b.1 + b.2 ≤ 2 * cells ∧ 1 ≤ b.2 ∧ b.2 ≤ cells ∧
      ∀ x, 0 ≤ x → x ≤ width → |pos - x| ≤ R - width / 2 ^ 48 →
        ∃ k : ℤ, b.1 ≤ haloCell64 width (f64 (width / f64 cells)) x + k * cells ∧
          haloCell64 width (f64 (width / f64 cells)) x + k * cells < b.1 + b.2) := by
  obtain ⟨A, B, k, hk, A0, hAB, hA, hB, e⟩ := sphereBounds64_core hW hc hc' h0 h1 hR hR'
  rw [e]
  dsimp only
  have hcq : (0 : ℚ) < cells := by exact_mod_cast hc
  have hcq' : (cells : ℚ) ≤ 2 ^ 48 := by exact_mod_cast hc'
  have hd0 : 0 < width / cells := div_pos hW hcq
  have hw : (cells : ℚ) * (width / cells) = width := by field_simp
  have hwd : width / 2 ^ 49 ≤ (width / cells) / 2 := by
    rw [div_le_div_iff₀ (by norm_num) (by norm_num)]
    have : width = cells * (width / cells) := hw.symm
    have h2 := mul_le_mul_of_nonneg_right hcq' hd0.le
    nlinarith
  obtain ⟨A1, A2⟩ := abs_le.mp hA
  obtain ⟨B1, B2⟩ := abs_le.mp hB
  have hcell : ∀ x, 0 ≤ x → x ≤ width → ∃ X : ℚ, haloCell64 width (f64 (width / f64 cells)) x = ⌊X⌋ ∧ 0 ≤ X ∧
      |X * (width / cells) - x| ≤ width / 2 ^ 51 := by
    intro x x0 x1
    obtain ⟨q0, q1⟩ := cells_quot hW hc (le_trans hc' (by norm_num)) x0
    refine ⟨_, ?_, q0, le_trans q1 (by linarith)⟩
    unfold haloCell64 haloWrap64
    rw [if_neg (by linarith), if_neg (by linarith), trunc_of_nonneg q0]
  generalize width / (cells : ℚ) = d at *
  have le_of : ∀ a b : ℚ, a * d ≤ b * d → a ≤ b := fun a b h => le_of_mul_le_mul_right h hd0
  have lt_of : ∀ a b : ℚ, a * d < b * d → a < b := fun a b h => lt_of_mul_lt_mul_right h hd0.le
  have fA := Int.floor_le A
  have fA' := Int.lt_floor_add_one A
  have fB := Int.floor_le B
  have fB' := Int.lt_floor_add_one B
  have hBc : B < 2 * cells := by
    apply lt_of
    rcases hk with ⟨rfl, h⟩ | ⟨rfl, h⟩
    · push_cast at B2; linarith
    · push_cast at B2; linarith
  have hA1 : (⌊B⌋ : ℚ) < ⌊A⌋ + cells := by
    have : B - A + 1 ≤ cells := by
      apply le_of
      linarith
    linarith
  have hA1' : ⌊B⌋ < ⌊A⌋ + cells := by exact_mod_cast hA1
  have hBc' : ⌊B⌋ < 2 * cells := Int.floor_lt.mpr (by push_cast; exact hBc)
  have hord : ⌊A⌋ ≤ ⌊B⌋ := Int.floor_le_floor hAB
  refine ⟨Int.floor_nonneg.mpr A0, by omega, by omega, by omega, ?_⟩
  intro x x0 x1 hx
  obtain ⟨X, eX, X0, hX⟩ := hcell x x0 x1
  obtain ⟨X1, X2⟩ := abs_le.mp hX
  obtain ⟨x2, x3⟩ := abs_le.mp hx
  rw [eX]
  refine ⟨k, ?_, ?_⟩
  · rcases hk with ⟨rfl, h⟩ | ⟨rfl, h⟩
    · push_cast at A2
      rw [zero_mul, add_zero]
      exact Int.floor_le_floor (le_of _ _ (by linarith))
    · push_cast at A2
      have : ⌊A⌋ ≤ cells := by
        have : (⌊A⌋ : ℚ) < cells + 1 := lt_of_le_of_lt fA (lt_of _ _ (by linarith))
        have : ⌊A⌋ < cells + 1 := by exact_mod_cast this
        omega
      have := Int.floor_nonneg.mpr X0
      omega
  · have : ⌊X⌋ + k * cells ≤ ⌊B⌋ := by
      rw [← Int.floor_add_intCast]
      refine Int.floor_le_floor (le_of _ _ ?_)
      have hkw : (k : ℚ) * cells * d = k * width := by rw [mul_assoc, hw]
      push_cast
      rw [add_mul, hkw]
      linarith
    omega

/-! ## All halos -/

/-- The setting of the subhalo search in machine arithmetic: positions inside the box and not within rounding of its upper
edge, and spheres so small that twice the largest reach of a halo, plus a cell, fits into the box. -/
structure Setting64 (cells : ℤ) (width : ℚ) (xs ys zs rs : List ℚ) (mult : ℚ) : Prop where
  hW : 0 < width
  hc : 0 < cells
  hc' : cells ≤ 2 ^ 48
  hy : ys.length = xs.length
  hz : zs.length = xs.length
  hr : rs.length = xs.length
  hne : xs ≠ []
  hm : 0 < mult
  inside : ∀ i < xs.length, (0 ≤ co xs i ∧ co xs i ≤ width * (1 - 1 / 2 ^ 50)) ∧
    (0 ≤ co ys i ∧ co ys i ≤ width * (1 - 1 / 2 ^ 50)) ∧ (0 ≤ co zs i ∧ co zs i ≤ width * (1 - 1 / 2 ^ 50))
  radii : ∀ i < xs.length, 0 ≤ co rs i
  small : ∀ i j, i ≤ j → j < xs.length → 2 * (mult * (co rs i + co rs j)) + width / cells + width / 2 ^ 45 ≤ width

/-- The spheres of halos `i` and `j`, with radii scaled by `mult`, overlap by at least `δ` (without regard to periodic images):
the distance of the centres is at most the sum of the radii less `δ`. -/
def Overlap (xs ys zs rs : List ℚ) (mult δ : ℚ) (i j : ℕ) : Prop :=
  δ ≤ mult * (co rs i + co rs j) ∧ (co xs i - co xs j) ^ 2 + (co ys i - co ys j) ^ 2 + (co zs i - co zs j) ^ 2 ≤
    (mult * (co rs i + co rs j) - δ) ^ 2

theorem overlap_symm (xs ys zs rs : List ℚ) (mult δ : ℚ) (i j : ℕ) :
    Overlap xs ys zs rs mult δ i j ↔ Overlap xs ys zs rs mult δ j i := by
  unfold Overlap
  rw [show co rs i + co rs j = co rs j + co rs i by ring,
    show (co xs i - co xs j) ^ 2 + (co ys i - co ys j) ^ 2 + (co zs i - co zs j) ^ 2 =
      (co xs j - co xs i) ^ 2 + (co ys j - co ys i) ^ 2 + (co zs j - co zs i) ^ 2 by ring]

/-- The bounds used for a halo, with reach `R`. -/
def boundsOf64 (cells : ℤ) (width : ℚ) (xs ys zs : List ℚ) (R : ℚ) (ih : ℕ) : Bounds :=
  haloBounds64 ![co xs ih, co ys ih, co zs ih] R (f64 (width / f64 cells)) width

section
variable {cells : ℤ} {width mult : ℚ} {xs ys zs rs : List ℚ}

theorem boundsOf64_good (S : Setting64 cells width xs ys zs rs mult) {ih : ℕ} (hih : ih < xs.length) {R : ℚ} (hR : 0 ≤ R)
    (hR' : 2 * R + width / cells + width / 2 ^ 46 ≤ width) :
    GoodBounds cells (boundsOf64 cells width xs ys zs R ih) ∧
    ∀ j < xs.length, |co xs ih - co xs j| ≤ R - width / 2 ^ 48 → |co ys ih - co ys j| ≤ R - width / 2 ^ 48 →
      |co zs ih - co zs j| ≤ R - width / 2 ^ 48 →
      haloGridIndex64 cells width xs ys zs j ∈ cellList cells (boundsOf64 cells width xs ys zs R ih) := by
  have hW := S.hW
  have hin : ∀ x : ℚ, 0 ≤ x ∧ x ≤ width * (1 - 1 / 2 ^ 50) → 0 ≤ x ∧ x ≤ width := fun x h => ⟨h.1, by linarith [h.2]⟩
  obtain ⟨px, py, pz⟩ := S.inside ih hih
  have sx := sphereBounds64_spec hW S.hc S.hc' (hin _ px).1 (hin _ px).2 hR hR'
  have sy := sphereBounds64_spec hW S.hc S.hc' (hin _ py).1 (hin _ py).2 hR hR'
  have sz := sphereBounds64_spec hW S.hc S.hc' (hin _ pz).1 (hin _ pz).2 hR hR'
  dsimp only at sx sy sz
  obtain ⟨x1, x2, x3, x4, x5⟩ := sx
  obtain ⟨y1, y2, y3, y4, y5⟩ := sy
  obtain ⟨z1, z2, z3, z4, z5⟩ := sz
  have hg : GoodBounds cells (boundsOf64 cells width xs ys zs R ih) := by
    intro j
    fin_cases j
    · exact ⟨x1, x2, x3, x4⟩
    · exact ⟨y1, y2, y3, y4⟩
    · exact ⟨z1, z2, z3, z4⟩
  refine ⟨hg, fun j hj dx dy dz => ?_⟩
  obtain ⟨qx, qy, qz⟩ := S.inside j hj
  have hc53 : cells ≤ 2 ^ 53 := le_trans S.hc' (by norm_num)
  obtain ⟨a0, a1, -⟩ := haloCell64_spec hW S.hc hc53 (.inl qx)
  obtain ⟨b0, b1, -⟩ := haloCell64_spec hW S.hc hc53 (.inl qy)
  obtain ⟨c0, c1, -⟩ := haloCell64_spec hW S.hc hc53 (.inl qz)
  have := mem_cellList hg (c := ![haloCell64 width (f64 (width / f64 cells)) (co xs j),
      haloCell64 width (f64 (width / f64 cells)) (co ys j), haloCell64 width (f64 (width / f64 cells)) (co zs j)]) (by
    intro d
    fin_cases d
    · exact ⟨a0, a1⟩
    · exact ⟨b0, b1⟩
    · exact ⟨c0, c1⟩) (by
    intro d
    fin_cases d
    · exact x5 _ (hin _ qx).1 (hin _ qx).2 dx
    · exact y5 _ (hin _ qy).1 (hin _ qy).2 dy
    · exact z5 _ (hin _ qz).1 (hin _ qz).2 dz)
  exact this

/-- The reach of a halo. -/
theorem reach64 (S : Setting64 cells width xs ys zs rs mult) {cMax : List ℚ}
    (hcm : cumulativeMax (scaled64 rs mult) = some cMax) {i : ℕ} (hi : i < xs.length) :
    0 ≤ f64 (co (scaled64 rs mult) i + co cMax i) ∧
      2 * f64 (co (scaled64 rs mult) i + co cMax i) + width / cells + width / 2 ^ 46 ≤ width ∧
      (∀ j, i ≤ j → j < xs.length → mult * (co rs i + co rs j) - width / 2 ^ 51 ≤
        f64 (co (scaled64 rs mult) i + co cMax i)) ∧ i < cMax.length := by
  have hrl : (scaled64 rs mult).length = xs.length := by unfold scaled64; rw [List.length_map, S.hr]
  have hne' : scaled64 rs mult ≠ [] := by
    intro h
    rw [h] at hrl
    exact S.hne (List.length_eq_zero_iff.mp hrl.symm)
  obtain ⟨ms, em, hml, hmax⟩ := cumulativeMax_spec hne'
  rw [hcm, Option.some.injEq] at em
  subst em
  obtain ⟨m, e, h1, j0, h2, h3, h4⟩ := hmax i (by omega)
  have hco : co cMax i = m := by
    unfold co
    rw [List.getD_eq_getElem?_getD, e]
    rfl
  have hW := S.hW
  have hcq : (0 : ℚ) < cells := by exact_mod_cast S.hc
  have hd0 : 0 < width / cells := div_pos hW hcq
  rw [hco]
  have n0 := S.radii i hi
  refine ⟨?_, ?_, ?_, by omega⟩
  · have := S.radii j0 (by omega)
    rw [h4, co_scaled64, co_scaled64]
    exact f64_nonneg (add_nonneg (f64_nonneg (mul_nonneg n0 S.hm.le)) (f64_nonneg (mul_nonneg this S.hm.le)))
  · have hj := S.radii j0 (by omega)
    have sm := S.small i j0 h2 (by omega)
    rw [h4, co_scaled64, co_scaled64]
    have := (reach_near n0 hj S.hm).2
    have p0 : 0 ≤ mult * (co rs i + co rs j0) := mul_nonneg S.hm.le (add_nonneg n0 hj)
    linarith
  · intro j hij hj
    have nj := S.radii j hj
    have sm := S.small i j hij hj
    have hmono : f64 (co (scaled64 rs mult) i + co (scaled64 rs mult) j) ≤ f64 (co (scaled64 rs mult) i + m) :=
      f64_mono (by linarith [h1 j hij (by omega)])
    rw [co_scaled64, co_scaled64] at hmono
    rw [co_scaled64]
    have := (reach_near n0 nj S.hm).1
    have p0 : 0 ≤ mult * (co rs i + co rs j) := mul_nonneg S.hm.le (add_nonneg n0 nj)
    linarith

/-- The pairs that are found. -/
def Found (f : Fusing) (cells : ℤ) (width : ℚ) (xs ys zs rs cMax : List ℚ) (mult : ℚ) (i k : ℕ) : Prop :=
  haloGridIndex64 cells width xs ys zs k ∈
    cellList cells (boundsOf64 cells width xs ys zs (f64 (co (scaled64 rs mult) i + co cMax i)) i) ∧
  TouchF f xs ys zs (scaled64 rs mult) i k

theorem mem_partners64 (f : Fusing) {cMax : List ℚ} {i : ℕ} (j : ℤ) :
    j ∈ partners64 f cells (haloGridIndex64 cells width xs ys zs) xs.length
        (boundsOf64 cells width xs ys zs (f64 (co (scaled64 rs mult) i + co cMax i)) i) xs ys zs (scaled64 rs mult) i ↔
      ∃ k : ℕ, j = k ∧ i < k ∧ k < xs.length ∧ Found f cells width xs ys zs rs cMax mult i k := by
  unfold partners64 Found
  rw [List.mem_flatMap]
  constructor
  · rintro ⟨idx, hidx, hj⟩
    rw [List.mem_filter] at hj
    obtain ⟨k, hk, rfl, rfl⟩ := mem_listed.mp hj.1
    have := hj.2
    unfold keep64 at this
    rw [decide_eq_true_iff, Int.toNat_natCast] at this
    exact ⟨k, rfl, by exact_mod_cast this.1, hk, hidx, this.2⟩
  · rintro ⟨k, rfl, hik, hk, hidx, ht⟩
    refine ⟨_, hidx, ?_⟩
    rw [List.mem_filter]
    refine ⟨mem_listed.mpr ⟨k, hk, rfl, rfl⟩, ?_⟩
    unfold keep64
    rw [decide_eq_true_iff, Int.toNat_natCast]
    exact ⟨by exact_mod_cast hik, ht⟩

theorem overlap_bounds {W d s R : ℚ} (hW : 0 < W) (hd : 0 < d) (h1 : W / 2 ^ 47 ≤ s) (h2 : 2 * s + d + W / 2 ^ 45 ≤ W)
    (h3 : s - W / 2 ^ 51 ≤ R) :
    0 ≤ s - W / 2 ^ 47 ∧ s - W / 2 ^ 47 ≤ R - W / 2 ^ 48 ∧ s - W / 2 ^ 47 ≤ s * (1 - 1 / 2 ^ 50) := by
  refine ⟨by linarith, by linarith, by linarith⟩

/-- The pairs that are found touch, up to rounding, and pairs that overlap by more than rounding are found. -/
theorem found_near (f : Fusing) (S : Setting64 cells width xs ys zs rs mult) {cMax : List ℚ}
    (hcm : cumulativeMax (scaled64 rs mult) = some cMax) {i k : ℕ} (hik : i < k) (hk : k < xs.length) :
    (Found f cells width xs ys zs rs cMax mult i k → Touch xs ys zs rs (mult * (1 + 1 / 2 ^ 50)) i k) ∧
      (Overlap xs ys zs rs mult (width / 2 ^ 47) i k → Found f cells width xs ys zs rs cMax mult i k) := by
  have hi : i < xs.length := by omega
  have hW := S.hW
  have ri := S.radii i hi
  have rk := S.radii k hk
  obtain ⟨t1, t2⟩ := touchF_near f (xs := xs) (ys := ys) (zs := zs) ri rk S.hm
  refine ⟨fun h => t1 h.2, ?_⟩
  rintro ⟨o1, o2⟩
  obtain ⟨R0, R1, R2, -⟩ := reach64 S hcm hi
  have hR := R2 k hik.le hk
  obtain ⟨-, hmem⟩ := boundsOf64_good S hi R0 R1
  have sm := S.small i k hik.le hk
  have hcq : (0 : ℚ) < cells := by exact_mod_cast S.hc
  have hd0 : 0 < width / cells := div_pos hW hcq
  obtain ⟨s0, s1, s2⟩ := overlap_bounds hW hd0 o1 sm hR
  have le : ∀ a b c : ℚ, a ^ 2 + b ^ 2 + c ^ 2 ≤ (mult * (co rs i + co rs k) - width / 2 ^ 47) ^ 2 →
      |a| ≤ f64 (co (scaled64 rs mult) i + co cMax i) - width / 2 ^ 48 :=
    fun a b c h => le_trans (abs_le_of_sum s0 h) s1
  have hx := le _ _ _ o2
  have hy := le (co ys i - co ys k) (co xs i - co xs k) (co zs i - co zs k) (by rw [add_comm (_ ^ 2)]; exact o2)
  have hz := le (co zs i - co zs k) (co xs i - co xs k) (co ys i - co ys k) (by rw [add_assoc, add_comm (_ ^ 2)]; exact o2)
  refine ⟨hmem k hk hx hy hz, t2 ?_⟩
  unfold Touch
  refine le_trans o2 (pow_le_pow_left₀ s0 ?_ 2)
  rw [show mult * (1 - 1 / 2 ^ 50) * (co rs i + co rs k) = mult * (co rs i + co rs k) * (1 - 1 / 2 ^ 50) by ring]
  exact s2

theorem find64_spec (f : Fusing) (S : Setting64 cells width xs ys zs rs mult)
    {g : Grid} (hf : Filled64 cells width xs.length (haloGridIndex64 cells width xs ys zs) xs.length g)
    {cap : ℤ} (hcap : ∀ idx, 0 ≤ idx → idx < cells * cells * cells →
      ((listed (haloGridIndex64 cells width xs ys zs) xs.length idx).length : ℤ) ≤ cap)
    {cMax : List ℚ} (hcm : cumulativeMax (scaled64 rs mult) = some cMax) {sf : Finder}
    (hsf : sf.starts.length = xs.length) (hsub : sf.subs = []) :
    ∃ sf' L, forRange 0 (scaled64 rs mult).length (findOne64 f g cap cMax xs ys zs (scaled64 rs mult)) sf = some sf' ∧
      Segs sf'.starts sf'.subs L ∧ L.length = xs.length ∧
      ∀ i (hi : i < L.length), L[i].Nodup ∧
        ∀ j : ℤ, j ∈ L[i] ↔ ∃ k : ℕ, j = k ∧ i < k ∧ k < xs.length ∧ Found f cells width xs ys zs rs cMax mult i k := by
  set n := xs.length with hn
  set I := haloGridIndex64 cells width xs ys zs with hI
  set rs' := scaled64 rs mult with hrs'
  have hrl : rs'.length = n := by rw [hrs', scaled64, List.length_map, S.hr]
  set F : ℕ → List ℤ := fun i =>
    partners64 f cells I n (boundsOf64 cells width xs ys zs (f64 (co rs' i + co cMax i)) i) xs ys zs rs' i with hF
  set L : List (List ℤ) := (List.range n).map F with hL
  have hLl : L.length = n := by rw [hL, List.length_map, List.length_range]
  have hLi : ∀ i (hi : i < L.length), L[i] = F i := by intro i hi; simp [hL]
  have hgood : ∀ i < n, GoodBounds cells (boundsOf64 cells width xs ys zs (f64 (co rs' i + co cMax i)) i) := by
    intro i hi
    obtain ⟨R0, R1, -, -⟩ := reach64 S hcm hi
    exact (boundsOf64_good S hi R0 R1).1
  obtain ⟨sf', e, hl, hsub', hv⟩ := forRange_nat (fun k (sf : Finder) => sf.starts.length = n ∧
      sf.subs = (L.take k).flatten ∧ ∀ i < k, sf.starts[i]? = some ((L.take i).flatten.length : ℤ))
    (lo := 0) (hi := n) (Nat.zero_le _) (findOne64 f g cap cMax xs ys zs rs') sf
    ⟨hsf, by simpa using hsub, fun i hi => absurd hi (by omega)⟩ (by
    rintro k sf - hk ⟨hl, hs, hv⟩
    have hmc := markCells64_spec f hf (le_refl _) (hgood k hk) hcap (ih := k) rfl S.hy S.hz hrl hk sf.subs
    have hcl := (reach64 S hcm hk).2.2.2
    refine ⟨⟨sf.starts.set k sf.subs.length, sf.subs ++ F k⟩, ?_, ?_, ?_, ?_⟩
    · unfold findOne64
      refine bind_of (rd_co (by omega)) (bind_of (wr_natCast (by omega)) (bind_of (rd_co hcl)
        (bind_of (rd_co hk) (bind_of (rd_co (by rw [S.hy]; exact hk)) (bind_of (rd_co (by rw [S.hz]; exact hk)) ?_)))))
      rw [hf.hcw, hf.hwidth]
      exact bind_of hmc rfl
    · dsimp only
      rw [List.length_set, hl]
    · dsimp only
      rw [take_succ_flatten (by omega), hLi, hs]
    · intro i hi
      dsimp only
      by_cases hik : i = k
      · subst hik
        rw [List.getElem?_set_self (by omega), hs]
      · rw [List.getElem?_set_ne (Ne.symm hik)]
        exact hv i (by omega))
  refine ⟨sf', L, by rw [hrl]; exact e, ⟨by omega, ?_, fun i hi => hv i (by omega)⟩, hLl, ?_⟩
  · rw [hsub', ← hLl, List.take_length]
  · intro i hi
    rw [hLi]
    exact ⟨visited_nodup (hgood i (by omega)) _ _ _, fun j => mem_partners64 f j⟩

end

/-! ## C147: the finder -/

/-- The radii after a call, when they are divided by the factor again. -/
theorem radii_back {r mult : ℚ} (hr : 0 ≤ r) (hm : 0 < mult) : |f64 (f64 (r * mult) / mult) - r| ≤ r / 2 ^ 51 := by
  have h0 : 0 ≤ r * mult := mul_nonneg hr hm.le
  obtain ⟨a1, a2⟩ := f64_near h0
  have b1 : r * (1 - 1 / 2 ^ 53) ≤ f64 (r * mult) / mult := by
    rw [le_div_iff₀ hm]
    linarith
  have b2 : f64 (r * mult) / mult ≤ r * (1 + 1 / 2 ^ 53) := by
    rw [div_le_iff₀ hm]
    linarith
  have b0 : 0 ≤ f64 (r * mult) / mult := div_nonneg (f64_nonneg h0) hm.le
  obtain ⟨c1, c2⟩ := f64_near b0
  rw [abs_le]
  constructor <;> linarith

/-- C147 for spheres that do not touch through the periodic boundary and are not too large for the grid, and halos that are
not within rounding of the upper edge of the box: the search does not panic; in the overlap list of every halo the others are in
increasing order and each once; every listed halo touches, if the radii are enlarged by `2 ^ -50`; and every halo is listed that
overlaps by at least `2 ^ -47` of the width of the box. The hosts are those of lower and the subhalos those of higher index. The
radii are left as given up to `2 ^ -51`. This holds whichever products are fused with additions.
Missing: pairs that touch or fail to do so within rounding (`C147_pair_counterexample`), radii exactly as given
(`C147_radii_counterexample`), and as in `C73_findSubhalos_partial` periodic images and large spheres. -/
theorem C147_findSubhalos_partial (f : Fusing) (cells : ℤ) (width mult : ℚ) (xs ys zs rs : List ℚ)
    (S : Setting64 cells width xs ys zs rs mult) :
    ∃ sf' rs', haloSearch64 f cells width xs ys zs rs mult = some (sf', rs') ∧
      rs'.length = rs.length ∧ (∀ i < rs.length, |co rs' i - co rs i| ≤ co rs i / 2 ^ 51) ∧
      ∀ i < xs.length, ∃ l : List ℤ, sf'.intersects i = some l ∧ l.Pairwise (· < ·) ∧
        (∀ j ∈ l, ∃ k : ℕ, j = k ∧ k < xs.length ∧ k ≠ i ∧ Touch xs ys zs rs (mult * (1 + 1 / 2 ^ 50)) i k) ∧
        (∀ k : ℕ, k < xs.length → k ≠ i → Overlap xs ys zs rs mult (width / 2 ^ 47) i k → (k : ℤ) ∈ l) ∧
        (∀ k : ℕ, k < xs.length → ∃ l', sf'.intersects k = some l' ∧ ((k : ℤ) ∈ l ↔ (i : ℤ) ∈ l')) ∧
        sf'.hosts i = some (l.filter (fun j => decide (j < (i : ℤ)))) ∧
        sf'.subhalos i = some (l.filter (fun j => decide ((i : ℤ) < j))) ∧
        sf'.hostCount i = some ((l.filter (fun j => decide (j < (i : ℤ)))).length : ℤ) ∧
        sf'.subhaloCount i = some ((l.filter (fun j => decide ((i : ℤ) < j))).length : ℤ) := by
  have hc53 : cells ≤ 2 ^ 53 := le_trans S.hc' (by norm_num)
  obtain ⟨g, eg, fg⟩ := haloGrid64_filled cells width xs.length S.hc (haloGridIndex64 cells width xs ys zs)
  obtain ⟨g', eg', fg'⟩ := haloInsert64_filled S.hW S.hc hc53 fg (le_refl _) S.hy.ge S.hz.ge (fun i hi => by
    obtain ⟨a, b, c⟩ := S.inside i hi
    exact ⟨.inl a, .inl b, .inl c⟩)
  obtain ⟨cap, ecap, _, hcap, _⟩ := fg'.maxLength_eq (le_refl _)
  have hrl : (scaled64 rs mult).length = xs.length := by unfold scaled64; rw [List.length_map, S.hr]
  have hne' : scaled64 rs mult ≠ [] := by
    intro h
    rw [h] at hrl
    exact S.hne (List.length_eq_zero_iff.mp hrl.symm)
  obtain ⟨cMax, ecm, _⟩ := cumulativeMax_spec hne'
  have hnext : g'.next.length = xs.length := fg'.filled.hnext
  obtain ⟨sf1, L, e1, hsegs, hLl, hL⟩ := find64_spec f S fg' hcap ecm (sf := newFinder g')
    (by unfold newFinder; rw [List.length_replicate, hnext]) rfl
  obtain ⟨sf2, e2, hint⟩ := crossMatch_partners (Found f cells width xs ys zs rs cMax mult) hsegs hLl hL
  refine ⟨sf2, (scaled64 rs mult).map fun r => f64 (r / mult), ?_, ?_, ?_, ?_⟩
  · unfold haloSearch64
    refine bind_of eg (bind_of eg' ?_)
    unfold findSubhalos64
    exact bind_of ecap (bind_of ecm (bind_of e1 (bind_of e2 rfl)))
  · rw [List.length_map, hrl, S.hr]
  · intro i hi
    have hco : co ((scaled64 rs mult).map fun r => f64 (r / mult)) i = f64 (f64 (co rs i * mult) / mult) := by
      unfold co scaled64
      rw [List.getD_eq_getElem?_getD, List.getD_eq_getElem?_getD, List.getElem?_map, List.getElem?_map]
      cases rs[i]? <;> simp [f64_zero]
    rw [hco]
    exact radii_back (S.radii i (by rw [← S.hr]; exact hi)) S.hm
  · intro i hi
    obtain ⟨l, h1, h2, h3⟩ := hint i hi
    have hni : (i : ℤ) ∉ l := by
      intro hmem
      obtain ⟨k, hk, _, h', _⟩ := (h3 _).mp hmem
      exact h' (by exact_mod_cast hk.symm)
    have near : ∀ k, k < xs.length → k ≠ i →
        (Found f cells width xs ys zs rs cMax mult (min i k) (max i k) → Touch xs ys zs rs (mult * (1 + 1 / 2 ^ 50)) i k) ∧
        (Overlap xs ys zs rs mult (width / 2 ^ 47) i k → Found f cells width xs ys zs rs cMax mult (min i k) (max i k)) := by
      intro k hk hki
      rcases Nat.lt_or_gt_of_ne hki with h | h
      · rw [min_eq_right h.le, max_eq_left h.le, touch_symm, overlap_symm]
        exact found_near f S ecm h hi
      · rw [min_eq_left (Nat.le_of_lt h), max_eq_right (Nat.le_of_lt h)]
        exact found_near f S ecm h hk
    refine ⟨l, h1, h2, ?_, ?_, ?_, hosts_of_intersects h1 h2 hni⟩
    · intro j hj
      obtain ⟨k, rfl, hk, hki, hfd⟩ := (h3 j).mp hj
      exact ⟨k, rfl, hk, hki, (near k hk hki).1 hfd⟩
    · intro k hk hki ho
      exact (h3 _).mpr ⟨k, rfl, hk, hki, (near k hk hki).2 ho⟩
    · intro k hk
      obtain ⟨l', b1, -, b3⟩ := hint k hk
      refine ⟨l', b1, ?_⟩
      rw [h3, b3]
      constructor
      · rintro ⟨t, e, _, ht, hfd⟩
        have : k = t := by exact_mod_cast e
        subst this
        exact ⟨i, rfl, hi, Ne.symm ht, by rwa [min_comm, max_comm]⟩
      · rintro ⟨t, e, _, ht, hfd⟩
        have : i = t := by exact_mod_cast e
        subst this
        exact ⟨k, rfl, hk, Ne.symm ht, by rwa [min_comm, max_comm]⟩

/-- The setting of the examples: three halos, of which the first two overlap. -/
theorem example_setting64 : Setting64 5 10 [1, 2, 8] [1, 1, 8] [1, 1, 8] [1, 1/2, 1/4] 1 := by
  refine ⟨by norm_num, by norm_num, by norm_num, rfl, rfl, rfl, by simp, by norm_num, ?_, ?_, ?_⟩
  · intro i hi
    have : i = 0 ∨ i = 1 ∨ i = 2 := by simp at hi; omega
    rcases this with rfl | rfl | rfl <;> norm_num [co]
  · intro i hi
    have : i = 0 ∨ i = 1 ∨ i = 2 := by simp at hi; omega
    rcases this with rfl | rfl | rfl <;> norm_num [co]
  · intro i j hij hj
    have h1 : j = 0 ∨ j = 1 ∨ j = 2 := by simp at hj; omega
    have h2 : i = 0 ∨ i = 1 ∨ i = 2 := by simp at hj; omega
    rcases h1 with rfl | rfl | rfl <;> rcases h2 with rfl | rfl | rfl <;> norm_num [co]

example : Overlap [1, 2, 8] [1, 1, 8] [1, 1, 8] [1, 1/2, 1/4] 1 (10 / 2 ^ 47) 0 1 := by norm_num [Overlap, co]

example : ((haloSearch64 ⟨true, false, true⟩ 5 10 [1, 2, 8] [1, 1, 8] [1, 1, 8] [1, 1/2, 1/4] 1).bind fun r =>
    (r.1.intersects 0).bind fun a => (r.1.intersects 1).bind fun b => (r.1.intersects 2).map fun c => (a, b, c, r.2)) =
    some ([1], [0], [], [1, 1/2, 1/4]) := by decide +kernel

/-- C147: two halos that touch, with exact coordinates and radii, and that are not found: the sphere around the first reaches
through the lower face of the box, and the upper limit of its cells is rounded after it has been moved by the width. In exact
arithmetic the pair is found. -/
theorem C147_pair_counterexample :
    (∃ x : ℚ, F64 x ∧ F64 (x + 1 / 8) ∧
      Touch [x, x + 1 / 8] [0, 0] [0, 0] [1 / 16, 1 / 16] 1 0 1 ∧
      Setting 5 1 [x, x + 1 / 8] [0, 0] [0, 0] [1 / 16, 1 / 16] 1 ∧
      ((haloSearch64 ⟨false, false, false⟩ 5 1 [x, x + 1 / 8] [0, 0] [0, 0] [1 / 16, 1 / 16] 1).bind fun r =>
        r.1.intersects 0) = some [] ∧
      ((findOnce 5 1 [x, x + 1 / 8] [0, 0] [0, 0] [1 / 16, 1 / 16] 1).bind fun sf => sf.intersects 0) = some [1]) := by
  refine ⟨3602879701896397 / 2 ^ 54 - 1 / 8, ?_, ?_, ?_, ?_, by decide +kernel, by decide +kernel⟩
  · exact ⟨1351079888211149, -54, by norm_num, by norm_num⟩
  · exact ⟨3602879701896397, -54, by norm_num, by norm_num⟩
  · norm_num [Touch, co]
  · refine ⟨by norm_num, by norm_num, rfl, rfl, rfl, by simp, by norm_num, ?_, ?_, ?_⟩
    · intro i hi
      have : i = 0 ∨ i = 1 := by simp at hi; omega
      rcases this with rfl | rfl <;> norm_num [co]
    · intro i hi
      have : i = 0 ∨ i = 1 := by simp at hi; omega
      rcases this with rfl | rfl <;> norm_num [co]
    · intro i j hij hj
      have h1 : j = 0 ∨ j = 1 := by simp at hj; omega
      have h2 : i = 0 ∨ i = 1 := by simp at hj; omega
      rcases h1 with rfl | rfl <;> rcases h2 with rfl | rfl <;> norm_num [co]

/-- C147: the radii of the caller are not as before after the search. -/
theorem C147_radii_counterexample :
    ∃ r m : ℚ, F64 r ∧ F64 m ∧ 0 < r ∧ 0 < m ∧
      ((haloSearch64 ⟨false, false, false⟩ 4 10 [5] [5] [5] [r] m).map fun p => p.2) ≠ some [r] := by
  refine ⟨3602879701896397 / 2 ^ 55, 3, ?_, ?_, by norm_num, by norm_num, by decide +kernel⟩
  · exact ⟨3602879701896397, -55, by norm_num, by norm_num⟩
  · exact ⟨3, 0, by norm_num, by norm_num⟩

/-- C147: if the factor is a power of two, the radii are left exactly as given. -/
theorem C147_radii_partial (f : Fusing) (cells : ℤ) (width : ℚ) (xs ys zs rs : List ℚ) (k : ℤ) (hr : ∀ r ∈ rs, F64 r)
    {sf' : Finder} {rs' : List ℚ} (h : haloSearch64 f cells width xs ys zs rs ((2 : ℚ) ^ k) = some (sf', rs')) :
    rs' = rs := by
  unfold haloSearch64 at h
  obtain ⟨g, -, h⟩ := Option.bind_eq_some_iff.mp h
  obtain ⟨g', -, h⟩ := Option.bind_eq_some_iff.mp h
  unfold findSubhalos64 at h
  obtain ⟨cap, -, h⟩ := Option.bind_eq_some_iff.mp h
  obtain ⟨cm, -, h⟩ := Option.bind_eq_some_iff.mp h
  obtain ⟨s1, -, h⟩ := Option.bind_eq_some_iff.mp h
  obtain ⟨s2, -, h⟩ := Option.bind_eq_some_iff.mp h
  have e := (Prod.ext_iff.mp (Option.some.inj h)).2
  dsimp only at e
  rw [← e, List.map_map]
  conv_rhs => rw [← List.map_id rs]
  apply List.map_congr_left
  intro r hmem
  simp only [Function.comp, id]
  rw [f64_of (rep_scale (hr r hmem) k), mul_div_cancel_right₀ r (by positivity), f64_of (hr r hmem)]

example : ((haloSearch64 ⟨false, false, false⟩ 4 10 [5] [5] [5] [3602879701896397 / 2 ^ 55] ((2 : ℚ) ^ (1 : ℤ))).map
    fun p => p.2) = some [3602879701896397 / 2 ^ 55] := by decide +kernel

end Verif.Fp
