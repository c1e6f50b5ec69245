import Verif.Interp.Search

/-! Bilinear and trilinear interpolation: property C16. -/

namespace Verif.Interp

open Verif.Go

/-- Bilinear interpolation in a cell: linear in `x` on the two `y` lines, then linear in `y`. -/
def bilin (x1 x2 y1 y2 v11 v12 v21 v22 x y : ℚ) : ℚ :=
  lineThrough y1 (lineThrough x1 v11 x2 v21 x) y2 (lineThrough x1 v12 x2 v22 x) y

/-- The line does not depend on which of the cells containing `x` is taken. -/
theorem line_indep {s : Searcher} {X : Nat → ℚ} {n : Nat} (g : s.Grid X n) {x : ℚ} {i j : Nat}
    (hi : i + 1 < n) (hj : j + 1 < n) (hi1 : X i ≤ x) (hi2 : x ≤ X (i + 1)) (hj1 : X j ≤ x)
    (hj2 : x ≤ X (j + 1)) (V : Nat → ℚ) :
    lineThrough (X i) (V i) (X (i + 1)) (V (i + 1)) x =
      lineThrough (X j) (V j) (X (j + 1)) (V (j + 1)) x := by
  have dj' : X (j + 1) - X j ≠ 0 := (sub_pos.mpr (g.mono j (j + 1) (by omega) hj)).ne'
  have di' : X (i + 1) - X i ≠ 0 := (sub_pos.mpr (g.mono i (i + 1) (by omega) hi)).ne'
  unfold lineThrough
  rcases bracket_cases g hi hj hi1 hi2 hj1 hj2 with c | ⟨c, hx⟩ | ⟨c, hx⟩
  · rw [c]
  · subst c; rw [hx, div_self dj']; simp
  · subst c; rw [hx, div_self di']; simp

theorem line_left (x1 v1 x2 v2 : ℚ) : lineThrough x1 v1 x2 v2 x1 = v1 := by simp [lineThrough]

theorem line_right {x1 v1 x2 v2 : ℚ} (h : x1 < x2) : lineThrough x1 v1 x2 v2 x2 = v2 := by
  unfold lineThrough; rw [div_self (sub_pos.mpr h).ne']; ring

/-- A line through two samples of an affine function is that function. -/
theorem line_affine {x1 x2 : ℚ} (h : x1 < x2) (a b x : ℚ) :
    lineThrough x1 (a + b * x1) x2 (a + b * x2) x = a + b * x := by
  unfold lineThrough
  have : x2 - x1 ≠ 0 := (sub_pos.mpr h).ne'
  field_simp; ring

theorem line_knot {s : Searcher} {X : Nat → ℚ} {n : Nat} (g : s.Grid X n) {i k : Nat}
    (hi : i + 1 < n) (hk : k < n) (h1 : X i ≤ X k) (h2 : X k ≤ X (i + 1)) (V : Nat → ℚ) :
    lineThrough (X i) (V i) (X (i + 1)) (V (i + 1)) (X k) = V k := by
  have hlt := g.mono i (i + 1) (by omega) hi
  rcases Nat.lt_trichotomy k i with h | h | h
  · have := g.mono k i h (by omega); linarith
  · rw [h]; exact line_left _ _ _ _
  · rcases Nat.lt_or_ge (i + 1) k with h' | h'
    · have := g.mono (i + 1) k h' hk; linarith
    · have e : k = i + 1 := by omega
      rw [e]; exact line_right hlt

theorem in_range {s : Searcher} {X : Nat → ℚ} {n : Nat} (g : s.Grid X n) {x : ℚ} {i : Nat}
    (hi : i + 1 < n) (h1 : X i ≤ x) (h2 : x ≤ X (i + 1)) : X 0 ≤ x ∧ x ≤ X (n - 1) := by
  constructor
  · rcases Nat.eq_zero_or_pos i with h | h
    · rw [h] at h1; exact h1
    · exact (g.mono 0 i h (by omega)).le.trans h1
  · rcases Nat.lt_or_ge (i + 1) (n - 1) with h | h
    · exact h2.trans (g.mono _ _ h (by omega)).le
    · have : i + 1 = n - 1 := by omega
      rw [← this]; exact h2

theorem knot_range {s : Searcher} {X : Nat → ℚ} {n : Nat} (g : s.Grid X n) {k : Nat} (hk : k < n) :
    X 0 ≤ X k ∧ X k ≤ X (n - 1) := by
  constructor
  · rcases Nat.eq_zero_or_pos k with h | h
    · rw [h]
    · exact (g.mono 0 k h hk).le
  · rcases Nat.lt_or_ge k (n - 1) with h | h
    · exact (g.mono k _ h (by omega)).le
    · have : k = n - 1 := by omega
      rw [this]

theorem val_succ {s : Searcher} {X : Nat → ℚ} {n : Nat} (g : s.Grid X n) {j : Nat} (hj : j + 1 < n) :
    s.val ((j : Int) + 1) = some (X (j + 1)) := by
  have := g.val (j + 1) hj
  push_cast at this
  exact this

theorem flat2_lt {i j nx ny : Nat} (hi : i < nx) (hj : j < ny) : i + nx * j < nx * ny := by
  calc i + nx * j < nx + nx * j := by omega
    _ = nx * (j + 1) := by ring
    _ ≤ nx * ny := Nat.mul_le_mul_left _ hj

/-- Value of `BiLinear.Eval` in the cell found by the searches. -/
theorem bilinear_eval {sx sy : Searcher} {X Y : Nat → ℚ} {nx ny : Nat} (gx : sx.Grid X nx)
    (gy : sy.Grid Y ny) (vals : List ℚ) (V : Nat → Nat → ℚ)
    (hv : ∀ i < nx, ∀ j < ny, vals[i + nx * j]? = some (V i j)) (x y : ℚ) (i j : Nat)
    (hi : i + 1 < nx) (hj : j + 1 < ny) (hx1 : X i ≤ x) (hx2 : x ≤ X (i + 1)) (hy1 : Y j ≤ y)
    (hy2 : y ≤ Y (j + 1)) :
    (BiLinear.mk sx sy vals nx).eval x y = some (bilin (X i) (X (i + 1)) (Y j) (Y (j + 1))
      (V i j) (V i (j + 1)) (V (i + 1) j) (V (i + 1) (j + 1)) x y) := by
  obtain ⟨a, ea, ha, a1, a2⟩ := gx.inside x (in_range gx hi hx1 hx2).1 (in_range gx hi hx1 hx2).2
  obtain ⟨b, eb, hb, b1, b2⟩ := gy.inside y (in_range gy hj hy1 hy2).1 (in_range gy hj hy1 hy2).2
  have rdv : ∀ p q : Nat, p < nx → q < ny → ∀ u w : Int, u = p → w = q →
      rd vals (u + (nx : Int) * w) = some (V p q) := by
    intro p q hp hq u w hu hw
    subst hu hw
    have : (p : Int) + (nx : Int) * (q : Int) = ((p + nx * q : Nat) : Int) := by push_cast; ring
    rw [this, rd_natCast, hv p hp q hq]
  have n1 : ¬ ((a : Int) + 1 = sx.n) := by rw [gx.num]; omega
  have n2 : ¬ ((b : Int) + 1 = sy.n) := by rw [gy.num]; omega
  unfold BiLinear.eval
  simp only [ea, eb, bind, Option.bind_some, if_neg n1, if_neg n2, gx.val a (by omega), val_succ gx ha,
    gy.val b (by omega), val_succ gy hb,
    rdv a b (by omega) (by omega) a b rfl rfl, rdv a (b + 1) (by omega) (by omega) a (b + 1) rfl (by omega),
    rdv (a + 1) b (by omega) (by omega) (a + 1) b (by omega) rfl,
    rdv (a + 1) (b + 1) (by omega) (by omega) (a + 1) (b + 1) (by omega) (by omega)]
  congr 1
  have e1 : (V a b * (X (a + 1) - x) * (Y (b + 1) - y) + V a (b + 1) * (X (a + 1) - x) * (y - Y b) +
      V (a + 1) b * (x - X a) * (Y (b + 1) - y) + V (a + 1) (b + 1) * (x - X a) * (y - Y b)) /
      ((X (a + 1) - X a) * (Y (b + 1) - Y b)) =
      bilin (X a) (X (a + 1)) (Y b) (Y (b + 1)) (V a b) (V a (b + 1)) (V (a + 1) b)
        (V (a + 1) (b + 1)) x y := by
    have da : X (a + 1) - X a ≠ 0 := (sub_pos.mpr (gx.mono a (a + 1) (by omega) ha)).ne'
    have db : Y (b + 1) - Y b ≠ 0 := (sub_pos.mpr (gy.mono b (b + 1) (by omega) hb)).ne'
    unfold bilin lineThrough
    field_simp
    ring
  rw [e1]
  unfold bilin
  rw [line_indep gx ha hi a1 a2 hx1 hx2 (fun p => V p b),
    line_indep gx ha hi a1 a2 hx1 hx2 (fun p => V p (b + 1))]
  exact line_indep gy hb hj b1 b2 hy1 hy2
    (fun q => lineThrough (X i) (V i q) (X (i + 1)) (V (i + 1) q) x)

theorem bilinear_knot {sx sy : Searcher} {X Y : Nat → ℚ} {nx ny : Nat} (gx : sx.Grid X nx)
    (gy : sy.Grid Y ny) (vals : List ℚ) (V : Nat → Nat → ℚ)
    (hv : ∀ i < nx, ∀ j < ny, vals[i + nx * j]? = some (V i j)) (k l : Nat) (hk : k < nx) (hl : l < ny) :
    (BiLinear.mk sx sy vals nx).eval (X k) (Y l) = some (V k l) := by
  obtain ⟨a, _, ha, a1, a2⟩ := gx.inside (X k) (knot_range gx hk).1 (knot_range gx hk).2
  obtain ⟨b, _, hb, b1, b2⟩ := gy.inside (Y l) (knot_range gy hl).1 (knot_range gy hl).2
  rw [bilinear_eval gx gy vals V hv _ _ a b ha hb a1 a2 b1 b2]
  congr 1
  unfold bilin
  rw [line_knot gx ha hk a1 a2 (fun p => V p b), line_knot gx ha hk a1 a2 (fun p => V p (b + 1))]
  exact line_knot gy hb hl b1 b2 (fun q => V k q)

theorem bilinear_affine {sx sy : Searcher} {X Y : Nat → ℚ} {nx ny : Nat} (gx : sx.Grid X nx)
    (gy : sy.Grid Y ny) (vals : List ℚ) (c0 c1 c2 c3 : ℚ)
    (hv : ∀ i < nx, ∀ j < ny,
      vals[i + nx * j]? = some (c0 + c1 * X i + c2 * Y j + c3 * X i * Y j)) (x y : ℚ)
    (hx : X 0 ≤ x ∧ x ≤ X (nx - 1)) (hy : Y 0 ≤ y ∧ y ≤ Y (ny - 1)) :
    (BiLinear.mk sx sy vals nx).eval x y = some (c0 + c1 * x + c2 * y + c3 * x * y) := by
  obtain ⟨a, _, ha, a1, a2⟩ := gx.inside x hx.1 hx.2
  obtain ⟨b, _, hb, b1, b2⟩ := gy.inside y hy.1 hy.2
  rw [bilinear_eval gx gy vals (fun i j => c0 + c1 * X i + c2 * Y j + c3 * X i * Y j) hv _ _ a b ha hb
    a1 a2 b1 b2]
  congr 1
  unfold bilin
  have dx := gx.mono a (a + 1) (by omega) ha
  have dy := gy.mono b (b + 1) (by omega) hb
  have e : ∀ q, lineThrough (X a) (c0 + c1 * X a + c2 * q + c3 * X a * q) (X (a + 1))
      (c0 + c1 * X (a + 1) + c2 * q + c3 * X (a + 1) * q) x = (c0 + c1 * x) + (c2 + c3 * x) * q := by
    intro q
    have := line_affine dx (c0 + c2 * q) (c1 + c3 * q) x
    rw [show c0 + c1 * X a + c2 * q + c3 * X a * q = c0 + c2 * q + (c1 + c3 * q) * X a by ring,
      show c0 + c1 * X (a + 1) + c2 * q + c3 * X (a + 1) * q =
        c0 + c2 * q + (c1 + c3 * q) * X (a + 1) by ring, this]
    ring
  simp only [e]
  rw [line_affine dy]
  ring

/-- C16: `NewBiLinear` on strictly increasing grid lines: grid points are reproduced, in each cell the
value is the bilinear interpolant of its corners, data of the form `c0 + c1 x + c2 y + c3 x y` are
reproduced exactly at every point in range, and points out of range are rejected. -/
theorem C16_bilinear (xs ys vals : List ℚ) (hnx : 2 ≤ xs.length) (hny : 2 ≤ ys.length)
    (hmx : xs.Pairwise (· < ·)) (hmy : ys.Pairwise (· < ·))
    (hl : vals.length = xs.length * ys.length) :
    ∃ bi, newBiLinear xs ys vals = some bi ∧
      (∀ (i j : Nat) (x y v : ℚ), xs[i]? = some x → ys[j]? = some y →
        vals[i + xs.length * j]? = some v → bi.eval x y = some v) ∧
      (∀ (i j : Nat) (x1 x2 y1 y2 v11 v12 v21 v22 x y : ℚ), xs[i]? = some x1 → xs[i + 1]? = some x2 →
        ys[j]? = some y1 → ys[j + 1]? = some y2 → vals[i + xs.length * j]? = some v11 →
        vals[i + xs.length * (j + 1)]? = some v12 → vals[i + 1 + xs.length * j]? = some v21 →
        vals[i + 1 + xs.length * (j + 1)]? = some v22 → x1 ≤ x → x ≤ x2 → y1 ≤ y → y ≤ y2 →
        bi.eval x y = some (bilin x1 x2 y1 y2 v11 v12 v21 v22 x y)) ∧
      (∀ c0 c1 c2 c3 : ℚ, (∀ (i j : Nat) (x y : ℚ), xs[i]? = some x → ys[j]? = some y →
          vals[i + xs.length * j]? = some (c0 + c1 * x + c2 * y + c3 * x * y)) →
        ∀ x y, (∃ a ∈ xs, a ≤ x) → (∃ a ∈ xs, x ≤ a) → (∃ a ∈ ys, a ≤ y) → (∃ a ∈ ys, y ≤ a) →
          bi.eval x y = some (c0 + c1 * x + c2 * y + c3 * x * y)) ∧
      ∀ x y, (∀ a ∈ xs, x < a) ∨ (∀ a ∈ xs, a < x) ∨ (∀ a ∈ ys, y < a) ∨ (∀ a ∈ ys, a < y) →
        bi.eval x y = none := by
  obtain ⟨sx, ex, _, gx⟩ := init_grid xs hnx hmx
  obtain ⟨sy, ey, _, gy⟩ := init_grid ys hny hmy
  have hv : ∀ i < xs.length, ∀ j < ys.length,
      vals[i + xs.length * j]? = some (vals.getD (i + xs.length * j) 0) := by
    intro i hi j hj
    exact rd_getD (by rw [hl]; exact flat2_lt hi hj)
  have lt_of : ∀ {l : List ℚ} {i : Nat} {a : ℚ}, l[i]? = some a → i < l.length ∧ a = l.getD i 0 := by
    intro l i a h
    have hi := (List.getElem?_eq_some_iff.mp h).1
    rw [rd_getD hi] at h
    exact ⟨hi, (Option.some.inj h).symm⟩
  have rng : ∀ {l : List ℚ} {s : Searcher}, s.Grid (fun i => l.getD i 0) l.length → ∀ {x : ℚ},
      (∃ a ∈ l, a ≤ x) → (∃ a ∈ l, x ≤ a) → l.getD 0 0 ≤ x ∧ x ≤ l.getD (l.length - 1) 0 := by
    intro l s g x h1 h2
    obtain ⟨a, ha, hax⟩ := h1
    obtain ⟨b, hb, hbx⟩ := h2
    obtain ⟨i, hi⟩ := List.getElem?_of_mem ha
    obtain ⟨j, hj⟩ := List.getElem?_of_mem hb
    obtain ⟨hi1, rfl⟩ := lt_of hi
    obtain ⟨hj1, rfl⟩ := lt_of hj
    exact ⟨(knot_range g hi1).1.trans hax, hbx.trans (knot_range g hj1).2⟩
  refine ⟨⟨sx, sy, vals, xs.length⟩, ?_, ?_, ?_, ?_, ?_⟩
  · unfold newBiLinear
    simp only [ex, ey, bind, Option.bind_some]
    rw [if_neg (by rw [hl]; simp)]
  · intro i j x y v h1 h2 h3
    obtain ⟨hi, rfl⟩ := lt_of h1
    obtain ⟨hj, rfl⟩ := lt_of h2
    obtain ⟨_, rfl⟩ := lt_of h3
    exact bilinear_knot gx gy vals (fun i j => vals.getD (i + xs.length * j) 0) hv i j hi hj
  · intro i j x1 x2 y1 y2 v11 v12 v21 v22 x y h1 h2 h3 h4 h5 h6 h7 h8 k1 k2 k3 k4
    obtain ⟨_, rfl⟩ := lt_of h1
    obtain ⟨hi, rfl⟩ := lt_of h2
    obtain ⟨_, rfl⟩ := lt_of h3
    obtain ⟨hj, rfl⟩ := lt_of h4
    obtain ⟨_, rfl⟩ := lt_of h5
    obtain ⟨_, rfl⟩ := lt_of h6
    obtain ⟨_, rfl⟩ := lt_of h7
    obtain ⟨_, rfl⟩ := lt_of h8
    exact bilinear_eval gx gy vals (fun i j => vals.getD (i + xs.length * j) 0) hv x y i j hi hj
      k1 k2 k3 k4
  · intro c0 c1 c2 c3 hc x y a1 a2 b1 b2
    exact bilinear_affine gx gy vals c0 c1 c2 c3
      (fun i hi j hj => hc i j _ _ (rd_getD hi) (rd_getD hj)) x y (rng gx a1 a2) (rng gy b1 b2)
  · intro x y h
    have out : ∀ {l : List ℚ} {s : Searcher}, s.Grid (fun i => l.getD i 0) l.length → 2 ≤ l.length →
        ∀ {x : ℚ}, (∀ a ∈ l, x < a) ∨ (∀ a ∈ l, a < x) → s.search x = none := by
      intro l s g hl x h
      apply g.outside
      rcases h with h | h
      · left; exact h _ (List.mem_of_getElem? (rd_getD (by omega)))
      · right; exact h _ (List.mem_of_getElem? (rd_getD (by omega)))
    unfold BiLinear.eval
    rcases h with h | h | h | h
    · simp [out gx hnx (Or.inl h)]
    · simp [out gx hnx (Or.inr h)]
    · simp only [out gy hny (Or.inl h), bind, Option.bind_none]
      cases sx.search x <;> rfl
    · simp only [out gy hny (Or.inr h), bind, Option.bind_none]
      cases sx.search x <;> rfl

example : ∃ bi, newBiLinear [0, 1, 4] [0, 2] [0, 1, 4, 10, 13, 22] = some bi ∧
    bi.eval 4 2 = some 22 ∧ bi.eval (1/2) 1 = some 6 := by
  refine ⟨_, rfl, ?_⟩
  decide +kernel

/-- C16 for uniform grids: grid points and affine data. -/
theorem C16_bilinear_uniform (x0 dx y0 dy : ℚ) (hdx : 0 < dx) (hdy : 0 < dy) (nx ny : Nat)
    (hnx : 2 ≤ nx) (hny : 2 ≤ ny) (vals : List ℚ) (hl : vals.length = nx * ny) :
    ∃ bi, newUniformBiLinear x0 dx nx y0 dy ny vals = some bi ∧
      (∀ (i j : Nat) (v : ℚ), i < nx → j < ny → vals[i + nx * j]? = some v →
        bi.eval (x0 + i * dx) (y0 + j * dy) = some v) ∧
      (∀ c0 c1 c2 c3 : ℚ, (∀ (i j : Nat), i < nx → j < ny → vals[i + nx * j]? =
          some (c0 + c1 * (x0 + i * dx) + c2 * (y0 + j * dy) + c3 * (x0 + i * dx) * (y0 + j * dy))) →
        ∀ x y, x0 ≤ x → x ≤ x0 + ((nx : ℚ) - 1) * dx → y0 ≤ y → y ≤ y0 + ((ny : ℚ) - 1) * dy →
          bi.eval x y = some (c0 + c1 * x + c2 * y + c3 * x * y)) := by
  have gx := unif_grid x0 dx hdx nx hnx
  have gy := unif_grid y0 dy hdy ny hny
  have hv : ∀ i < nx, ∀ j < ny, vals[i + nx * j]? = some (vals.getD (i + nx * j) 0) := by
    intro i hi j hj
    exact rd_getD (by rw [hl]; exact flat2_lt hi hj)
  refine ⟨⟨Searcher.unifInit x0 dx nx, Searcher.unifInit y0 dy ny, vals, nx⟩, ?_, ?_, ?_⟩
  · unfold newUniformBiLinear
    rw [if_neg (by rw [hl]; push_cast; simp)]
  · intro i j v hi hj h
    rw [hv i hi j hj] at h
    rw [← Option.some.inj h]
    exact bilinear_knot gx gy vals (fun i j => vals.getD (i + nx * j) 0) hv i j hi hj
  · intro c0 c1 c2 c3 hc x y h1 h2 h3 h4
    have ex : (((nx - 1 : Nat) : ℚ)) = (nx : ℚ) - 1 := by
      push_cast [Nat.cast_sub (show 1 ≤ nx by omega)]; rfl
    have ey : (((ny - 1 : Nat) : ℚ)) = (ny : ℚ) - 1 := by
      push_cast [Nat.cast_sub (show 1 ≤ ny by omega)]; rfl
    refine bilinear_affine gx gy vals c0 c1 c2 c3 (fun i hi j hj => hc i j hi hj) x y
      ⟨by simpa using h1, by simpa [ex] using h2⟩ ⟨by simpa using h3, by simpa [ey] using h4⟩

example : ∃ bi, newUniformBiLinear 0 1 3 0 2 2 [0, 1, 2, 10, 11, 12] = some bi ∧
    bi.eval (3/2) 1 = some (13/2) := by
  refine ⟨_, rfl, ?_⟩
  decide +kernel

/-! ### Trilinear -/

/-- Trilinear interpolation in a cell. -/
def trilin (x1 x2 y1 y2 z1 z2 v111 v112 v121 v122 v211 v212 v221 v222 x y z : ℚ) : ℚ :=
  lineThrough z1 (bilin x1 x2 y1 y2 v111 v121 v211 v221 x y)
    z2 (bilin x1 x2 y1 y2 v112 v122 v212 v222 x y) z

theorem flat3_lt {i j k nx ny nz : Nat} (hi : i < nx) (hj : j < ny) (hk : k < nz) :
    i + nx * j + nx * ny * k < nx * ny * nz := by
  have := flat2_lt (flat2_lt hi hj) hk
  exact this

/-- Value of `TriLinear.Eval` when the third grid is the second one. -/
theorem trilinear_eval {sx sy sz : Searcher} {X Y : Nat → ℚ} {nx ny : Nat} (gx : sx.Grid X nx)
    (gy : sy.Grid Y ny) (vals : List ℚ) (V : Nat → Nat → Nat → ℚ)
    (hv : ∀ i < nx, ∀ j < ny, ∀ k < ny, vals[i + nx * j + nx * ny * k]? = some (V i j k)) (x y z : ℚ)
    (i j k : Nat) (hi : i + 1 < nx) (hj : j + 1 < ny) (hk : k + 1 < ny)
    (hx1 : X i ≤ x) (hx2 : x ≤ X (i + 1)) (hy1 : Y j ≤ y) (hy2 : y ≤ Y (j + 1))
    (hz1 : Y k ≤ z) (hz2 : z ≤ Y (k + 1)) :
    (TriLinear.mk sx sy sz vals nx ny).eval x y z =
      some (trilin (X i) (X (i + 1)) (Y j) (Y (j + 1)) (Y k) (Y (k + 1))
      (V i j k) (V i j (k + 1)) (V i (j + 1) k) (V i (j + 1) (k + 1))
      (V (i + 1) j k) (V (i + 1) j (k + 1)) (V (i + 1) (j + 1) k) (V (i + 1) (j + 1) (k + 1)) x y z) := by
  obtain ⟨a, ea, ha, a1, a2⟩ := gx.inside x (in_range gx hi hx1 hx2).1 (in_range gx hi hx1 hx2).2
  obtain ⟨b, eb, hb, b1, b2⟩ := gy.inside y (in_range gy hj hy1 hy2).1 (in_range gy hj hy1 hy2).2
  obtain ⟨c, ec, hc, c1, c2⟩ := gy.inside z (in_range gy hk hz1 hz2).1 (in_range gy hk hz1 hz2).2
  have rdv : ∀ p q r : Nat, p < nx → q < ny → r < ny → ∀ u : Int, u = ((p + nx * q + nx * ny * r : Nat) : Int) →
      rd vals u = some (V p q r) := by
    intro p q r hp hq hr u hu
    rw [hu, rd_natCast, hv p hp q hq r hr]
  have r1 := rdv a b c (by omega) (by omega) (by omega)
    ((a : Int) + b * nx + c * ny * nx + 0 + 0 + 0) (by push_cast; ring)
  have r2 := rdv a b (c + 1) (by omega) (by omega) (by omega)
    ((a : Int) + b * nx + c * ny * nx + 0 + 0 + (nx : Int) * ny) (by push_cast; ring)
  have r3 := rdv a (b + 1) c (by omega) (by omega) (by omega)
    ((a : Int) + b * nx + c * ny * nx + 0 + nx + 0) (by push_cast; ring)
  have r4 := rdv a (b + 1) (c + 1) (by omega) (by omega) (by omega)
    ((a : Int) + b * nx + c * ny * nx + 0 + nx + (nx : Int) * ny) (by push_cast; ring)
  have r5 := rdv (a + 1) b c (by omega) (by omega) (by omega)
    ((a : Int) + b * nx + c * ny * nx + 1 + 0 + 0) (by push_cast; ring)
  have r6 := rdv (a + 1) b (c + 1) (by omega) (by omega) (by omega)
    ((a : Int) + b * nx + c * ny * nx + 1 + 0 + (nx : Int) * ny) (by push_cast; ring)
  have r7 := rdv (a + 1) (b + 1) c (by omega) (by omega) (by omega)
    ((a : Int) + b * nx + c * ny * nx + 1 + nx + 0) (by push_cast; ring)
  have r8 := rdv (a + 1) (b + 1) (c + 1) (by omega) (by omega) (by omega)
    ((a : Int) + b * nx + c * ny * nx + 1 + nx + (nx : Int) * ny) (by push_cast; ring)
  unfold TriLinear.eval
  refine bind_of ea ?_
  refine bind_of eb ?_
  refine bind_of ec ?_
  refine bind_of r1 ?_
  refine bind_of r2 ?_
  refine bind_of r3 ?_
  refine bind_of r4 ?_
  refine bind_of r5 ?_
  refine bind_of r6 ?_
  refine bind_of r7 ?_
  refine bind_of r8 ?_
  refine bind_of (gx.val a (by omega)) ?_
  refine bind_of (val_succ gx ha) ?_
  refine bind_of (gy.val b (by omega)) ?_
  refine bind_of (val_succ gy hb) ?_
  refine bind_of (gy.val c (by omega)) ?_
  refine bind_of (val_succ gy hc) ?_
  refine congrArg some ?_
  have key : ∀ t v w : ℚ, v * (1 - t) + w * t = v + (w - v) * t := by intro t v w; ring
  simp only [key]
  have e1 : ∀ r, lineThrough (Y b) (lineThrough (X a) (V a b r) (X (a + 1)) (V (a + 1) b r) x)
      (Y (b + 1)) (lineThrough (X a) (V a (b + 1) r) (X (a + 1)) (V (a + 1) (b + 1) r) x) y =
      lineThrough (Y j) (lineThrough (X i) (V i j r) (X (i + 1)) (V (i + 1) j r) x)
      (Y (j + 1)) (lineThrough (X i) (V i (j + 1) r) (X (i + 1)) (V (i + 1) (j + 1) r) x) y := by
    intro r
    rw [line_indep gx ha hi a1 a2 hx1 hx2 (fun p => V p b r),
      line_indep gx ha hi a1 a2 hx1 hx2 (fun p => V p (b + 1) r)]
    exact line_indep gy hb hj b1 b2 hy1 hy2
      (fun q => lineThrough (X i) (V i q r) (X (i + 1)) (V (i + 1) q r) x)
  have e2 := line_indep gy hc hk c1 c2 hz1 hz2 (fun r =>
    lineThrough (Y j) (lineThrough (X i) (V i j r) (X (i + 1)) (V (i + 1) j r) x)
      (Y (j + 1)) (lineThrough (X i) (V i (j + 1) r) (X (i + 1)) (V (i + 1) (j + 1) r) x) y)
  unfold trilin bilin
  rw [← e2]
  simp only [← e1]
  rfl

/-- C16 for `TriLinear`, when the `z` grid lines are the `y` grid lines: grid points are reproduced and
data affine in each coordinate are reproduced exactly at every point in range.
Missing: other `z` grids, for which the property is false (`C16_trilinear_counterexample`). -/
theorem C16_trilinear_partial (xs ys vals : List ℚ) (hnx : 2 ≤ xs.length) (hny : 2 ≤ ys.length)
    (hmx : xs.Pairwise (· < ·)) (hmy : ys.Pairwise (· < ·))
    (hl : vals.length = xs.length * ys.length * ys.length) :
    ∃ tri, newTriLinear xs ys ys vals = some tri ∧
      (∀ (i j k : Nat) (x y z v : ℚ), xs[i]? = some x → ys[j]? = some y → ys[k]? = some z →
        vals[i + xs.length * j + xs.length * ys.length * k]? = some v → tri.eval x y z = some v) ∧
      (∀ c : Fin 8 → ℚ, (∀ (i j k : Nat) (x y z : ℚ), xs[i]? = some x → ys[j]? = some y →
          ys[k]? = some z → vals[i + xs.length * j + xs.length * ys.length * k]? =
            some (c 0 + c 1 * x + c 2 * y + c 3 * z + c 4 * x * y + c 5 * x * z + c 6 * y * z +
              c 7 * x * y * z)) →
        ∀ x y z, (∃ a ∈ xs, a ≤ x) → (∃ a ∈ xs, x ≤ a) → (∃ a ∈ ys, a ≤ y) → (∃ a ∈ ys, y ≤ a) →
          (∃ a ∈ ys, a ≤ z) → (∃ a ∈ ys, z ≤ a) →
          tri.eval x y z = some (c 0 + c 1 * x + c 2 * y + c 3 * z + c 4 * x * y + c 5 * x * z +
            c 6 * y * z + c 7 * x * y * z)) := by
  obtain ⟨sx, ex, _, gx⟩ := init_grid xs hnx hmx
  obtain ⟨sy, ey, _, gy⟩ := init_grid ys hny hmy
  have hv : ∀ i < xs.length, ∀ j < ys.length, ∀ k < ys.length,
      vals[i + xs.length * j + xs.length * ys.length * k]? =
        some (vals.getD (i + xs.length * j + xs.length * ys.length * k) 0) := by
    intro i hi j hj k hk
    exact rd_getD (by rw [hl]; exact flat3_lt hi hj hk)
  have lt_of : ∀ {l : List ℚ} {i : Nat} {a : ℚ}, l[i]? = some a → i < l.length ∧ a = l.getD i 0 := by
    intro l i a h
    have hi := (List.getElem?_eq_some_iff.mp h).1
    rw [rd_getD hi] at h
    exact ⟨hi, (Option.some.inj h).symm⟩
  have rng : ∀ {l : List ℚ} {s : Searcher}, s.Grid (fun i => l.getD i 0) l.length → ∀ {x : ℚ},
      (∃ a ∈ l, a ≤ x) → (∃ a ∈ l, x ≤ a) → l.getD 0 0 ≤ x ∧ x ≤ l.getD (l.length - 1) 0 := by
    intro l s g x h1 h2
    obtain ⟨a, ha, hax⟩ := h1
    obtain ⟨b, hb, hbx⟩ := h2
    obtain ⟨i, hi⟩ := List.getElem?_of_mem ha
    obtain ⟨j, hj⟩ := List.getElem?_of_mem hb
    obtain ⟨hi1, rfl⟩ := lt_of hi
    obtain ⟨hj1, rfl⟩ := lt_of hj
    exact ⟨(knot_range g hi1).1.trans hax, hbx.trans (knot_range g hj1).2⟩
  refine ⟨⟨sx, sy, sy, vals, xs.length, ys.length⟩, ?_, ?_, ?_⟩
  · unfold newTriLinear
    simp only [ex, ey, bind, Option.bind_some]
    rw [if_neg (by rw [hl]; simp)]
  · intro i j k x y z v h1 h2 h3 h4
    obtain ⟨hi, rfl⟩ := lt_of h1
    obtain ⟨hj, rfl⟩ := lt_of h2
    obtain ⟨hk, rfl⟩ := lt_of h3
    obtain ⟨_, rfl⟩ := lt_of h4
    obtain ⟨a, _, ha, a1, a2⟩ := gx.inside _ (knot_range gx hi).1 (knot_range gx hi).2
    obtain ⟨b, _, hb, b1, b2⟩ := gy.inside _ (knot_range gy hj).1 (knot_range gy hj).2
    obtain ⟨c, _, hc, c1, c2⟩ := gy.inside _ (knot_range gy hk).1 (knot_range gy hk).2
    rw [trilinear_eval gx gy vals
      (fun i j k => vals.getD (i + xs.length * j + xs.length * ys.length * k) 0) hv _ _ _ a b c ha hb hc
      a1 a2 b1 b2 c1 c2]
    congr 1
    unfold trilin bilin
    have l1 : ∀ q r, lineThrough (xs.getD a 0)
        (vals.getD (a + xs.length * q + xs.length * ys.length * r) 0) (xs.getD (a + 1) 0)
        (vals.getD (a + 1 + xs.length * q + xs.length * ys.length * r) 0) (xs.getD i 0) =
        vals.getD (i + xs.length * q + xs.length * ys.length * r) 0 := fun q r =>
      line_knot gx ha hi a1 a2 (fun p => vals.getD (p + xs.length * q + xs.length * ys.length * r) 0)
    simp only [l1]
    have l2 : ∀ r, lineThrough (ys.getD b 0)
        (vals.getD (i + xs.length * b + xs.length * ys.length * r) 0) (ys.getD (b + 1) 0)
        (vals.getD (i + xs.length * (b + 1) + xs.length * ys.length * r) 0) (ys.getD j 0) =
        vals.getD (i + xs.length * j + xs.length * ys.length * r) 0 := fun r =>
      line_knot gy hb hj b1 b2 (fun q => vals.getD (i + xs.length * q + xs.length * ys.length * r) 0)
    simp only [l2]
    exact line_knot gy hc hk c1 c2
      (fun r => vals.getD (i + xs.length * j + xs.length * ys.length * r) 0)
  · intro q hq x y z hx1 hx2 hy1 hy2 hz1 hz2
    obtain ⟨a, _, ha, a1, a2⟩ := gx.inside x (rng gx hx1 hx2).1 (rng gx hx1 hx2).2
    obtain ⟨b, _, hb, b1, b2⟩ := gy.inside y (rng gy hy1 hy2).1 (rng gy hy1 hy2).2
    obtain ⟨c, _, hc, c1, c2⟩ := gy.inside z (rng gy hz1 hz2).1 (rng gy hz1 hz2).2
    rw [trilinear_eval gx gy vals (fun i j k => q 0 + q 1 * xs.getD i 0 + q 2 * ys.getD j 0 +
        q 3 * ys.getD k 0 + q 4 * xs.getD i 0 * ys.getD j 0 + q 5 * xs.getD i 0 * ys.getD k 0 +
        q 6 * ys.getD j 0 * ys.getD k 0 + q 7 * xs.getD i 0 * ys.getD j 0 * ys.getD k 0)
      (fun i hi j hj k hk => hq i j k _ _ _ (rd_getD hi) (rd_getD hj) (rd_getD hk)) _ _ _ a b c ha hb hc
      a1 a2 b1 b2 c1 c2]
    congr 1
    have dx := gx.mono a (a + 1) (by omega) ha
    have dy := gy.mono b (b + 1) (by omega) hb
    have dz := gy.mono c (c + 1) (by omega) hc
    unfold trilin bilin
    have l1 : ∀ v w, lineThrough (xs.getD a 0)
        (q 0 + q 1 * xs.getD a 0 + q 2 * v + q 3 * w + q 4 * xs.getD a 0 * v + q 5 * xs.getD a 0 * w +
          q 6 * v * w + q 7 * xs.getD a 0 * v * w) (xs.getD (a + 1) 0)
        (q 0 + q 1 * xs.getD (a + 1) 0 + q 2 * v + q 3 * w + q 4 * xs.getD (a + 1) 0 * v +
          q 5 * xs.getD (a + 1) 0 * w + q 6 * v * w + q 7 * xs.getD (a + 1) 0 * v * w) x =
        (q 0 + q 1 * x + q 3 * w + q 5 * x * w) + (q 2 + q 4 * x + q 6 * w + q 7 * x * w) * v := by
      intro v w
      have := line_affine dx (q 0 + q 2 * v + q 3 * w + q 6 * v * w)
        (q 1 + q 4 * v + q 5 * w + q 7 * v * w) x
      rw [← eq_comm.mp (rfl : x = x)] at this
      convert this using 1
      · congr 1 <;> ring
      · ring
    simp only [l1]
    rw [line_affine dy, line_affine dy]
    have := line_affine dz (q 0 + q 1 * x + q 2 * y + q 4 * x * y)
      (q 3 + q 5 * x + q 6 * y + q 7 * x * y) z
    convert this using 1
    · congr 1 <;> ring
    · ring

example : ∃ tri, newTriLinear [0, 1] [0, 2] [0, 2] [0, 1, 2, 3, 4, 5, 6, 7] = some tri ∧
    tri.eval 1 2 2 = some 7 ∧ tri.eval (1/2) 1 1 = some (7/2) := by
  refine ⟨_, rfl, ?_⟩
  decide +kernel

/-- C16 fails for `TriLinear` with different `y` and `z` grids: with `y` lines `0, 1` and `z` lines `0, 2`
the data `v = z` give the value 1 at `z = 1/2`, and the grid point `z = 2` panics. -/
theorem C16_trilinear_counterexample :
    ∃ tri, newTriLinear [0, 1] [0, 1] [0, 2] [0, 0, 0, 0, 2, 2, 2, 2] = some tri ∧
      tri.eval 0 0 (1/2) = some 1 ∧ tri.eval 0 0 2 = none := by
  refine ⟨_, rfl, ?_⟩
  decide +kernel

end Verif.Interp
