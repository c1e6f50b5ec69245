import Verif.Fp.HaloModel
import Verif.Fp.Pixels
import Verif.Halo.Finder

/-! # C147: the halo grid in machine arithmetic -/

set_option autoImplicit false

namespace Verif.Fp

open Verif.Go Verif.Halo

/-! ## Specification -/

/-- The coordinate `x`, or one of its periodic images, is in the `c`th of `cells` equal parts of a box of the given width, or
less than `δ` outside of it. -/
def NearCell (width : ℚ) (cells : ℤ) (δ x : ℚ) (c : ℤ) : Prop :=
  ∃ k : ℤ, c * (width / cells) - δ ≤ x + k * width ∧ x + k * width < (c + 1) * (width / cells) + δ

/-- The coordinate `x`, or one of its periodic images, is in the `c`th of `cells` equal parts of a box of the given width, at
least `δ` away from its faces. -/
def DeepCell (width : ℚ) (cells : ℤ) (δ x : ℚ) (c : ℤ) : Prop :=
  ∃ k : ℤ, c * (width / cells) + δ ≤ x + k * width ∧ x + k * width < (c + 1) * (width / cells) - δ

/-- The coordinates that `Insert` can handle in machine arithmetic: at most one period outside of the box, and not too close to
the upper edge of the box from below, nor to the lower edge from outside. -/
def Legal64 (width x : ℚ) : Prop :=
  (0 ≤ x ∧ x ≤ width * (1 - 1 / 2 ^ 50)) ∨ (width < x ∧ x ≤ width * (2 - 1 / 2 ^ 49)) ∨
    (-width ≤ x ∧ x ≤ -(width / 2 ^ 49))

theorem deep_unique {width δ x : ℚ} {cells c c' : ℤ} (hW : 0 < width) (h0 : 0 ≤ c) (h1 : c < cells) (h0' : 0 ≤ c')
    (h1' : c' < cells) (hn : NearCell width cells δ x c) (hd : DeepCell width cells δ x c') : c = c' := by
  obtain ⟨k, a1, a2⟩ := hn
  obtain ⟨k', b1, b2⟩ := hd
  have hc : (0 : ℚ) < cells := by exact_mod_cast lt_of_le_of_lt h0 h1
  have hd0 : 0 < width / cells := div_pos hW hc
  have hw : (cells : ℚ) * (width / cells) = width := by field_simp
  generalize width / cells = d at *
  subst hw
  have e1 : (c + (k' - k) * cells : ℤ) < c' + 1 := by
    have : ((c + (k' - k) * cells : ℤ) : ℚ) * d < ((c' + 1 : ℤ) : ℚ) * d := by push_cast; linarith
    exact_mod_cast lt_of_mul_lt_mul_right this hd0.le
  have e2 : c' < (c + (k' - k) * cells : ℤ) + 1 := by
    have : ((c' : ℤ) : ℚ) * d < ((c + (k' - k) * cells + 1 : ℤ) : ℚ) * d := by push_cast; linarith
    exact_mod_cast lt_of_mul_lt_mul_right this hd0.le
  have e3 : c + (k' - k) * cells = c' := by omega
  have f1 : (k' - k) * cells < 1 * cells := by omega
  have f2 : (-1) * cells < (k' - k) * cells := by omega
  have g1 := lt_of_mul_lt_mul_right f1 (by omega)
  have g2 := lt_of_mul_lt_mul_right f2 (by omega)
  have : k' - k = 0 := by omega
  rw [this] at e3
  omega

/-! ## Cells -/

theorem haloWrap64_spec {width x : ℚ} (hW : 0 < width) (h : Legal64 width x) :
    0 ≤ haloWrap64 width x ∧ haloWrap64 width x ≤ width * (1 - 1 / 2 ^ 50) ∧
      ∃ k : ℤ, |haloWrap64 width x - (x + k * width)| ≤ width / 2 ^ 53 := by
  unfold haloWrap64
  rcases h with ⟨h0, h1⟩ | ⟨h0, h1⟩ | ⟨h0, h1⟩
  · rw [if_neg (by linarith), if_neg (by linarith)]
    refine ⟨h0, h1, 0, ?_⟩
    rw [show x - (x + ((0 : ℤ) : ℚ) * width) = 0 by push_cast; ring, abs_zero]
    positivity
  · rw [if_pos h0]
    have e := f64_err (x - width)
    have e0 := f64_nonneg (x := x - width) (by linarith)
    rw [abs_of_nonneg (by linarith : 0 ≤ x - width)] at e
    have e' := abs_le.mp e
    refine ⟨e0, by linarith [e'.2], -1, ?_⟩
    rw [show x + ((-1 : ℤ) : ℚ) * width = x - width by push_cast; ring]
    linarith
  · rw [if_neg (by linarith), if_pos (by linarith)]
    have e := f64_err (x + width)
    have e0 := f64_nonneg (x := x + width) (by linarith)
    rw [abs_of_nonneg (by linarith : 0 ≤ x + width)] at e
    have e' := abs_le.mp e
    refine ⟨e0, by linarith [e'.2], 1, ?_⟩
    rw [show x + ((1 : ℤ) : ℚ) * width = x + width by push_cast; ring]
    linarith

/-- A quotient by the cell width. -/
theorem cells_quot {width y : ℚ} {cells : ℤ} (hW : 0 < width) (hc : 0 < cells) (hc' : cells ≤ 2 ^ 53) (h0 : 0 ≤ y) :
    0 ≤ f64 (y / f64 (width / f64 cells)) ∧
      |f64 (y / f64 (width / f64 cells)) * (width / cells) - y| ≤ y / 2 ^ 51 := by
  obtain ⟨d0, hd⟩ := cellWidth_rel hW hc hc'
  have q := quot_rel (a := y) (a' := y) h0 (by rw [sub_self, abs_zero]; positivity) d0 hd
  have hcw : 0 < f64 (width / f64 cells) := by
    have := (abs_le.mp hd).1
    linarith
  refine ⟨f64_nonneg (div_nonneg h0 hcw.le), ?_⟩
  generalize f64 (y / f64 (width / f64 cells)) = v at *
  generalize width / (cells : ℚ) = d at *
  have e : v * d - y = (v - y / d) * d := by field_simp
  rw [e, abs_mul, abs_of_pos d0]
  calc |v - y / d| * d ≤ y / d / 2 ^ 51 * d := mul_le_mul_of_nonneg_right q d0.le
    _ = y / 2 ^ 51 := by field_simp

theorem haloCell64_spec {width x : ℚ} {cells : ℤ} (hW : 0 < width) (hc : 0 < cells) (hc' : cells ≤ 2 ^ 53)
    (h : Legal64 width x) :
    0 ≤ haloCell64 width (f64 (width / f64 cells)) x ∧ haloCell64 width (f64 (width / f64 cells)) x < cells ∧
      NearCell width cells (width / 2 ^ 50) x (haloCell64 width (f64 (width / f64 cells)) x) := by
  obtain ⟨y0, y1, k, hk⟩ := haloWrap64_spec hW h
  obtain ⟨v0, hv⟩ := cells_quot hW hc hc' y0
  unfold haloCell64
  rw [trunc_of_nonneg v0]
  have hcq : (0 : ℚ) < cells := by exact_mod_cast hc
  have hd0 : 0 < width / cells := div_pos hW hcq
  have hw : (cells : ℚ) * (width / cells) = width := by field_simp
  have f1 := Int.floor_le (f64 (haloWrap64 width x / f64 (width / f64 cells)))
  have f2 := Int.lt_floor_add_one (f64 (haloWrap64 width x / f64 (width / f64 cells)))
  have f0 := Int.floor_nonneg.mpr v0
  obtain ⟨k1, k2⟩ := abs_le.mp hk
  obtain ⟨v1, v2⟩ := abs_le.mp hv
  unfold NearCell
  generalize f64 (haloWrap64 width x / f64 (width / f64 cells)) = v at *
  generalize haloWrap64 width x = y at *
  generalize width / (cells : ℚ) = d at *
  have g1 := mul_le_mul_of_nonneg_right f1 hd0.le
  have g2 := mul_lt_mul_of_pos_right f2 hd0
  refine ⟨f0, ?_, k, by linarith, by linarith⟩
  rw [Int.floor_lt]
  refine lt_of_mul_lt_mul_right (a := d) ?_ hd0.le
  rw [hw]
  linarith

/-! ## Insertion -/

/-- The index of the cell of the `i`th halo. -/
def haloGridIndex64 (cells : ℤ) (width : ℚ) (xs ys zs : List ℚ) (i : ℕ) : ℤ :=
  haloCell64 width (f64 (width / f64 cells)) (co xs i) + haloCell64 width (f64 (width / f64 cells)) (co ys i) * cells +
    haloCell64 width (f64 (width / f64 cells)) (co zs i) * cells * cells

/-- The grid with the exact cell width. -/
def exactWidth (g : Grid) : Grid := { g with cw := g.width / g.cells }

/-- The state of a grid after the first `k` insertions. -/
structure Filled64 (cells : ℤ) (width : ℚ) (N : ℕ) (I : ℕ → ℤ) (k : ℕ) (g : Grid) : Prop where
  filled : Filled cells width N I k (exactWidth g)
  hcells : g.cells = cells
  hwidth : g.width = width
  hcw : g.cw = f64 (width / f64 cells)

theorem haloGrid64_filled (cells : ℤ) (width : ℚ) (N : ℕ) (hc : 0 < cells) (I : ℕ → ℤ) :
    ∃ g, haloGrid64 cells width N = some g ∧ Filled64 cells width N I 0 g := by
  have hc3 : 0 < cells * cells * cells := by positivity
  unfold haloGrid64
  rw [if_neg (by omega)]
  refine ⟨_, rfl, ⟨⟨rfl, rfl, rfl, by simp [exactWidth], ?_, fun idx h0 h1 => ⟨tail, ?_, .nil⟩⟩, rfl, rfl, rfl⟩⟩
  · unfold exactWidth
    dsimp only
    rw [List.length_replicate]
    exact Int.toNat_of_nonneg hc3.le
  · obtain ⟨k, rfl⟩ := Int.eq_ofNat_of_zero_le h0
    unfold exactWidth
    rw [rd_natCast, List.getElem?_replicate, if_pos (by omega)]

theorem haloInsert64_filled {cells : ℤ} {width : ℚ} {N : ℕ} {g : Grid} {xs ys zs : List ℚ} (hW : 0 < width)
    (hc : 0 < cells) (hc' : cells ≤ 2 ^ 53)
    (hg : Filled64 cells width N (haloGridIndex64 cells width xs ys zs) 0 g) (hn : xs.length ≤ N)
    (hy : xs.length ≤ ys.length) (hz : xs.length ≤ zs.length)
    (legal : ∀ i < xs.length, Legal64 width (co xs i) ∧ Legal64 width (co ys i) ∧ Legal64 width (co zs i)) :
    ∃ g', haloInsert64 g xs ys zs = some g' ∧
      Filled64 cells width N (haloGridIndex64 cells width xs ys zs) xs.length g' := by
  set I := haloGridIndex64 cells width xs ys zs with hI
  unfold haloInsert64
  refine forRange_nat (fun k g => Filled64 cells width N I k g) (Nat.zero_le _) _ g hg ?_
  intro k g _ hk hf64
  obtain ⟨hf, ec, ew, ecw⟩ := hf64
  obtain ⟨lx, ly, lz⟩ := legal k hk
  obtain ⟨x0, x1, -⟩ := haloCell64_spec hW hc hc' lx
  obtain ⟨y0, y1, -⟩ := haloCell64_spec hW hc hc' ly
  obtain ⟨z0, z1, -⟩ := haloCell64_spec hW hc hc' lz
  have hidx : haloIndex64 g (co xs k) (co ys k) (co zs k) = I k := by
    rw [hI]
    unfold haloIndex64 haloGridIndex64
    rw [ec, ew, ecw]
  obtain ⟨r0, r1⟩ := index_range ⟨x0, x1⟩ ⟨y0, y1⟩ ⟨z0, z1⟩
  change 0 ≤ I k at r0
  change I k < _ at r1
  obtain ⟨h, eh, ch⟩ := hf.chains (I k) r0 r1
  have hnext : g.next.length = N := hf.hnext
  have hheads : (g.heads.length : ℤ) = cells * cells * cells := hf.hheads
  have hkn : k < g.next.length := by omega
  have hkh : I k < g.heads.length := by rw [hheads]; exact r1
  refine ⟨{ g with next := g.next.set k h, heads := g.heads.set (I k).toNat k }, ?_, ?_⟩
  · refine bind_of (rd_co hk) (bind_of (rd_co (lt_of_lt_of_le hk hy)) (bind_of (rd_co (lt_of_lt_of_le hk hz)) ?_))
    rw [hidx]
    refine bind_of eh (bind_of (wr_natCast hkn) (bind_of (wr_of_lt r0 hkh) rfl))
  · refine ⟨⟨ec, hf.hcw, ew, ?_, ?_, ?_⟩, ec, ew, ecw⟩
    · show (g.next.set k h).length = N
      rw [List.length_set, hnext]
    · show ((g.heads.set _ _).length : ℤ) = _
      rw [List.length_set, hheads]
    · intro idx h0 h1
      have stable : ∀ idx, ∀ j ∈ listed I k idx, j ≠ (k : ℤ) := by
        intro idx j hj
        obtain ⟨i, hi, _, rfl⟩ := mem_listed.mp hj
        omega
      show ∃ h', rd (g.heads.set (I k).toNat k) idx = some h' ∧ Chain (g.next.set k h) h' _
      rw [rd_set _ _ _ _ (by omega), Int.toNat_of_nonneg r0, listed_succ]
      by_cases he : I k = idx
      · subst he
        rw [if_pos rfl, if_pos rfl]
        refine ⟨_, rfl, .cons (n := h) ?_ (ch.set hkn (stable _))⟩
        rw [rd_set _ _ _ _ hkn, if_pos rfl]
      · rw [if_neg (Ne.symm he), if_neg he]
        obtain ⟨h', eh', ch'⟩ := hf.chains idx h0 h1
        exact ⟨h', eh', ch'.set hkn (stable _)⟩

section
variable {cells : ℤ} {width : ℚ} {N : ℕ} {I : ℕ → ℤ} {n : ℕ} {g : Grid}

theorem Filled64.read (hf : Filled64 cells width N I n g) (hn : n ≤ N) {idx : ℤ} (h0 : 0 ≤ idx)
    (h1 : idx < cells * cells * cells) {cap : ℤ} (hc : ((listed I n idx).length : ℤ) ≤ cap) :
    g.readIndexes idx cap = some (listed I n idx) := hf.filled.read hn h0 h1 hc

theorem Filled64.length_eq (hf : Filled64 cells width N I n g) (hn : n ≤ N) {idx : ℤ} (h0 : 0 ≤ idx)
    (h1 : idx < cells * cells * cells) : g.length idx = some ((listed I n idx).length : ℤ) := hf.filled.length_eq hn h0 h1

theorem Filled64.maxLength_eq (hf : Filled64 cells width N I n g) (hn : n ≤ N) :
    ∃ m : ℤ, g.maxLength = some m ∧ 0 ≤ m ∧
      (∀ idx, 0 ≤ idx → idx < cells * cells * cells → ((listed I n idx).length : ℤ) ≤ m) ∧
      (m = 0 ∨ ∃ idx, 0 ≤ idx ∧ idx < cells * cells * cells ∧ m = (listed I n idx).length) :=
  hf.filled.maxLength_eq hn

end

/-! ## C147: the grid -/

/-- C147: a halo in the box can be put outside of the grid: its coordinate is the last number below the width of the box, but
the quotient by the cell width is rounded up to the number of cells. Along the third axis this is a panic. -/
theorem C147_edge_counterexample :
    F64 (1 - 1 / 2 ^ 53) ∧ (1 - 1 / 2 ^ 53 : ℚ) < 1 ∧
      ((haloGrid64 3 1 1).bind fun g => haloInsert64 g [1 / 2] [1 / 2] [1 - 1 / 2 ^ 53]) = none ∧
      ((haloGrid64 3 1 1).bind fun g => (haloInsert64 g [1 - 1 / 2 ^ 53] [1 / 2] [1 / 2]).bind fun g =>
        g.readIndexes (0 + 2 * 3 + 1 * 9) 1) = some [0] := by
  refine ⟨⟨2 ^ 53 - 1, -53, by norm_num, by norm_num⟩, by norm_num, by decide +kernel, by decide +kernel⟩

/-- C147: a halo slightly outside of the box is moved onto its upper edge, and the search panics. -/
theorem C147_outside_counterexample :
    ((haloGrid64 4 1 1).bind fun g => haloInsert64 g [1 / 2] [1 / 2] [-1 / 2 ^ 60]) = none := by decide +kernel

/-- C147: the number next to a third is below a third, and in machine arithmetic in the second of three cells. -/
theorem C147_face_counterexample :
    F64 (6004799503160661 / 2 ^ 54) ∧ InCell 1 3 (6004799503160661 / 2 ^ 54) 0 ∧
      ((haloGrid64 3 1 1).bind fun g => (haloInsert64 g [6004799503160661 / 2 ^ 54] [0] [0]).bind fun g =>
        (g.readIndexes 0 1).bind fun a => (g.readIndexes 1 1).map fun b => (a, b)) = some ([], [0]) := by
  refine ⟨⟨6004799503160661, -54, by norm_num, by norm_num⟩, ⟨0, by norm_num, by norm_num⟩, by decide +kernel⟩

/-- C147 for the grid, for positions that are not within rounding of the upper edge of the box: there is no panic; every halo
is in the list of one cell, once, and in no other list; along every axis this cell contains a periodic image of the halo or is
missed by it by less than `2 ^ -50` of the width of the box, and it is the exact cell if the halo is further than that from
all faces. `Length` is the length of the lists and `MaxLength` the largest of these.
Missing: positions within rounding of the upper edge (`C147_edge_counterexample`, `C147_outside_counterexample`), and halos
within rounding of a face, which can be in the cell on the other side (`C147_face_counterexample`). -/
theorem C147_lists_partial (cells : ℤ) (width : ℚ) (xs ys zs : List ℚ) (hW : 0 < width) (hc : 0 < cells)
    (hc' : cells ≤ 2 ^ 53) (hy : ys.length = xs.length) (hz : zs.length = xs.length)
    (legal : ∀ i < xs.length, Legal64 width (co xs i) ∧ Legal64 width (co ys i) ∧ Legal64 width (co zs i)) :
    ∃ g g', haloGrid64 cells width xs.length = some g ∧ haloInsert64 g xs ys zs = some g' ∧
      ∃ lists : ℤ → ℤ → ℤ → List ℤ,
      (∀ ix iy iz : ℤ, 0 ≤ ix → ix < cells → 0 ≤ iy → iy < cells → 0 ≤ iz → iz < cells →
        (lists ix iy iz).Nodup ∧ (∀ j ∈ lists ix iy iz, ∃ i : ℕ, j = i ∧ i < xs.length) ∧
        (∀ cap : ℤ, (lists ix iy iz).length ≤ cap →
          g'.readIndexes (ix + iy * cells + iz * cells * cells) cap = some (lists ix iy iz)) ∧
        g'.length (ix + iy * cells + iz * cells * cells) = some ((lists ix iy iz).length : ℤ)) ∧
      (∀ i < xs.length, ∃ ix iy iz : ℤ, (0 ≤ ix ∧ ix < cells) ∧ (0 ≤ iy ∧ iy < cells) ∧ (0 ≤ iz ∧ iz < cells) ∧
        (∀ jx jy jz : ℤ, 0 ≤ jx → jx < cells → 0 ≤ jy → jy < cells → 0 ≤ jz → jz < cells →
          ((i : ℤ) ∈ lists jx jy jz ↔ jx = ix ∧ jy = iy ∧ jz = iz)) ∧
        NearCell width cells (width / 2 ^ 50) (co xs i) ix ∧ NearCell width cells (width / 2 ^ 50) (co ys i) iy ∧
        NearCell width cells (width / 2 ^ 50) (co zs i) iz) ∧
      (∀ i < xs.length, ∀ ix iy iz : ℤ, 0 ≤ ix → ix < cells → 0 ≤ iy → iy < cells → 0 ≤ iz → iz < cells →
        DeepCell width cells (width / 2 ^ 50) (co xs i) ix → DeepCell width cells (width / 2 ^ 50) (co ys i) iy →
        DeepCell width cells (width / 2 ^ 50) (co zs i) iz → (i : ℤ) ∈ lists ix iy iz) ∧
      (∃ m : ℤ, g'.maxLength = some m ∧ (∀ idx l, g'.length idx = some l → l ≤ m) ∧
        (∃ idx, g'.length idx = some m)) := by
  set I := haloGridIndex64 cells width xs ys zs with hI
  obtain ⟨g, eg, fg⟩ := haloGrid64_filled cells width xs.length hc I
  obtain ⟨g', eg', fg'⟩ := haloInsert64_filled hW hc hc' fg (le_refl _) hy.ge hz.ge legal
  have hc3 : 0 < cells * cells * cells := by positivity
  have key : ∀ i < xs.length, ∃ ix iy iz : ℤ, (0 ≤ ix ∧ ix < cells) ∧ (0 ≤ iy ∧ iy < cells) ∧ (0 ≤ iz ∧ iz < cells) ∧
        (∀ jx jy jz : ℤ, 0 ≤ jx → jx < cells → 0 ≤ jy → jy < cells → 0 ≤ jz → jz < cells →
          ((i : ℤ) ∈ listed I xs.length (jx + jy * cells + jz * cells * cells) ↔ jx = ix ∧ jy = iy ∧ jz = iz)) ∧
        NearCell width cells (width / 2 ^ 50) (co xs i) ix ∧ NearCell width cells (width / 2 ^ 50) (co ys i) iy ∧
        NearCell width cells (width / 2 ^ 50) (co zs i) iz := by
    intro i hi
    obtain ⟨lx, ly, lz⟩ := legal i hi
    obtain ⟨x0, x1, x2⟩ := haloCell64_spec hW hc hc' lx
    obtain ⟨y0, y1, y2⟩ := haloCell64_spec hW hc hc' ly
    obtain ⟨z0, z1, z2⟩ := haloCell64_spec hW hc hc' lz
    refine ⟨_, _, _, ⟨x0, x1⟩, ⟨y0, y1⟩, ⟨z0, z1⟩, ?_, x2, y2, z2⟩
    intro jx jy jz a0 a1 b0 b1 c0 c1
    rw [mem_listed]
    constructor
    · rintro ⟨i', _, e, h⟩
      have : i = i' := by exact_mod_cast h
      subst this
      obtain ⟨e0, e1, e2⟩ := index_inj ⟨x0, x1⟩ ⟨y0, y1⟩ ⟨a0, a1⟩ ⟨b0, b1⟩ e
      exact ⟨e0.symm, e1.symm, e2.symm⟩
    · rintro ⟨rfl, rfl, rfl⟩
      exact ⟨i, hi, rfl, rfl⟩
  refine ⟨g, g', eg, eg', fun ix iy iz => listed I xs.length (ix + iy * cells + iz * cells * cells), ?_, key, ?_, ?_⟩
  · intro ix iy iz x0 x1 y0 y1 z0 z1
    obtain ⟨r0, r1⟩ := index_range ⟨x0, x1⟩ ⟨y0, y1⟩ ⟨z0, z1⟩
    refine ⟨listed_nodup _ _ _, fun j hj => ?_, fun cap hcap => fg'.read (le_refl _) r0 r1 hcap,
      fg'.length_eq (le_refl _) r0 r1⟩
    obtain ⟨i, hi, _, rfl⟩ := mem_listed.mp hj
    exact ⟨i, rfl, hi⟩
  · intro i hi jx jy jz a0 a1 b0 b1 c0 c1 dx dy dz
    obtain ⟨ix, iy, iz, hx, hy, hz, h, nx, ny, nz⟩ := key i hi
    rw [h jx jy jz a0 a1 b0 b1 c0 c1]
    exact ⟨(deep_unique hW hx.1 hx.2 a0 a1 nx dx).symm, (deep_unique hW hy.1 hy.2 b0 b1 ny dy).symm,
      (deep_unique hW hz.1 hz.2 c0 c1 nz dz).symm⟩
  · obtain ⟨m, em, m0, m1, m2⟩ := fg'.maxLength_eq (le_refl _)
    refine ⟨m, em, fun idx l el => ?_, ?_⟩
    · have hr : 0 ≤ idx ∧ idx < cells * cells * cells := by
        unfold Grid.length at el
        obtain ⟨h, eh, -⟩ := Option.bind_eq_some_iff.mp el
        have := rd_some_lt eh
        rw [show (g'.heads.length : ℤ) = cells * cells * cells from fg'.filled.hheads] at this
        exact this
      rw [fg'.length_eq (le_refl _) hr.1 hr.2, Option.some.injEq] at el
      rw [← el]
      exact m1 idx hr.1 hr.2
    · rcases m2 with rfl | ⟨idx, i0, i1, rfl⟩
      · refine ⟨0, ?_⟩
        rw [fg'.length_eq (le_refl _) (le_refl _) hc3]
        have := m1 0 (le_refl _) hc3
        congr 1
        omega
      · exact ⟨idx, fg'.length_eq (le_refl _) i0 i1⟩

example : ∀ i < [(1 / 10 : ℚ), 13 / 2, -3].length, Legal64 5 (co [1 / 10, 13 / 2, -3] i) ∧
    Legal64 5 (co [0, 1, 2] i) ∧ Legal64 5 (co [4, 3, 2] i) := by
  intro i hi
  have : i = 0 ∨ i = 1 ∨ i = 2 := by simp at hi; omega
  rcases this with rfl | rfl | rfl <;> norm_num [co, Legal64]

example : DeepCell 1 3 (1 / 2 ^ 50) (1 / 2) 1 := ⟨0, by norm_num, by norm_num⟩

example : ((haloGrid64 3 5 3).bind fun g => (haloInsert64 g [1 / 10, 13 / 2, -3] [0, 1, 2] [4, 3, 2]).bind fun g =>
    (g.readIndexes (0 + 0 * 3 + 2 * 9) 3).bind fun a => (g.readIndexes (1 + 1 * 3 + 1 * 9) 3).bind fun b =>
      g.maxLength.map fun m => (a, b, m)) = some ([0], [2], 1) := by decide +kernel

end Verif.Fp
