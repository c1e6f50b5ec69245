import Verif.Fp.Written
import Verif.Fp.Zoom
import Verif.Fp.ZoomScale
import Verif.Fp.Pixels
import Verif.Main.PipelineProject
import Mathlib.Algebra.Order.Round

/-! # C146: from the particle grid to the image in machine arithmetic -/

set_option autoImplicit false

namespace Verif.Fp

open Verif.Go Verif.Geom Verif.Render Verif.Main

/-! ## Specification -/

/-- The periodic image of `x` that is nearest to `a` in a box of width `L`. -/
def nearImage (L a x : ℚ) : ℚ := x - L * _root_.round ((x - a) / L)

/-- The exact positions of the particles of a file in cells; of each particle the image nearest to the first one. -/
def exactCells (L : ℚ) (cells : ℤ) (f : SheetFile) : List Vec :=
  f.xs.map fun x j => nearImage L (f.xs.headD 0 j) (x j) * cells / L

/-- `g` is, up to the period, the cell of a point that is `46 / 2 ^ 24` of the box or less away from `x` along each axis. -/
def CellNear (cells : ℤ) (g : IVec) (x : Vec) : Prop :=
  ∀ j, ∃ y : ℚ, |y - x j| ≤ 46 * ((cells : ℚ) / 2 ^ 24) ∧ cells ∣ g j - ⌊y⌋

/-- The number of particles of a file that changed its extent along axis `j` while it was written. -/
def growth (f : SheetFile) (j : Fin 3) : ℕ := moves f.header.totalWidth ⟨f.xs.headD 0 j, 0, 0⟩ (f.xs.map (· j))

/-- What is asked of a file that was written in machine arithmetic, when the box is cut into `C` cells: its particles are
`float32` numbers in the box, span a little less than half of it, and keep a small distance from the faces of the cells. -/
structure GoodSheet (L : ℚ) (C : ℤ) (f : SheetFile) : Prop where
  total : f.header.totalWidth = L
  seg : 0 ≤ f.header.segmentWidth
  xlen : (f.xs.length : ℤ) = (f.header.segmentWidth + 1) * (f.header.segmentWidth + 1) * (f.header.segmentWidth + 1)
  vlen : (f.vs.length : ℤ) = (f.header.segmentWidth + 1) * (f.header.segmentWidth + 1) * (f.header.segmentWidth + 1)
  box : StoredBox f
  single : ∀ x ∈ f.xs, ∀ j, F32 (x j)
  inside : ∀ x ∈ f.xs, ∀ j, 0 ≤ x j ∧ x j ≤ L
  span : ∀ j, ∃ b S : ℚ, (∀ x ∈ f.xs, ∃ k : ℤ, b ≤ x j + k * L ∧ x j + k * L ≤ b + S) ∧
    S + 2 * ((growth f j + 3) * (L / 2 ^ 22)) ≤ L / 2
  off : ∀ x ∈ f.xs, ∀ j, ∀ z : ℤ, (4 * (growth f j + 3) + 158) * ((C : ℚ) / 2 ^ 24) < |x j * C / L - z|

/-! ## One axis -/

theorem nearImage_eq {L a x : ℚ} {k k0 : ℤ} (hL : 0 < L) (h1 : -(L / 2) < (x + k * L) - (a + k0 * L))
    (h2 : (x + k * L) - (a + k0 * L) < L / 2) : nearImage L a x = x + (k - k0) * L := by
  have e : _root_.round ((x - a) / L) = k0 - k := by
    rw [round_eq, Int.floor_eq_iff]
    push_cast
    have e1 : (x - a) / L * L = x - a := div_mul_cancel₀ _ hL.ne'
    constructor
    · refine le_of_mul_le_mul_right ?_ hL
      linarith
    · refine lt_of_mul_lt_mul_right ?_ hL.le
      linarith
  unfold nearImage
  rw [e]
  push_cast
  ring

/-- The origin of the stored extent is close to a particle. -/
theorem origin_near {L x0 : ℚ} {xs : List ℚ} (hL : F32 L) (hL0 : 0 < L) (r0 : F32 x0) (h0 : x0 ∈ xs)
    (h01 : ∀ x ∈ xs, 0 ≤ x ∧ x ≤ L) {b S : ℚ} (hin : ∀ x ∈ xs, ∃ k : ℤ, b ≤ x + k * L ∧ x + k * L ≤ b + S)
    (hroom : S + 2 * ((moves L ⟨x0, 0, 0⟩ xs + 3) * (L / 2 ^ 22)) ≤ L / 2) :
    ∃ x ∈ xs, ∃ k : ℤ, |((axisBox L x0 xs).stored L).1 - (x + k * L)| ≤ (moves L ⟨x0, 0, 0⟩ xs + 3) * (L / 2 ^ 22) := by
  classical
  choose! κ hκ using hin
  obtain ⟨x, hx, hmin⟩ := Finset.exists_min_image xs.toFinset (fun x => x + κ x * L) ⟨x0, List.mem_toFinset.mpr h0⟩
  rw [List.mem_toFinset] at hx
  obtain ⟨A, -, -, j, j1, j2⟩ := C127_partial (b := x + κ x * L) (S := b + S - (x + κ x * L)) hL hL0 r0 h0 h01
    (fun y hy => ⟨κ y, hmin y (List.mem_toFinset.mpr hy), by linarith [(hκ y hy).2]⟩) (by linarith [(hκ x hx).1])
  obtain ⟨k, k1, k2⟩ := A x hx
  have hb := (hκ x hx).1
  generalize ((axisBox L x0 xs).stored L).1 = o at *
  generalize ((axisBox L x0 xs).stored L).2 = w at *
  generalize ((moves L ⟨x0, 0, 0⟩ xs : ℚ) + 3) * (L / 2 ^ 22) = δ at *
  have hk : k ≤ κ x + j := by
    by_contra hcon
    have : ((κ x + j : ℤ) : ℚ) + 1 ≤ k := by exact_mod_cast (by omega : κ x + j + 1 ≤ k)
    push_cast at this
    have := mul_le_mul_of_nonneg_right this hL0.le
    linarith
  have hk' : (k : ℚ) ≤ κ x + j := by exact_mod_cast hk
  have := mul_le_mul_of_nonneg_right hk' hL0.le
  refine ⟨x, hx, κ x + j, ?_⟩
  push_cast
  rw [abs_le]
  constructor <;> linarith

/-- Where the particles of a file are scaled to along one axis. -/
theorem axis_full {L x0 : ℚ} {xs : List ℚ} {C : ℤ} (hL : F32 L) (hL0 : 0 < L) (r0 : F32 x0) (h0 : x0 ∈ xs)
    (h01 : ∀ x ∈ xs, 0 ≤ x ∧ x ≤ L) {b S : ℚ} (hin : ∀ x ∈ xs, ∃ k : ℤ, b ≤ x + k * L ∧ x + k * L ≤ b + S)
    (hroom : S + 2 * ((moves L ⟨x0, 0, 0⟩ xs + 3) * (L / 2 ^ 22)) ≤ L / 2) (hC : 8 ≤ C) (hC' : C ≤ 2 ^ 24)
    (hoff : ∀ x ∈ xs, ∀ z : ℤ, (4 * (moves L ⟨x0, 0, 0⟩ xs + 3) + 158) * (C / 2 ^ 24) < |x * C / L - z|) :
    let hd := (axisBox L x0 xs).stored L
    let cb := cellAxis L hd.1 hd.2 C
    (0 ≤ cb.1 ∧ cb.1 < C) ∧ cb.2 ≤ C ∧ ∃ κ : ℤ, ∀ x ∈ xs, 162 * ((C : ℚ) / 2 ^ 24) < scaleSeg32 C (boxWidth64 L C) cb.1 x ∧
      scaleSeg32 C (boxWidth64 L C) cb.1 x < cb.2 - 162 * (C / 2 ^ 24) ∧
      |scaleSeg32 C (boxWidth64 L C) cb.1 x - (nearImage L x0 x * C / L + κ * C - cb.1)| ≤ 8 * (C / 2 ^ 24) ∧
      ∀ z : ℤ, 162 * ((C : ℚ) / 2 ^ 24) < |scaleSeg32 C (boxWidth64 L C) cb.1 x - z| := by
  intro hd cb
  obtain ⟨h1, h2⟩ := scaled_full (D := 142) (by norm_num) hL hL0 r0 h0 h01 hin hroom hC hC' (by
    intro x hx z
    have := hoff x hx z
    rwa [show (4 * ((moves L ⟨x0, 0, 0⟩ xs : ℚ) + 3) + 16 + 142) = 4 * ((moves L ⟨x0, 0, 0⟩ xs : ℚ) + 3) + 158 by ring])
  obtain ⟨-, ⟨o0, oL⟩, -, j, j1, j2⟩ := C127_partial hL hL0 r0 h0 h01 hin hroom
  obtain ⟨xn, hxn, kn, hnear⟩ := origin_near hL hL0 r0 h0 h01 hin hroom
  have hC0 : 0 < C := by omega
  have hc : (0 : ℚ) < C := by exact_mod_cast hC0
  have hn0 : (0 : ℚ) ≤ (moves L ⟨x0, 0, 0⟩ xs : ℚ) := Nat.cast_nonneg _
  have horg := cellAxis_origin (w := hd.2) hL0 hC0 hC' o0 oL
  change 0 ≤ cb.1 ∧ cb.1 ≤ C at horg
  obtain ⟨δ, hδ⟩ : ∃ δ : ℚ, δ = ((moves L ⟨x0, 0, 0⟩ xs : ℚ) + 3) * (L / 2 ^ 22) := ⟨_, rfl⟩
  have hδ0 : 0 < δ := by rw [hδ]; positivity
  rw [← hδ] at hroom j1 j2 hnear
  obtain ⟨g, hg⟩ : ∃ g : ℚ, g = (C : ℚ) / 2 ^ 24 := ⟨_, rfl⟩
  have hcg : (C : ℚ) = 2 ^ 24 * g := by rw [hg]; ring
  have g0 : 0 < g := by rw [hg]; positivity
  have hδC : 4 * ((moves L ⟨x0, 0, 0⟩ xs : ℚ) + 3) * g = δ * C / L := by rw [hδ, hg]; field_simp; ring
  refine ⟨⟨horg.1, lt_of_le_of_ne horg.2 fun hlt => ?_⟩, h1, ?_⟩
  · -- the origin would be at the end of the box, and a particle next to it
    have q := (abs_le.mp (quot_err hL0 hC0 hC' o0 (by linarith : ((axisBox L x0 xs).stored L).1 ≤ 2 * L))).2
    have hfl : (C : ℚ) ≤ f64 (((axisBox L x0 xs).stored L).1 / f64 (L / f64 C)) := by
      have := Int.floor_le (f64 (((axisBox L x0 xs).stored L).1 / f64 (L / f64 C)))
      have e : cb.1 = ⌊f64 (((axisBox L x0 xs).stored L).1 / f64 (L / f64 C))⌋ := rfl
      rw [← e, hlt] at this
      exact this
    have hoC : ((axisBox L x0 xs).stored L).1 * C / L ≤ C := by
      rw [div_le_iff₀ hL0, mul_comm (C : ℚ)]; gcongr
    have hlow : (C : ℚ) - g ≤ ((axisBox L x0 xs).stored L).1 * C / L := by
      have : (C : ℚ) / 2 ^ 50 ≤ g := by rw [hg]; gcongr <;> norm_num
      linarith
    have h3 := hoff xn hxn (C - kn * C)
    rw [← hg] at h3
    have e : |((axisBox L x0 xs).stored L).1 * C / L - (xn * C / L + kn * C)| ≤ δ * C / L := by
      have : ((axisBox L x0 xs).stored L).1 * C / L - (xn * C / L + kn * C) =
          (((axisBox L x0 xs).stored L).1 - (xn + kn * L)) * (C / L) := by field_simp
      rw [this, abs_mul, abs_of_pos (by positivity : (0 : ℚ) < C / L), mul_div_assoc]
      gcongr
    obtain ⟨e1, e2⟩ := abs_le.mp e
    push_cast at h3
    have h4 : |xn * C / L - (C - kn * C)| ≤ δ * C / L + g := by
      rw [abs_le]; constructor <;> linarith
    linarith
  · obtain ⟨k0', b1, b2⟩ := hin x0 h0
    have hkey : ∀ x ∈ xs, ∀ k : ℤ, hd.1 * C / L - 4 * ((moves L ⟨x0, 0, 0⟩ xs : ℚ) + 3) * (C / 2 ^ 24) ≤ x * C / L + k * C →
        x * C / L + k * C ≤ hd.1 * C / L + hd.2 * C / L + 4 * ((moves L ⟨x0, 0, 0⟩ xs : ℚ) + 3) * (C / 2 ^ 24) →
        b + j * L ≤ x + k * L ∧ x + k * L ≤ b + S + j * L := by
      intro x hx k k1 k2
      rw [← hg, hδC] at k1 k2
      have c1 : hd.1 - δ ≤ x + k * L := by
        have : (hd.1 - δ) * (C / L) ≤ (x + k * L) * (C / L) := by
          have e : (x + k * L) * (C / L) = x * C / L + k * C := by field_simp
          have e' : (hd.1 - δ) * (C / L) = hd.1 * C / L - δ * C / L := by ring
          rw [e, e']; exact k1
        exact le_of_mul_le_mul_right this (by positivity)
      have c2 : x + k * L ≤ hd.1 + hd.2 + δ := by
        have : (x + k * L) * (C / L) ≤ (hd.1 + hd.2 + δ) * (C / L) := by
          have e : (x + k * L) * (C / L) = x * C / L + k * C := by field_simp
          have e' : (hd.1 + hd.2 + δ) * (C / L) = hd.1 * C / L + hd.2 * C / L + δ * C / L := by ring
          rw [e, e']; exact k2
        exact le_of_mul_le_mul_right this (by positivity)
      change b + j * L - δ ≤ hd.1 at j1
      change hd.1 + hd.2 ≤ _ at j2
      obtain ⟨k', d1, d2⟩ := hin x hx
      have hk : k = k' + j := by
        have f1 : ((k - (k' + j) : ℤ) : ℚ) * L < 1 * L := by push_cast; linarith
        have f2 : (-1 : ℚ) * L < ((k - (k' + j) : ℤ) : ℚ) * L := by push_cast; linarith
        have f1' := lt_of_mul_lt_mul_right f1 hL0.le
        have f2' := lt_of_mul_lt_mul_right f2 hL0.le
        have f3 : k - (k' + j) < 1 := by exact_mod_cast f1'
        have f4 : -1 < k - (k' + j) := by exact_mod_cast f2'
        omega
      rw [hk]
      push_cast
      constructor <;> linarith
    obtain ⟨-, -, -, -, k0, -, m1, m2⟩ := h2 x0 h0
    obtain ⟨c1, c2⟩ := hkey x0 h0 k0 m1 m2
    refine ⟨k0, fun x hx => ?_⟩
    obtain ⟨a1, a2, -, a4, k, a3, m3, m4⟩ := h2 x hx
    obtain ⟨d1, d2⟩ := hkey x hx k m3 m4
    refine ⟨by linarith, by linarith, ?_, fun z => by linarith [a4 z]⟩
    rw [nearImage_eq (k := k) (k0 := k0) hL0 (by linarith) (by linarith)]
    have e : (x + (k - k0) * L) * C / L + k0 * C - cb.1 = x * C / L + k * C - cb.1 := by field_simp; ring
    rw [e]
    exact a3

theorem axis_full_of {L x0 : ℚ} {xs : List ℚ} {C : ℤ} (hL : F32 L) (hL0 : 0 < L) (r0 : F32 x0) (h0 : x0 ∈ xs)
    (h01 : ∀ x ∈ xs, 0 ≤ x ∧ x ≤ L) {b S : ℚ} (hin : ∀ x ∈ xs, ∃ k : ℤ, b ≤ x + k * L ∧ x + k * L ≤ b + S)
    (hroom : S + 2 * ((moves L ⟨x0, 0, 0⟩ xs + 3) * (L / 2 ^ 22)) ≤ L / 2) (hC : 8 ≤ C) (hC' : C ≤ 2 ^ 24)
    (hoff : ∀ x ∈ xs, ∀ z : ℤ, (4 * (moves L ⟨x0, 0, 0⟩ xs + 3) + 158) * (C / 2 ^ 24) < |x * C / L - z|)
    {ho hw : ℚ} (hs : (ho, hw) = (axisBox L x0 xs).stored L) {o w : ℤ} (hcb : cellAxis L ho hw C = (o, w)) :
    (0 ≤ o ∧ o < C) ∧ w ≤ C ∧ ∃ κ : ℤ, ∀ x ∈ xs, 162 * ((C : ℚ) / 2 ^ 24) < scaleSeg32 C (boxWidth64 L C) o x ∧
      scaleSeg32 C (boxWidth64 L C) o x < w - 162 * (C / 2 ^ 24) ∧
      |scaleSeg32 C (boxWidth64 L C) o x - (nearImage L x0 x * C / L + κ * C - o)| ≤ 8 * (C / 2 ^ 24) ∧
      ∀ z : ℤ, 162 * ((C : ℚ) / 2 ^ 24) < |scaleSeg32 C (boxWidth64 L C) o x - z| := by
  have := axis_full hL hL0 r0 h0 h01 hin hroom hC hC' hoff
  dsimp only at this
  rw [← hs] at this
  dsimp only at this
  rw [hcb] at this
  exact this


/-! ## One pass -/

/-- What is assumed of box and buffers in machine arithmetic. -/
structure Setup32 (L : ℚ) (b : RBox) (skip : ℤ) (unitBufs : List (List Vec)) : Prop where
  single : F32 L
  pos : 0 < L
  cells : 8 ≤ b.cells ∧ b.cells ≤ 2 ^ 24
  width : b.cellWidth = f64 (L / f64 b.cells)
  origin : ∀ j, 0 ≤ b.cb.origin j ∧ b.cb.origin j < b.cells
  extent : ∀ j, 0 ≤ b.cb.width j
  skip : 0 < skip
  some : 0 < unitBufs.length
  unit : ∀ u ∈ unitBufs, b.pts ≤ u.length ∧ ∀ p ∈ u, NearUnit (10 / 2 ^ 24) p

/-- A pass that meets these conditions. -/
structure PassOk32 (p : Pass) (L : ℚ) (b : RBox) (unitBufs : List (List Vec)) (reqVel : Bool) : Prop where
  file : GoodSheet L b.cells p.file
  pick : ∀ id n, 0 ≤ p.pick id n ∧ p.pick id n < unitBufs.length
  wbuf : reqVel = true → ∀ id, b.pts ≤ (p.wbuf id).length

theorem GoodSheet.nonempty {L : ℚ} {C : ℤ} {f : SheetFile} (h : GoodSheet L C f) : f.xs.headD 0 ∈ f.xs := by
  have h1 := h.xlen
  have h2 := h.seg
  cases hx : f.xs with
  | nil =>
    rw [hx] at h1
    have : 0 < (f.header.segmentWidth + 1) * (f.header.segmentWidth + 1) * (f.header.segmentWidth + 1) := by positivity
    simp at h1
    omega
  | cons a l => simp

section Pass
variable {L : ℚ} {b : RBox} {skip : ℤ} {unitBufs : List (List Vec)} {f : SheetFile}

theorem GoodSheet.axis (h : GoodSheet L b.cells f) (hb : Setup32 L b skip unitBufs) (j : Fin 3) :
    (0 ≤ (sheetBounds32 f b.cells).origin j ∧ (sheetBounds32 f b.cells).origin j < b.cells) ∧
    (sheetBounds32 f b.cells).width j ≤ b.cells ∧ ∃ κ : ℤ, ∀ y ∈ f.xs.map (· j),
      162 * ((b.cells : ℚ) / 2 ^ 24) < scaleSeg32 b.cells (boxWidth64 L b.cells) ((sheetBounds32 f b.cells).origin j) y ∧
      scaleSeg32 b.cells (boxWidth64 L b.cells) ((sheetBounds32 f b.cells).origin j) y <
        (sheetBounds32 f b.cells).width j - 162 * (b.cells / 2 ^ 24) ∧
      |scaleSeg32 b.cells (boxWidth64 L b.cells) ((sheetBounds32 f b.cells).origin j) y -
        (nearImage L (f.xs.headD 0 j) y * b.cells / L + κ * b.cells - (sheetBounds32 f b.cells).origin j)| ≤
          8 * (b.cells / 2 ^ 24) ∧
      ∀ z : ℤ, 162 * ((b.cells : ℚ) / 2 ^ 24) <
        |scaleSeg32 b.cells (boxWidth64 L b.cells) ((sheetBounds32 f b.cells).origin j) y - z| := by
  obtain ⟨c, S, hin, hroom⟩ := h.span j
  have hoff := h.off
  unfold growth at hroom hoff
  rw [h.total] at hroom hoff
  have h1 : ∀ x ∈ f.xs.map (· j), 0 ≤ x ∧ x ≤ L := by
    intro x hx
    obtain ⟨y, hy, rfl⟩ := List.mem_map.mp hx
    exact h.inside y hy j
  have h2 : ∀ x ∈ f.xs.map (· j), ∃ k : ℤ, c ≤ x + k * L ∧ x + k * L ≤ c + S := by
    intro x hx
    obtain ⟨y, hy, rfl⟩ := List.mem_map.mp hx
    exact hin y hy
  have h3 : ∀ x ∈ f.xs.map (· j), ∀ z : ℤ, (4 * (moves L ⟨f.xs.headD 0 j, 0, 0⟩ (f.xs.map (· j)) + 3) + 158) *
      ((b.cells : ℚ) / 2 ^ 24) < |x * b.cells / L - z| := by
    intro x hx z
    obtain ⟨y, hy, rfl⟩ := List.mem_map.mp hx
    exact hoff y hy j z
  have h4 : (f.header.origin j, f.header.width j) = (axisBox L (f.xs.headD 0 j) (f.xs.map (· j))).stored L := by
    have := h.box j
    rwa [h.total] at this
  have h5 : cellAxis L (f.header.origin j) (f.header.width j) b.cells =
      ((sheetBounds32 f b.cells).origin j, (sheetBounds32 f b.cells).width j) := by
    unfold sheetBounds32
    rw [h.total]
  exact axis_full_of hb.single hb.pos (h.single _ h.nonempty j) (List.mem_map_of_mem (f := (· j)) h.nonempty) h1 h2 hroom
    hb.cells.1 hb.cells.2 h3 h4 h5

/-- The position of one particle after scaling. -/
def scaled32 (b : RBox) (f : SheetFile) (x : Vec) : Vec := fun j =>
  if direct32 b f then
    scaleDom32 b.cells (f64 (b.cellWidth * f64 b.cells)) ((sheetBounds32 f b.cells).origin j) (b.cb.origin j) (x j)
  else scaleSeg32 b.cells (f64 (b.cellWidth * f64 b.cells)) ((sheetBounds32 f b.cells).origin j) (x j)

theorem scaleXs32_eq (b : RBox) (f : SheetFile) : scaleXs32 b f = f.xs.map (scaled32 b f) := rfl

/-- Where the particles of a file are after scaling: in the cells of the segment, up to whole shifts `e`, and close to their
exact positions, up to whole periods. -/
theorem GoodSheet.scaled (h : GoodSheet L b.cells f) (hb : Setup32 L b skip unitBufs) :
    ∃ e κ : IVec, (∀ j, b.cells ∣ e j + (mc32 b skip unitBufs f).buf.origin j - (sheetBounds32 f b.cells).origin j) ∧
      (direct32 b f = false → ∀ j, e j = 0) ∧ (∀ j, 2 * |e j| ≤ b.cells) ∧
      ∀ x ∈ f.xs, ∀ j, F32 (scaled32 b f x j) ∧ 160 * ((b.cells : ℚ) / 2 ^ 24) < scaled32 b f x j - e j ∧
        scaled32 b f x j - e j < (sheetBounds32 f b.cells).width j - 160 * ((b.cells : ℚ) / 2 ^ 24) ∧
        |scaled32 b f x j - (nearImage L (f.xs.headD 0 j) (x j) * b.cells / L + κ j * b.cells -
          (mc32 b skip unitBufs f).buf.origin j)| ≤ 10 * ((b.cells : ℚ) / 2 ^ 24) ∧
        ∀ z : ℤ, 160 * ((b.cells : ℚ) / 2 ^ 24) < |scaled32 b f x j - z| := by
  have hw : f64 (b.cellWidth * f64 b.cells) = boxWidth64 L b.cells := by rw [hb.width]; rfl
  have hC0 : 0 < b.cells := by have := hb.cells.1; omega
  have hc : (0 : ℚ) < b.cells := by exact_mod_cast hC0
  obtain ⟨g, hg⟩ : ∃ g : ℚ, g = (b.cells : ℚ) / 2 ^ 24 := ⟨_, rfl⟩
  have hcg : (b.cells : ℚ) = 2 ^ 24 * g := by rw [hg]; ring
  have g0 : 0 < g := by rw [hg]; positivity
  have hax := fun j => h.axis hb j
  choose h1 h2 κ h3 using hax
  rw [← hg] at h3 ⊢
  cases hd : direct32 b f with
  | false =>
    refine ⟨0, κ, fun j => ?_, fun _ _ => rfl, fun j => by simpa using hC0.le, fun x hx j => ?_⟩
    · unfold mc32
      simp [hd]
    · obtain ⟨a1, a2, a3, a4⟩ := h3 j (x j) (List.mem_map_of_mem hx)
      unfold scaled32 mc32
      simp only [hd, Bool.false_eq_true, if_false, hw]
      refine ⟨?_, ?_, ?_, by linarith, fun z => by linarith [a4 z]⟩
      · unfold scaleSeg32
        dsimp only
        split <;> exact f32_rep _
      · simp only [Pi.zero_apply, Int.cast_zero]
        linarith
      · simp only [Pi.zero_apply, Int.cast_zero]
        linarith
  | true =>
    have hdd := fun j => domainDiff32_eq hC0 hb.cells.2 ⟨(h1 j).1, (h1 j).2.le⟩ ⟨(hb.origin j).1, (hb.origin j).2.le⟩
    choose d d1 d2 d3 using hdd
    have hk : ∀ j, ∃ k : ℤ, d j = (sheetBounds32 f b.cells).origin j - b.cb.origin j + b.cells * k := fun j => by
      obtain ⟨k, ek⟩ := d3 j
      exact ⟨k, by linarith⟩
    choose k ek using hk
    refine ⟨d, fun j => κ j + k j, fun j => ?_, fun hf => absurd hf (by simp), d2, fun x hx j => ?_⟩
    · unfold mc32
      simp only [hd, if_true]
      exact ⟨k j, by rw [ek j]; ring⟩
    · obtain ⟨a1, a2, a3, a4⟩ := h3 j (x j) (List.mem_map_of_mem hx)
      have hdq : 2 * |(d j : ℚ)| ≤ b.cells := by exact_mod_cast d2 j
      obtain ⟨e1, e2⟩ := abs_le.mp (by linarith : |(d j : ℚ)| ≤ b.cells / 2)
      have hwq : ((sheetBounds32 f b.cells).width j : ℚ) ≤ b.cells := by exact_mod_cast h2 j
      have ekq : (d j : ℚ) = (sheetBounds32 f b.cells).origin j - b.cb.origin j + b.cells * k j := by exact_mod_cast ek j
      unfold scaled32 mc32
      simp only [hd, if_true, hw]
      unfold scaleDom32
      rw [d1 j]
      generalize scaleSeg32 b.cells (boxWidth64 L b.cells) ((sheetBounds32 f b.cells).origin j) (x j) = s at *
      have hr := f32_abs (x := s + d j) (B := 2 ^ 24 * (2 * g)) (by rw [abs_le]; constructor <;> linarith)
      rw [mul_div_cancel_left₀ _ (by norm_num)] at hr
      obtain ⟨r1, r2⟩ := abs_le.mp hr
      obtain ⟨a3a, a3b⟩ := abs_le.mp a3
      refine ⟨f32_rep _, by linarith, by linarith, ?_, fun z => ?_⟩
      · generalize nearImage L (f.xs.headD 0 j) (x j) * b.cells / L = q at *
        rw [abs_le]
        push_cast
        constructor <;> linarith
      · have h4 := a4 (z - d j)
        push_cast at h4
        have := abs_sub_abs_le_abs_sub (s - ((z : ℚ) - d j)) (-(f32 (s + d j) - (s + d j)))
        rw [abs_neg, sub_neg_eq_add, show s - ((z : ℚ) - d j) + (f32 (s + d j) - (s + d j)) = f32 (s + d j) - z by ring] at this
        linarith

variable {M : Type} [Zero M]

/-- The conditions on a pass. -/
theorem pass32_any (hb : Setup32 L b skip unitBufs) {p : Pass} {reqVel : Bool} (hp : PassOk32 p L b unitBufs reqVel)
    (val : Vec → M) (hval : reqVel = false → ∀ w w', val w = val w') :
    AnyPass (pass32 b skip unitBufs val p.file p.pick p.wbuf) reqVel b.cells b.cb := by
  have hf := hp.file
  have hC0 : 0 < b.cells := by have := hb.cells.1; omega
  have hc : (0 : ℚ) < b.cells := by exact_mod_cast hC0
  obtain ⟨e, κ, he, he0, he2, hsc⟩ := hf.scaled hb
  have hlen : ((scaleXs32 b p.file).length : ℤ) = (p.file.header.segmentWidth + 1) * (p.file.header.segmentWidth + 1) *
      (p.file.header.segmentWidth + 1) := by
    rw [← hf.xlen, scaleXs32_eq, List.length_map]
  have hunit : ∀ u ∈ (mc32 b skip unitBufs p.file).unitBufs, (u.length : ℤ) = b.pts ∧ ∀ q ∈ u, NearUnit (10 / 2 ^ 24) q := by
    intro u hu
    obtain ⟨u', hu', rfl⟩ := List.mem_map.mp hu
    refine ⟨?_, fun q hq' => (hb.unit u' hu').2 q (List.mem_of_mem_take hq')⟩
    rw [List.length_take, min_eq_left (hb.unit u' hu').1]
  have hpick : ∀ id n, 0 ≤ p.pick id n ∧ p.pick id n < (mc32 b skip unitBufs p.file).unitBufs.length := by
    intro id n
    refine ⟨(hp.pick id n).1, ?_⟩
    show p.pick id n < ((unitBufs.map _).length : ℤ)
    rw [List.length_map]
    exact (hp.pick id n).2
  have hinit : ∀ (cells : List M) id, (⟨newTetra 0 0 0 0, newTetra 0 0 0 0, List.replicate b.pts 0, p.wbuf id, 0,
      cells⟩ : MCState M).Ok (mc32 b skip unitBufs p.file) reqVel := by
    intro cells id
    refine ⟨?_, fun hv => ?_⟩
    · show ((List.replicate b.pts (0 : Vec)).length : ℤ) = b.pts
      rw [List.length_replicate]
    · show (b.pts : ℤ) ≤ (p.wbuf id).length
      exact_mod_cast hp.wbuf hv id
  have off : ∀ x ∈ p.file.xs, ∀ j, ∀ z : ℤ, 160 * ((b.cells : ℚ) / 2 ^ 24) < |scaled32 b p.file x j - z| :=
    fun x hx j => (hsc x hx j).2.2.2.2
  cases hd : direct32 b p.file with
  | false =>
    left
    have hbuf : (mc32 b skip unitBufs p.file).buf = sheetBounds32 p.file b.cells := by
      show (if direct32 b p.file = true then _ else _) = _
      rw [hd]; rfl
    have hax := fun j => hf.axis hb j
    refine ⟨rfl, hd, hf.seg, hb.skip, hunit, hpick, rfl, rfl, hval, hlen, fun _ => hf.vlen, fun id => hinit _ id, ?_, ?_, ?_, ?_⟩
    · intro j
      show -b.cells ≤ (mc32 b skip unitBufs p.file).buf.origin j - b.cb.origin j ∧
        (mc32 b skip unitBufs p.file).buf.origin j - b.cb.origin j + (mc32 b skip unitBufs p.file).buf.width j ≤ 2 * b.cells
      rw [hbuf]
      have h1 := (hax j).1
      have h2 := (hax j).2.1
      have h3 := hb.origin j
      omega
    · intro j
      show -b.cells < b.cb.origin j - (mc32 b skip unitBufs p.file).buf.origin j ∧
        b.cb.origin j - (mc32 b skip unitBufs p.file).buf.origin j < b.cells
      rw [hbuf]
      have h1 := (hax j).1
      have h3 := hb.origin j
      omega
    · intro j
      show 0 ≤ (mc32 b skip unitBufs p.file).buf.width j ∧ (mc32 b skip unitBufs p.file).buf.width j ≤ b.cells
      rw [hbuf]
      obtain ⟨-, a1, a2, -⟩ := hsc _ hf.nonempty j
      have : (0 : ℚ) ≤ (sheetBounds32 p.file b.cells).width j := by
        have : 0 < (b.cells : ℚ) / 2 ^ 24 := by positivity
        linarith
      exact ⟨by exact_mod_cast this, (hax j).2.1⟩
    · intro y hy j
      change y ∈ scaleXs32 b p.file at hy
      rw [scaleXs32_eq] at hy
      obtain ⟨x, hx, rfl⟩ := List.mem_map.mp hy
      obtain ⟨a0, a1, a2, -⟩ := hsc x hx j
      rw [he0 hd j, Int.cast_zero, sub_zero] at a1 a2
      have : 0 < (b.cells : ℚ) / 2 ^ 24 := by positivity
      refine ⟨a0, ⟨by linarith, ?_⟩, fun z => ?_⟩
      · show _ < (((mc32 b skip unitBufs p.file).buf.width j : ℤ) : ℚ)
        rw [hbuf]
        linarith
      · have := off x hx j z
        linarith
  | true =>
    right
    have hbuf : (mc32 b skip unitBufs p.file).buf = b.cb := by
      show (if direct32 b p.file = true then _ else _) = _
      rw [hd]; rfl
    refine ⟨rfl, hd, hf.seg, hb.skip, hunit, hpick, rfl, rfl, hval, hlen, fun _ => hf.vlen, fun id => hinit _ id, hbuf,
      hb.extent, ?_⟩
    intro y hy j
    change y ∈ scaleXs32 b p.file at hy
    rw [scaleXs32_eq] at hy
    obtain ⟨x, hx, rfl⟩ := List.mem_map.mp hy
    obtain ⟨a0, a1, a2, -⟩ := hsc x hx j
    have hax := (hf.axis hb j).2.1
    have hwq : ((sheetBounds32 p.file b.cells).width j : ℚ) ≤ b.cells := by exact_mod_cast hax
    have hdq : 2 * |(e j : ℚ)| ≤ b.cells := by exact_mod_cast he2 j
    obtain ⟨e1, e2⟩ := abs_le.mp (by linarith : |(e j : ℚ)| ≤ b.cells / 2)
    have : 0 < (b.cells : ℚ) / 2 ^ 24 := by positivity
    have hc8 : (8 : ℚ) ≤ b.cells := by exact_mod_cast hb.cells.1
    refine ⟨a0, ⟨?_, ?_⟩, off x hx j⟩
    · push_cast
      linarith
    · push_cast
      linarith

end Pass

end Verif.Fp
