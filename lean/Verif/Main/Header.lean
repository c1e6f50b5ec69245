import Verif.Main.Output
import Verif.Render.Boxes
import Verif.Cosmo.Props

/-!
# The header of an image file describes the image: C117
-/

set_option autoImplicit false

namespace Verif.Main

open Verif.Go Verif.Io Verif.Geom Verif.Render

/-- Lower corner of a region. -/
def lower (c : BoxConfig) : Vec := ![c.x, c.y, c.z]

/-- Widths of a region. -/
def widths (c : BoxConfig) : Vec := ![c.xWidth, c.yWidth, c.zWidth]

/-- The boxes of the renderer, with what they are made from. -/
theorem boxOf_eq {con : RenderCon} {q : ℤ} {L : ℚ} {c : BoxConfig} {b : RBox} (h : BoxOf con q L c b) :
    ∃ cells pts con', totalPixels con (BoxConfig.con c) L = some cells ∧
      particles con (BoxConfig.con c) L = some (pts, con') ∧
      ∃ proj, b = RBox.new L pts.toNat cells (lower c) (widths c) proj ∧
        ((c.projectionAxis = [] ∧ proj = none) ∨
         (c.projectionAxis ≠ [] ∧ canProject q = some false ∧ proj = none) ∨
         (c.projectionAxis ≠ [] ∧ canProject q = some true ∧ axisNumber c.projectionAxis = proj ∧ proj ≠ none)) := by
  obtain ⟨cells, pts, con', h1, h2, h3⟩ := h
  refine ⟨cells, pts, con', h1, h2, ?_⟩
  unfold newBox at h3
  by_cases hp : c.projectionAxis = []
  · have hp' : c.isProjection = false := by simp [BoxConfig.isProjection, hp]
    simp only [hp', Bool.false_eq_true, if_false, false_and] at h3
    exact ⟨none, (Option.some.inj h3).symm, .inl ⟨hp, rfl⟩⟩
  · have hp' : c.isProjection = true := by simp [BoxConfig.isProjection, hp]
    simp only [hp', if_true, true_and] at h3
    cases hcan : canProject q with
    | none => rw [hcan] at h3; cases h3
    | some can =>
      rw [hcan] at h3
      change (if can = true then _ else _) = some b at h3
      cases can with
      | false =>
        simp only [Bool.false_eq_true, if_false] at h3
        exact ⟨none, (Option.some.inj h3).symm, .inr (.inl ⟨hp, rfl, rfl⟩)⟩
      | true =>
        rw [if_pos rfl] at h3
        cases ha : axisNumber c.projectionAxis with
        | none => rw [ha] at h3; cases h3
        | some a =>
          rw [ha] at h3
          exact ⟨some a, (Option.some.inj h3).symm, .inr (.inr ⟨hp, rfl, rfl, by simp⟩)⟩

/-! ## Location -/

/-- C117: the location in the header of an image. All lengths are multiples of one pixel width, which divides the box. The
pixels are those that meet the region of the entry: the region begins in the first pixel and ends in the last one. -/
theorem C117_location (enc : ℝ → Word 8) (con : RenderCon) (q : ℤ) (L : ℚ) (cosmo : Cosmology) (vals : ℕ → RBox → Finalized)
    (k : ℕ) (c : BoxConfig) (bytes : List Byte) (hL : 0 < L) (h : ImageOf enc con q L cosmo vals k c bytes)
    (hpix : ∀ n, totalPixels con (BoxConfig.con c) L = some n → 0 < n) :
    ∃ (hd : GridHeader) (w : ℚ) (n : ℤ) (o s : Fin 3 → ℤ), readGridHeader bytes = .ok hd ∧ 0 < n ∧ n * w = L ∧
      totalPixels con (BoxConfig.con c) L = some n ∧
      hd.loc.pixelWidth = enc w ∧
      hd.loc.pixelOrigin = ⟨word (o 0), word (o 1), word (o 2)⟩ ∧ hd.loc.pixelSpan = ⟨word (s 0), word (s 1), word (s 2)⟩ ∧
      hd.loc.origin = ⟨enc (o 0 * w : ℚ), enc (o 1 * w : ℚ), enc (o 2 * w : ℚ)⟩ ∧
      hd.loc.span = ⟨enc (s 0 * w : ℚ), enc (s 1 * w : ℚ), enc (s 2 * w : ℚ)⟩ ∧
      ∀ j, o j * w ≤ lower c j ∧ lower c j < (o j + 1) * w ∧
        (o j + s j - 1) * w ≤ lower c j + widths c j ∧ lower c j + widths c j < (o j + s j) * w := by
  obtain ⟨b, hb, hw⟩ := h
  obtain ⟨cells, pts, con', h1, -, proj, rfl, -⟩ := boxOf_eq hb
  obtain ⟨hd, e1, -, -, -, -, e2⟩ := C65_header _ _ _ _ _ hw
  have hc := hpix cells h1
  have hcq : (0 : ℚ) < cells := by exact_mod_cast hc
  refine ⟨hd, L / cells, cells, (newBoxBounds L cells (lower c) (widths c)).origin,
    (newBoxBounds L cells (lower c) (widths c)).width, e1, hc, by field_simp, h1, ?_, ?_, ?_, ?_, ?_, fun j => ?_⟩
  · rw [e2]; rfl
  · rw [e2]; rfl
  · rw [e2]; rfl
  · rw [e2]; rfl
  · rw [e2]; rfl
  · obtain ⟨t1, t2⟩ := C51_tight L cells (lower c) (widths c) j
    set o := (newBoxBounds L cells (lower c) (widths c)).origin j
    set s := (newBoxBounds L cells (lower c) (widths c)).width j
    have hw0 : 0 < L / cells := by positivity
    have f1 := Int.floor_le (lower c j / (L / cells))
    have f2 := Int.lt_floor_add_one (lower c j / (L / cells))
    have f3 := Int.floor_le ((lower c j + widths c j) / (L / cells))
    have f4 := Int.lt_floor_add_one ((lower c j + widths c j) / (L / cells))
    rw [← t1] at f1 f2
    rw [← t2] at f3 f4
    rw [le_div_iff₀ hw0] at f1 f3
    rw [div_lt_iff₀ hw0] at f2 f4
    push_cast at f3 f4
    refine ⟨f1, f2, f3, ?_⟩
    rwa [sub_add_cancel] at f4

example : (∀ n, totalPixels ⟨0, 20, 5, 0, 1, false⟩ (BoxConfig.con ⟨1, 2, 3, 4, 5, 6, ['Z'], "b".toList⟩) 10 = some n → 0 < n) ∧
    ∃ bytes, ImageOf (fun _ => 7) ⟨0, 20, 5, 0, 1, false⟩ 0 10 ⟨0, 3 / 10, 7 / 10, 7 / 10⟩
      (fun _ b => .scalar (List.replicate b.len.toNat 1)) 0 ⟨1, 2, 3, 4, 5, 6, ['Z'], "b".toList⟩ bytes := by
  refine ⟨fun n h => by cases h; norm_num, ?_⟩
  obtain ⟨b, hb⟩ := boxOf_exists ⟨0, 20, 5, 0, 1, false⟩ 0 10 ⟨1, 2, 3, 4, 5, 6, ['Z'], "b".toList⟩ (by norm_num) (by simp)
    (fun h => by simp at h)
  obtain ⟨bytes, e⟩ := writeBuffer_ok (word 0) (.scalar (List.replicate b.len.toNat 1)) _ _ _ (by simp)
  exact ⟨bytes, b, hb, e⟩

/-! ## Shape -/

/-- The numbers of values: one per pixel for scalar quantities, three for vectors. -/
def Shaped (q n : ℤ) (v : Finalized) : Prop :=
  ((q = 0 ∨ q = 3) ∧ ∃ xs, v = .scalar xs ∧ (xs.length : ℤ) = n) ∨
  ((q = 1 ∨ q = 2 ∨ q = 4) ∧ ∃ xs ys zs, v = .vector xs ys zs ∧ (xs.length : ℤ) = n ∧ ys.length = xs.length ∧
    zs.length = xs.length)

/-- What a reader should return. -/
def gridOf : Finalized → PyGrid
  | .scalar xs => .scalar xs
  | .vector xs ys zs => .vector xs ys zs
  | .neither => .scalar []

theorem word_toInt {n : ℤ} (h0 : -2 ^ 63 ≤ n) (h1 : n < 2 ^ 63) : (word n).toInt = n := by
  unfold word
  rw [BitVec.toInt_ofInt]
  exact Int.bmod_eq_of_le (by omega) (by omega)

theorem axis_word (p t s : ℤ) (axis : List Char) (ha : axis = [] ∨ axis = ['X'] ∨ axis = ['Y'] ∨ axis = ['Z']) :
    (newRenderInfo p t s axis).projectionAxis.toInt = (axisNumber axis).getD (-1) := by
  rcases ha with rfl | rfl | rfl | rfl <;> rfl

theorem axisNumber_range (axis : List Char) : -1 ≤ (axisNumber axis).getD (-1) ∧ (axisNumber axis).getD (-1) ≤ 2 := by
  unfold axisNumber
  split_ifs <;> simp

theorem pixels_eq (a : Option ℤ) (ha : a = none ∨ a = some 0 ∨ a = some 1 ∨ a = some 2) (s : Fin 3 → ℤ) (h0 : ∀ j, 0 ≤ s j)
    (h1 : ∀ j, s j < 2 ^ 63) (b : RBox) (hb : b.proj = a) (hs : b.cb.width = s) :
    pixels (a.getD (-1)) ⟨word (s 0), word (s 1), word (s 2)⟩ = b.len := by
  have e : ∀ j, (word (s j)).toInt = s j := fun j => word_toInt (by have := h0 j; omega) (h1 j)
  unfold pixels RBox.len
  rw [hb]
  simp only [e]
  rcases ha with rfl | rfl | rfl | rfl <;> simp [boxLen3, boxLen2, projDims, hs]

theorem axisNumber_cases (axis : List Char) :
    axisNumber axis = none ∨ axisNumber axis = some 0 ∨ axisNumber axis = some 1 ∨ axisNumber axis = some 2 := by
  unfold axisNumber
  split_ifs <;> simp

theorem word_small {a b : ℤ} (ha : 0 ≤ a ∧ a < 5) (hb : 0 ≤ b ∧ b < 5) : word a = word b ↔ a = b := by
  refine ⟨fun h => ?_, fun h => by rw [h]⟩
  have := congrArg BitVec.toInt h
  rwa [word_toInt (by omega) (by omega), word_toInt (by omega) (by omega)] at this

/-- C117: the shape in the header of an image: a reader that goes by the header gets back all values of the image, for
images that are not projected and for projections of densities and velocities. Missing: an entry with a projection axis for
one of the other quantities. -/
theorem C117_shape_partial (enc : ℝ → Word 8) (con : RenderCon) (q : ℤ) (L : ℚ) (cosmo : Cosmology)
    (vals : ℕ → RBox → Finalized) (k : ℕ) (c : BoxConfig) (bytes : List Byte)
    (ha : c.projectionAxis = [] ∨ c.projectionAxis = ['X'] ∨ c.projectionAxis = ['Y'] ∨ c.projectionAxis = ['Z'])
    (hq : c.projectionAxis = [] ∨ q = 0 ∨ q = 2) (h : ImageOf enc con q L cosmo vals k c bytes)
    (hs : ∀ b, BoxOf con q L c b → Shaped q b.len (vals k b) ∧ ∀ j, 0 ≤ b.cb.width j ∧ b.cb.width j < 2 ^ 63) :
    ∃ b, BoxOf con q L c b ∧ pyReadGrid bytes = .ok (gridOf (vals k b)) := by
  obtain ⟨b, hb, hw⟩ := h
  refine ⟨b, hb, ?_⟩
  obtain ⟨hsh, hwid⟩ := hs b hb
  obtain ⟨cells, pts, con', h1, -, proj, hbe, hproj⟩ := boxOf_eq hb
  have hp : proj = axisNumber c.projectionAxis := by
    rcases hproj with ⟨e, rfl⟩ | ⟨hne, hcan, -⟩ | ⟨-, -, e, -⟩
    · rw [e]; rfl
    · rcases hq with hq | rfl | rfl
      · exact absurd hq hne
      · cases hcan
      · cases hcan
    · exact e.symm
  have hpx := pixels_eq (axisNumber c.projectionAxis) (axisNumber_cases _) b.cb.width (fun j => (hwid j).1)
    (fun j => (hwid j).2) b (by rw [hbe, ← hp]; rfl) rfl
  have hr := axisNumber_range c.projectionAxis
  rw [← axis_word con.particles con.totalPixels con.subsampleLength _ ha] at hr hpx
  have hpx' : pixels (newRenderInfo con.particles con.totalPixels con.subsampleLength c.projectionAxis).projectionAxis.toInt
    (newLocationInfo enc b.cb.origin b.cb.width b.cellWidth).pixelSpan = b.len := hpx
  generalize newLocationInfo enc b.cb.origin b.cb.width b.cellWidth = loc at hw hpx'
  generalize newRenderInfo con.particles con.totalPixels con.subsampleLength c.projectionAxis = ri at hw hpx' hr
  generalize newCosmoInfo enc (cosmo.h100 * 100) cosmo.omegaM cosmo.omegaL cosmo.z L = ci at hw
  rcases hsh with ⟨hqs, xs, ev, hl⟩ | ⟨hqv, xs, ys, zs, ev, hl, hy, hz⟩
  · rw [ev] at hw ⊢
    obtain ⟨file, e1, e2⟩ := C98_scalar (word q) (by
      rcases hqs with rfl | rfl
      · exact .inl rfl
      · exact .inr rfl) xs ci ri loc hr.1 hr.2 (hpx'.trans hl.symm)
    rw [hw] at e1
    cases e1
    exact e2
  · rw [ev] at hw ⊢
    obtain ⟨file, e1, e2⟩ := C98_vector (word q) (by
      rcases hqv with rfl | rfl | rfl <;> decide) xs ys zs ci ri loc hr.1 hr.2 (hpx'.trans hl.symm) hy hz
    rw [hw] at e1
    cases e1
    exact e2

/-- A run with one projected box and one ball. -/
theorem ex_image (q : ℤ) (axis : List Char) (hq : 0 ≤ q ∧ q < 5)
    (ha : axis = [] ∨ axis = ['X'] ∨ axis = ['Y'] ∨ axis = ['Z']) (vals : ℕ → RBox → Finalized) (hv : ∀ k b, vals k b ≠ .neither) :
    ∃ bytes, ImageOf (fun _ => 7) ⟨0, 20, 5, 0, 1, false⟩ q 10 ⟨0, 3 / 10, 7 / 10, 7 / 10⟩ vals 0
      ⟨1, 2, 3, 4, 5, 6, axis, "b".toList⟩ bytes := by
  obtain ⟨b, hb⟩ := boxOf_exists ⟨0, 20, 5, 0, 1, false⟩ q 10 ⟨1, 2, 3, 4, 5, 6, axis, "b".toList⟩ hq ha
    (fun h => by simp at h)
  obtain ⟨bytes, e⟩ := writeBuffer_ok _ _ _ _ _ (hv 0 b)
  exact ⟨bytes, b, hb, e⟩

/-- The boxes of this run. -/
theorem ex_box (q : ℤ) (axis : List Char) (b : RBox)
    (hb : BoxOf ⟨0, 20, 5, 0, 1, false⟩ q 10 ⟨1, 2, 3, 4, 5, 6, axis, "b".toList⟩ b) :
    b.cb.width = ![9, 11, 13] ∧ b.cells = 20 := by
  obtain ⟨cells, pts, con', h1, -, proj, rfl, -⟩ := boxOf_eq hb
  cases h1
  refine ⟨?_, rfl⟩
  have h : (newBoxBounds 10 20 ![1, 2, 3] ![4, 5, 6]).width = ![9, 11, 13] := by
    funext j
    fin_cases j <;> decide +kernel
  exact h

example : ∃ bytes, ImageOf (fun _ => 7) ⟨0, 20, 5, 0, 1, false⟩ 2 10 ⟨0, 3 / 10, 7 / 10, 7 / 10⟩
      (fun _ b => .vector (List.replicate b.len.toNat 1) (List.replicate b.len.toNat 2) (List.replicate b.len.toNat 3)) 0
      ⟨1, 2, 3, 4, 5, 6, ['Z'], "b".toList⟩ bytes ∧
    ∃ b, BoxOf ⟨0, 20, 5, 0, 1, false⟩ 2 10 ⟨1, 2, 3, 4, 5, 6, ['Z'], "b".toList⟩ b ∧ pyReadGrid bytes =
      .ok (gridOf (.vector (List.replicate b.len.toNat 1) (List.replicate b.len.toNat 2) (List.replicate b.len.toNat 3))) := by
  obtain ⟨bytes, h⟩ := ex_image 2 ['Z'] (by norm_num) (by simp)
    (fun _ b => .vector (List.replicate b.len.toNat 1) (List.replicate b.len.toNat 2) (List.replicate b.len.toNat 3))
    (fun _ _ h => by cases h)
  refine ⟨bytes, h, C117_shape_partial _ _ 2 10 _ _ 0 _ bytes (by simp) (by simp) h fun b hb => ?_⟩
  have hw := (ex_box _ _ b hb).1
  have h0 : ∀ j, 0 ≤ b.cb.width j ∧ b.cb.width j < 2 ^ 63 := by
    rw [hw]; intro j; fin_cases j <;> simp
  refine ⟨.inr ⟨by norm_num, _, _, _, rfl, ?_, by simp, by simp⟩, h0⟩
  rw [List.length_replicate, Int.toNat_of_nonneg]
  unfold RBox.len
  split
  · exact mul_nonneg (mul_nonneg (h0 _).1 (h0 _).1) (h0 _).1
  · exact mul_nonneg (h0 _).1 (h0 _).1

theorem pixels_depth (axis : List Char) (ha : axis = ['X'] ∨ axis = ['Y'] ∨ axis = ['Z']) (s : Fin 3 → ℤ) (h0 : ∀ j, 2 ≤ s j)
    (h1 : ∀ j, s j < 2 ^ 63) :
    0 < pixels ((axisNumber axis).getD (-1)) ⟨word (s 0), word (s 1), word (s 2)⟩ ∧
    2 * pixels ((axisNumber axis).getD (-1)) ⟨word (s 0), word (s 1), word (s 2)⟩ ≤ s 0 * s 1 * s 2 := by
  have e : ∀ j, (word (s j)).toInt = s j := fun j => word_toInt (by have := h0 j; omega) (h1 j)
  unfold pixels
  simp only [e]
  have k0 := h0 0
  have k1 := h0 1
  have k2 := h0 2
  rcases ha with rfl | rfl | rfl
  · change 0 < s 1 * s 2 ∧ 2 * (s 1 * s 2) ≤ _
    constructor
    · positivity
    · nlinarith [mul_pos (show 0 < s 1 by omega) (show 0 < s 2 by omega)]
  · change 0 < s 0 * s 2 ∧ 2 * (s 0 * s 2) ≤ _
    constructor
    · positivity
    · nlinarith [mul_pos (show 0 < s 0 by omega) (show 0 < s 2 by omega)]
  · change 0 < s 0 * s 1 ∧ 2 * (s 0 * s 1) ≤ _
    constructor
    · positivity
    · nlinarith [mul_pos (show 0 < s 0 by omega) (show 0 < s 1 by omega)]

/-- C117 fails for an entry with a projection axis when the quantity is a gradient, divergence or curl: the image has all
three dimensions but its header says that it was projected. A reader that goes by the header gets, without any error, the
first layer of a scalar, and takes layers of the first component of a vector for the three components. -/
theorem C117_shape_counterexample (enc : ℝ → Word 8) (con : RenderCon) (q : ℤ) (L : ℚ) (cosmo : Cosmology)
    (vals : ℕ → RBox → Finalized) (k : ℕ) (c : BoxConfig) (bytes : List Byte)
    (ha : c.projectionAxis = ['X'] ∨ c.projectionAxis = ['Y'] ∨ c.projectionAxis = ['Z'])
    (hq : q = 1 ∨ q = 3 ∨ q = 4) (h : ImageOf enc con q L cosmo vals k c bytes)
    (hs : ∀ b, BoxOf con q L c b → Shaped q b.len (vals k b) ∧ ∀ j, 2 ≤ b.cb.width j ∧ b.cb.width j < 2 ^ 63) :
    ∃ b, ∃ n : ℕ, BoxOf con q L c b ∧ 0 < n ∧ 2 * (n : ℤ) ≤ b.len ∧
      (∀ xs, vals k b = .scalar xs → pyReadGrid bytes = .ok (.scalar (xs.take n))) ∧
      (∀ xs ys zs, vals k b = .vector xs ys zs → pyReadGrid bytes = .ok (.vector (xs.take n) ((xs.drop n).take n)
        (((xs ++ ys).drop (2 * n)).take n))) := by
  obtain ⟨b, hb, hw⟩ := h
  obtain ⟨hsh, hwid⟩ := hs b hb
  obtain ⟨cells, pts, con', h1, -, proj, hbe, hproj⟩ := boxOf_eq hb
  have hp : proj = none := by
    rcases hproj with ⟨-, rfl⟩ | ⟨-, -, rfl⟩ | ⟨-, hcan, -⟩
    · rfl
    · rfl
    · rcases hq with rfl | rfl | rfl <;> cases hcan
  have hlen : b.len = b.cb.width 0 * b.cb.width 1 * b.cb.width 2 := by
    unfold RBox.len
    rw [show b.proj = none by rw [hbe]; exact hp]
    rfl
  obtain ⟨hd1, hd2⟩ := pixels_depth c.projectionAxis ha b.cb.width (fun j => (hwid j).1) (fun j => (hwid j).2)
  rw [← hlen] at hd2
  have hr := axisNumber_range c.projectionAxis
  rw [← axis_word con.particles con.totalPixels con.subsampleLength _ (.inr ha)] at hr hd1 hd2
  obtain ⟨n, hn⟩ := Int.eq_ofNat_of_zero_le hd1.le
  rw [hn] at hd1 hd2
  have hpx' : pixels (newRenderInfo con.particles con.totalPixels con.subsampleLength c.projectionAxis).projectionAxis.toInt
    (newLocationInfo enc b.cb.origin b.cb.width b.cellWidth).pixelSpan = n := hn
  generalize newLocationInfo enc b.cb.origin b.cb.width b.cellWidth = loc at hw hpx'
  generalize newRenderInfo con.particles con.totalPixels con.subsampleLength c.projectionAxis = ri at hw hpx' hr
  generalize newCosmoInfo enc (cosmo.h100 * 100) cosmo.omegaM cosmo.omegaL cosmo.z L = ci at hw
  refine ⟨b, n, hb, by exact_mod_cast hd1, hd2, ?_, ?_⟩
  · intro xs ev
    have hq3 : q = 3 ∧ (xs.length : ℤ) = b.len := by
      rcases hsh with ⟨h3, xs', e, hl⟩ | ⟨-, _, _, _, e, -⟩
      · rw [ev] at e
        cases e
        exact ⟨by omega, hl⟩
      · rw [ev] at e; cases e
    rw [ev] at hw
    obtain ⟨file, r, e1, e2, e3⟩ := pyReadGrid_eq (word q) (.scalar xs) ci ri loc (by simp) hr.1 hr.2 n hpx'
    rw [hw] at e1
    cases e1
    have hl : (xs.take n).length = n := by rw [List.length_take]; omega
    obtain ⟨r', e4, -⟩ := pyFromFile_ok (r := r) (xs := xs.take n) (tail := (xs.drop n).flatMap (encode .le 4)) (by
      rw [e2, ← List.flatMap_append, List.take_append_drop]; rfl)
    rw [hl] at e4
    rw [e3, if_neg (by rw [hq3.1]; decide)]
    exact Res.bind_ok e4 rfl
  · intro xs ys zs ev
    obtain ⟨hqv, hl1, hl2, hl3⟩ : (q = 1 ∨ q = 4) ∧ (xs.length : ℤ) = b.len ∧ ys.length = xs.length ∧ zs.length = xs.length := by
      rcases hsh with ⟨-, _, e, -⟩ | ⟨h3, xs', ys', zs', e, hl, hl2, hl3⟩
      · rw [ev] at e; cases e
      · rw [ev] at e
        cases e
        exact ⟨by omega, hl, hl2, hl3⟩
    rw [ev] at hw
    obtain ⟨file, r, e1, e2, e3⟩ := pyReadGrid_eq (word q) (.vector xs ys zs) ci ri loc (by simp) hr.1 hr.2 n hpx'
    rw [hw] at e1
    cases e1
    have l1 : (xs.take n).length = n := by rw [List.length_take]; omega
    have l2 : ((xs.drop n).take n).length = n := by rw [List.length_take, List.length_drop]; omega
    have l3 : (((xs ++ ys).drop (2 * n)).take n).length = n := by
      rw [List.length_take, List.length_drop, List.length_append]; omega
    have hsplit : xs ++ ys = xs.take n ++ ((xs.drop n).take n ++ (((xs ++ ys).drop (2 * n)).take n ++
        ((xs ++ ys).drop (2 * n)).drop n)) := by
      rw [List.take_append_drop, ← List.append_assoc (xs.take n)]
      have : xs.take n ++ (xs.drop n).take n = (xs ++ ys).take (2 * n) := by
        rw [two_mul, ← List.take_add, List.take_append_of_le_length (by omega)]
      rw [this, List.take_append_drop]
    have hbytes : r.rest = (xs.take n).flatMap (encode .le 4) ++ (((xs.drop n).take n).flatMap (encode .le 4) ++
        ((((xs ++ ys).drop (2 * n)).take n).flatMap (encode .le 4) ++
          ((((xs ++ ys).drop (2 * n)).drop n).flatMap (encode .le 4) ++ zs.flatMap (encode .le 4)))) := by
      rw [e2]
      change xs.flatMap _ ++ (ys.flatMap _ ++ zs.flatMap _) = _
      rw [← List.append_assoc, ← List.flatMap_append]
      conv_lhs => rw [hsplit]
      simp only [List.flatMap_append, List.append_assoc]
    obtain ⟨r1, e4, q1⟩ := pyFromFile_ok hbytes
    obtain ⟨r2, e5, q2⟩ := pyFromFile_ok q1
    obtain ⟨r3, e6, -⟩ := pyFromFile_ok q2
    rw [l1] at e4
    rw [l2] at e5
    rw [l3] at e6
    rw [e3, if_pos (by rcases hqv with rfl | rfl <;> decide)]
    exact Res.bind_ok e4 (Res.bind_ok e5 (Res.bind_ok e6 rfl))

example : ∃ (bytes : List Byte) (b : RBox) (n : ℕ), 0 < n ∧ b.cb.width = ![9, 11, 13] ∧ 2 * (n : ℤ) ≤ b.len ∧
    ImageOf (fun _ => 7) ⟨0, 20, 5, 0, 1, false⟩ 3 10 ⟨0, 3 / 10, 7 / 10, 7 / 10⟩
      (fun _ b => .scalar (List.replicate b.len.toNat 1)) 0 ⟨1, 2, 3, 4, 5, 6, ['Z'], "b".toList⟩ bytes ∧
    pyReadGrid bytes = .ok (.scalar ((List.replicate b.len.toNat 1).take n)) := by
  obtain ⟨bytes, h⟩ := ex_image 3 ['Z'] (by norm_num) (by simp)
    (fun _ b => .scalar (List.replicate b.len.toNat 1)) (fun _ _ h => by cases h)
  obtain ⟨b, n, hb, hn, h2, h3, -⟩ := C117_shape_counterexample _ _ 3 10 _ _ 0 _ bytes (by simp) (by simp) h fun b hb => by
    have hw := (ex_box _ _ b hb).1
    have h0 : ∀ j, 2 ≤ b.cb.width j ∧ b.cb.width j < 2 ^ 63 := by
      rw [hw]; intro j; fin_cases j <;> simp
    refine ⟨.inl ⟨by norm_num, _, rfl, ?_⟩, h0⟩
    have h0' : ∀ j, 0 ≤ b.cb.width j := fun j => by have := (h0 j).1; omega
    rw [List.length_replicate, Int.toNat_of_nonneg]
    unfold RBox.len
    split
    · exact mul_nonneg (mul_nonneg (h0' _) (h0' _)) (h0' _)
    · exact mul_nonneg (h0' _) (h0' _)
  exact ⟨bytes, b, n, hn, (ex_box _ _ b hb).1, h2, h, h3 _ rfl⟩

/-! ## Sampling -/

/-- C117: the sampling parameters in the header. The length of subsampling is always right; the number of pixels is that of
the box if `ImagePixels` is not used, and the number of particles is that of the image if neither `ProjectionDepth` nor
`AutoParticles` is used. Missing: these options. -/
theorem C117_sampling_partial (enc : ℝ → Word 8) (con : RenderCon) (q : ℤ) (L : ℚ) (cosmo : Cosmology)
    (vals : ℕ → RBox → Finalized) (k : ℕ) (c : BoxConfig) (bytes : List Byte) (h : ImageOf enc con q L cosmo vals k c bytes) :
    ∃ hd b, readGridHeader bytes = .ok hd ∧ BoxOf con q L c b ∧ hd.render.subsampleLength = word con.subsampleLength ∧
      (con.imagePixels ≤ 0 → hd.render.totalPixels = word b.cells) ∧
      (con.autoParticles = false → con.projectionDepth ≤ 0 → 0 ≤ con.particles → hd.render.particles = word b.pts) := by
  obtain ⟨b, hb, hw⟩ := h
  obtain ⟨cells, pts, con', h1, h2, proj, rfl, -⟩ := boxOf_eq hb
  obtain ⟨hd, e1, -, -, -, e2, -⟩ := C65_header _ _ _ _ _ hw
  refine ⟨hd, _, e1, hb, by rw [e2]; rfl, fun hi => ?_, fun ha hd hp => ?_⟩
  · unfold totalPixels at h1
    rw [if_neg (by omega)] at h1
    cases h1
    rw [e2]
    rfl
  · unfold particles at h2
    simp only [ha, Bool.false_eq_true, if_false] at h2
    change (if con.projectionDepth > 0 then _ else _ : Option (ℤ × RenderCon)) = _ at h2
    rw [if_neg (by omega)] at h2
    cases h2
    rw [e2]
    change word con.particles = word (con.particles.toNat : ℤ)
    rw [Int.toNat_of_nonneg hp]

example : ∃ bytes hd b, readGridHeader bytes = .ok hd ∧
    BoxOf ⟨0, 20, 5, 0, 1, false⟩ 0 10 ⟨1, 2, 3, 4, 5, 6, ['Z'], "b".toList⟩ b ∧
    hd.render.totalPixels = word b.cells ∧ hd.render.particles = word b.pts := by
  obtain ⟨bytes, h⟩ := ex_image 0 ['Z'] (by norm_num) (by simp) (fun _ b => .scalar (List.replicate b.len.toNat 1))
    (fun _ _ h => by cases h)
  obtain ⟨hd, b, e, hb, -, h1, h2⟩ := C117_sampling_partial _ _ 0 10 _ _ 0 _ bytes h
  exact ⟨bytes, hd, b, e, hb, h1 (by norm_num), h2 rfl (by norm_num) (by norm_num)⟩

/-- C117 fails for images made with `ImagePixels` or `AutoParticles`: the header has the numbers of the configuration file, which
are zero if they are not set there. -/
theorem C117_sampling_counterexample (enc : ℝ → Word 8) (con : RenderCon) (q : ℤ) (L : ℚ) (cosmo : Cosmology)
    (vals : ℕ → RBox → Finalized) (k : ℕ) (c : BoxConfig) (bytes : List Byte) (h : ImageOf enc con q L cosmo vals k c bytes)
    (ht : con.totalPixels = 0) (hp : con.particles = 0) (hi : 0 < con.imagePixels) (ha : con.autoParticles = true)
    (hL : 0 < L) (hs : 0 < con.subsampleLength) (hc : ∀ j, 0 < widths c j ∧ widths c j ≤ L) :
    ∃ hd b, readGridHeader bytes = .ok hd ∧ BoxOf con q L c b ∧ con.imagePixels ≤ b.cells ∧ 0 < b.pts ∧
      hd.render.totalPixels = 0 ∧ hd.render.particles = 0 := by
  obtain ⟨b, hb, hw⟩ := h
  obtain ⟨cells, pts, con', h1, h2, proj, rfl, -⟩ := boxOf_eq hb
  obtain ⟨hd, e1, -, -, -, e2, -⟩ := C65_header _ _ _ _ _ hw
  have w0 := hc 0
  have w1 := hc 1
  have w2 := hc 2
  change 0 < c.xWidth ∧ c.xWidth ≤ L at w0
  change 0 < c.yWidth ∧ c.yWidth ≤ L at w1
  change 0 < c.zWidth ∧ c.zWidth ≤ L at w2
  obtain ⟨m1, m2, m3, m4⟩ := maxWidth_spec (BoxConfig.con c)
  obtain ⟨n, k1, k2, -⟩ := C102_image con (BoxConfig.con c) L (maxWidth (BoxConfig.con c)) hi m1 ⟨m2, m3, m4⟩
    (lt_of_lt_of_le w0.1 m2) (by rcases m1 with e | e | e <;> rw [e] <;> simp only [BoxConfig.con] <;> linarith)
  rw [h1] at k1
  cases k1
  obtain ⟨n, con'', p1, p2, -, -⟩ := C103_auto con (BoxConfig.con c) L cells con.projectionDepth ha hL hs (by omega)
    ⟨w0.1, w1.1, w2.1⟩ h1
  change particles con (BoxConfig.con c) L = some (n, con'') at p1
  rw [h2] at p1
  cases p1
  refine ⟨hd, _, e1, hb, k2, ?_, ?_, ?_⟩
  · change 0 < pts.toNat
    omega
  · rw [e2]
    change word con.totalPixels = 0
    rw [ht]; rfl
  · rw [e2]
    change word con.particles = 0
    rw [hp]; rfl

example : ∃ bytes, ImageOf (fun _ => 7) ⟨100, 0, 0, 0, 1, true⟩ 0 10 ⟨0, 3 / 10, 7 / 10, 7 / 10⟩
    (fun _ b => .scalar (List.replicate b.len.toNat 1)) 0 ⟨1, 2, 3, 4, 5, 6, [], "b".toList⟩ bytes := by
  obtain ⟨b, hb⟩ := boxOf_exists ⟨100, 0, 0, 0, 1, true⟩ 0 10 ⟨1, 2, 3, 4, 5, 6, [], "b".toList⟩ (by norm_num) (by simp)
    (fun h => by norm_num)
  obtain ⟨bytes, e⟩ := writeBuffer_ok (word 0) (.scalar (List.replicate b.len.toNat 1)) _ _ _ (by simp)
  exact ⟨bytes, b, hb, e⟩

/-! ## Cosmology -/

/-- C117: the cosmology in the header: the parameters of the snapshot, the scale factor that belongs to the redshift, the
width of the box, and densities which in a flat universe have the ratio given by the Friedmann equation. -/
theorem C117_cosmo (enc : ℝ → Word 8) (con : RenderCon) (q : ℤ) (L : ℚ) (cosmo : Cosmology)
    (vals : ℕ → RBox → Finalized) (k : ℕ) (c : BoxConfig) (bytes : List Byte) (h : ImageOf enc con q L cosmo vals k c bytes)
    (hp : Cosmo.Physical (cosmo.h100 * 100) cosmo.omegaM cosmo.omegaL cosmo.z) :
    ∃ (hd : GridHeader) (a m r : ℝ), readGridHeader bytes = .ok hd ∧ hd.cosmo.redshift = enc cosmo.z ∧
      hd.cosmo.omegaM = enc cosmo.omegaM ∧ hd.cosmo.omegaL = enc cosmo.omegaL ∧ hd.cosmo.hubble = enc (cosmo.h100 * 100) ∧
      hd.cosmo.boxWidth = enc L ∧ hd.cosmo.scaleFactor = enc a ∧ a * (1 + cosmo.z) = 1 ∧
      hd.cosmo.rhoMean = enc m ∧ hd.cosmo.rhoCritical = enc r ∧ 0 < r ∧
      (cosmo.omegaM + cosmo.omegaL = 1 →
        m * (cosmo.omegaM * (1 + cosmo.z) ^ 3 + cosmo.omegaL) = r * (cosmo.omegaM * (1 + cosmo.z) ^ 3)) := by
  obtain ⟨b, hb, hw⟩ := h
  obtain ⟨hd, e1, -, -, e2, -, -⟩ := C65_header _ _ _ _ _ hw
  refine ⟨hd, 1 / (1 + cosmo.z), Cosmo.rhoAverage (cosmo.h100 * 100) cosmo.omegaM cosmo.omegaL cosmo.z,
    Cosmo.rhoCritical (cosmo.h100 * 100) cosmo.omegaM cosmo.omegaL cosmo.z, e1, by rw [e2]; rfl, by rw [e2]; rfl,
    by rw [e2]; rfl, by rw [e2]; rfl, by rw [e2]; rfl, by rw [e2]; rfl, ?_, by rw [e2]; rfl, by rw [e2]; rfl,
    (Cosmo.C87_critical _ _ _ _ hp).1, fun flat => ?_⟩
  · have := hp.z
    exact one_div_mul_cancel (by linarith)
  · have h1 := (Cosmo.C87_ratio _ _ _ _ hp flat).1
    rwa [Cosmo.hubbleFrac, Real.sq_sqrt (Cosmo.radicand_pos hp).le] at h1

example : Cosmo.Physical (7 / 10 * 100) (3 / 10) (7 / 10) 0 := by constructor <;> norm_num

/-! ## Suggested depth -/

theorem projectionDepth_le {particles pixels skip d : ℤ} (hp : 0 < particles) (hs : 0 < skip) :
    projectionDepth particles pixels skip ≤ d ↔ 4 * rule pixels 1 1 ≤ particles * (d * (skip : ℚ) ^ 3) := by
  unfold projectionDepth rule
  have h1 : (0 : ℚ) < particles := by exact_mod_cast hp
  have h2 : (0 : ℚ) < (skip : ℚ) ^ 3 := by
    have : (0 : ℚ) < skip := by exact_mod_cast hs
    positivity
  rw [Int.ceil_le, div_le_iff₀ h2, div_mul_eq_mul_div, div_le_iff₀ h1]
  constructor <;> intro h
  · calc _ = 20000 * ((pixels : ℚ) / 5000) ^ 3 := by push_cast; ring
      _ ≤ _ := h
      _ = _ := by ring
  · calc _ = 4 * (5 * ((pixels : ℚ) / 500) ^ 3 * ((1 : ℤ) : ℚ) ^ 3 / ((1 : ℤ) : ℚ)) := by push_cast; ring
      _ ≤ _ := h
      _ = _ := by ring

/-- C122: without subsampling, the depth that the header of an image suggests is the least number of layers for which an image
made with that depth needs, by the rule of the automatic particle count, at most a quarter of the particles the image was made
with. The wanted statement has any subsampling. -/
theorem C122_depth_partial {particles pixels : ℤ} (hp : 0 < particles) (hx : 0 < pixels) (axis : List Char) :
    ∃ d : ℤ, (newRenderInfo particles pixels 1 axis).minProjectionDepth = word d ∧ 0 < d ∧
      4 * rule pixels 1 d ≤ particles ∧ ∀ d' : ℤ, 0 < d' → 4 * rule pixels 1 d' ≤ particles → d ≤ d' := by
  have hr : (0 : ℚ) < rule pixels 1 1 := by
    have : (0 : ℚ) < pixels := by exact_mod_cast hx
    unfold rule
    positivity
  have h1 : (0 : ℚ) < particles := by exact_mod_cast hp
  have key : ∀ d : ℤ, 0 < d → (4 * rule pixels 1 d ≤ particles ↔ projectionDepth particles pixels 1 ≤ d) := by
    intro d hd
    have hdq : (0 : ℚ) < d := by exact_mod_cast hd
    have e : rule pixels 1 d = rule pixels 1 1 / d := by unfold rule; push_cast; ring
    rw [projectionDepth_le hp one_pos, e, ← mul_div_assoc, div_le_iff₀ hdq]
    simp
  have hpos : 0 < projectionDepth particles pixels 1 := by
    by_contra h
    have := (projectionDepth_le (particles := particles) (pixels := pixels) (d := 0) hp one_pos).mp (by omega)
    simp at this
    linarith
  exact ⟨_, rfl, hpos, (key _ hpos).mpr le_rfl, fun d' h h' => (key d' h).mp h'⟩

example : ∃ d : ℤ, (newRenderInfo 20 5000 1 []).minProjectionDepth = word d ∧ 0 < d :=
  let ⟨d, h, h', _⟩ := C122_depth_partial (particles := 20) (pixels := 5000) (by norm_num) (by norm_num) []
  ⟨d, h, h'⟩

/-- C122: with subsampling the suggestion gets smaller although more particles are needed. With a subsampling length of 2, 160
pixels and one particle, one layer is suggested for which the rule asks for two particles. -/
theorem C122_depth_counterexample : (newRenderInfo 1 160 2 []).minProjectionDepth = word 1 ∧
    (1 : ℚ) < rule 160 2 1 := by
  constructor
  · decide +kernel
  · norm_num [rule]

end Verif.Main
