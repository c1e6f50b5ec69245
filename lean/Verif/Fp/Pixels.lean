import Verif.Fp.PixelsModel
import Verif.Fp.Scale
import Verif.Fp.Sum
import Verif.Render.Boxes

/-! # C130: the pixels of an image in machine arithmetic -/

set_option autoImplicit false

namespace Verif.Fp

open Verif.Go Verif.Geom Verif.Render

/-- Division of a rounded number by a rounded number, rounded. -/
theorem quot_rel {a a' d cw : ℚ} (ha : 0 ≤ a) (ha' : |a' - a| ≤ a / 2 ^ 53) (hd : 0 < d) (hcw : |cw - d| ≤ d / 2 ^ 53) :
    |f64 (a' / cw) - a / d| ≤ a / d / 2 ^ 51 := by
  obtain ⟨a1, a2⟩ := abs_le.mp ha'
  obtain ⟨c1, c2⟩ := abs_le.mp hcw
  have hcl : d * (1 - 1 / 2 ^ 53) ≤ cw := by linarith
  have hch : cw ≤ d * (1 + 1 / 2 ^ 53) := by linarith
  have hal : a * (1 - 1 / 2 ^ 53) ≤ a' := by linarith
  have hah : a' ≤ a * (1 + 1 / 2 ^ 53) := by linarith
  have hcw0 : 0 < cw := lt_of_lt_of_le (mul_pos hd (by norm_num)) hcl
  have ha0 : 0 ≤ a' := le_trans (mul_nonneg ha (by norm_num)) hal
  have q0 : 0 ≤ a' / cw := div_nonneg ha0 hcw0.le
  have hq : 0 ≤ a / d := div_nonneg ha hd.le
  have qh : a' / cw ≤ a / d * ((1 + 1 / 2 ^ 53) / (1 - 1 / 2 ^ 53)) := by
    rw [div_le_iff₀ hcw0]
    calc a' ≤ a * (1 + 1 / 2 ^ 53) := hah
      _ = a / d * ((1 + 1 / 2 ^ 53) / (1 - 1 / 2 ^ 53)) * (d * (1 - 1 / 2 ^ 53)) := by field_simp
      _ ≤ _ := mul_le_mul_of_nonneg_left hcl (mul_nonneg hq (by norm_num))
  have ql : a / d * ((1 - 1 / 2 ^ 53) / (1 + 1 / 2 ^ 53)) ≤ a' / cw := by
    rw [le_div_iff₀ hcw0]
    calc _ ≤ a / d * ((1 - 1 / 2 ^ 53) / (1 + 1 / 2 ^ 53)) * (d * (1 + 1 / 2 ^ 53)) :=
          mul_le_mul_of_nonneg_left hch (mul_nonneg hq (by norm_num))
      _ = a * (1 - 1 / 2 ^ 53) := by field_simp
      _ ≤ a' := hal
  have d2 := f64_err (a' / cw)
  rw [abs_of_nonneg q0] at d2
  obtain ⟨f1, f2⟩ := abs_le.mp d2
  generalize f64 (a' / cw) = v at *
  generalize a' / cw = q at *
  generalize a / d = t at *
  have h1 : t * ((1 + 1 / 2 ^ 53) / (1 - 1 / 2 ^ 53)) * (1 + 1 / 2 ^ 53) ≤ t * (1 + 4 / 2 ^ 53) := by
    rw [mul_assoc]
    exact mul_le_mul_of_nonneg_left (by norm_num) hq
  have h2 : t * (1 - 4 / 2 ^ 53) ≤ t * ((1 - 1 / 2 ^ 53) / (1 + 1 / 2 ^ 53)) * (1 - 1 / 2 ^ 53) := by
    rw [mul_assoc]
    exact mul_le_mul_of_nonneg_left (by norm_num) hq
  have h3 := mul_le_mul_of_nonneg_right qh (by norm_num : (0 : ℚ) ≤ 1 + 1 / 2 ^ 53)
  have h4 := mul_le_mul_of_nonneg_right ql (by norm_num : (0 : ℚ) ≤ 1 - 1 / 2 ^ 53)
  rw [abs_le]
  constructor <;> linarith

theorem cellWidth_rel {L : ℚ} {C : ℤ} (hL : 0 < L) (hC : 0 < C) (hC' : C ≤ 2 ^ 53) :
    0 < L / C ∧ |f64 (L / f64 C) - L / C| ≤ L / C / 2 ^ 53 := by
  have hc : (0 : ℚ) < C := by exact_mod_cast hC
  have h0 : 0 < L / C := div_pos hL hc
  rw [f64_of (f64_int (abs_le.mpr ⟨by linarith, hC'⟩))]
  have := f64_err (L / C)
  rw [abs_of_pos h0] at this
  exact ⟨h0, this⟩

/-- Both edges of a region in cells. -/
theorem edges {L o w : ℚ} {C : ℤ} (hL : 0 < L) (hC : 0 < C) (hC' : C ≤ 2 ^ 53) (h0 : 0 ≤ o) (w0 : 0 ≤ w) :
    |f64 (o / f64 (L / f64 C)) - o / (L / C)| ≤ o / (L / C) / 2 ^ 51 ∧
      |f64 (f64 (w + o) / f64 (L / f64 C)) - (w + o) / (L / C)| ≤ (w + o) / (L / C) / 2 ^ 51 := by
  obtain ⟨d0, hd⟩ := cellWidth_rel hL hC hC'
  refine ⟨quot_rel h0 (by rw [sub_self, abs_zero]; positivity) d0 hd, quot_rel (by positivity) ?_ d0 hd⟩
  have := f64_err (w + o)
  rwa [abs_of_nonneg (by positivity : 0 ≤ w + o)] at this

theorem floor_same {x y e : ℚ} (h : |x - y| ≤ e) (off : ∀ z : ℤ, e < |y - z|) : ⌊x⌋ = ⌊y⌋ := by
  obtain ⟨h1, h2⟩ := abs_le.mp h
  have a := Int.floor_le y
  have b := Int.lt_floor_add_one y
  have o1 := off ⌊y⌋
  have o2 := off (⌊y⌋ + 1)
  rw [abs_of_nonneg (by linarith)] at o1
  rw [abs_sub_comm, abs_of_nonneg (by push_cast; linarith)] at o2
  push_cast at o2
  rw [Int.floor_eq_iff]
  constructor <;> linarith

/-- **C130**: the first and the last pixel of an image, for every region whose origin is not negative. There is at least
one pixel along each axis. The edges of the region lie in the first and the last cell up to a relative error of
`2 ^ -51`, and the cells are those of exact arithmetic when both edges are farther than that from faces of cells. -/
theorem C130_partial {L o w : ℚ} {C : ℤ} (hL : 0 < L) (hC : 0 < C) (hC' : C ≤ 2 ^ 53) (ho : F64 o) (h0 : 0 ≤ o)
    (w0 : 0 ≤ w) :
    let b := boxAxis64 L C o w
    let q := o / (L / C)
    let r := (w + o) / (L / C)
    0 ≤ b.1 ∧ 1 ≤ b.2 ∧
    (b.1 ≤ q + q / 2 ^ 51 ∧ q - q / 2 ^ 51 < b.1 + 1) ∧
    (((b.1 + b.2 - 1 : ℤ) : ℚ) ≤ r + r / 2 ^ 51 ∧ r - r / 2 ^ 51 < b.1 + b.2) ∧
    ((o = 0 ∨ ∀ z : ℤ, q / 2 ^ 51 < |q - z|) → (∀ z : ℤ, r / 2 ^ 51 < |r - z|) → b = boxAxis (L / C) o w) := by
  intro b q r
  obtain ⟨e1, e2⟩ : |f64 (o / f64 (L / f64 C)) - q| ≤ q / 2 ^ 51 ∧
    |f64 (f64 (w + o) / f64 (L / f64 C)) - r| ≤ r / 2 ^ 51 := edges hL hC hC' h0 w0
  obtain ⟨d0, hd⟩ := cellWidth_rel hL hC hC'
  have hcw : 0 ≤ f64 (L / f64 C) := by
    rw [f64_of (f64_int (abs_le.mpr ⟨by linarith, hC'⟩))]
    exact f64_nonneg d0.le
  have hmono : f64 (o / f64 (L / f64 C)) ≤ f64 (f64 (w + o) / f64 (L / f64 C)) := by
    apply f64_mono
    apply div_le_div_of_nonneg_right _ hcw
    exact le_f64 ho (by linarith)
  have hfl := Int.floor_le_floor hmono
  have hn : 0 ≤ f64 (o / f64 (L / f64 C)) := f64_nonneg (div_nonneg h0 hcw)
  have b1 : b.1 = ⌊f64 (o / f64 (L / f64 C))⌋ := rfl
  have b2 : b.2 = 1 + ⌊f64 (f64 (w + o) / f64 (L / f64 C))⌋ - ⌊f64 (o / f64 (L / f64 C))⌋ := rfl
  have x1 := Int.floor_le (f64 (o / f64 (L / f64 C)))
  have x2 := Int.lt_floor_add_one (f64 (o / f64 (L / f64 C)))
  have y1 := Int.floor_le (f64 (f64 (w + o) / f64 (L / f64 C)))
  have y2 := Int.lt_floor_add_one (f64 (f64 (w + o) / f64 (L / f64 C)))
  obtain ⟨a1, a2⟩ := abs_le.mp e1
  obtain ⟨c1, c2⟩ := abs_le.mp e2
  refine ⟨by rw [b1]; exact Int.floor_nonneg.mpr hn, by omega, ⟨by rw [b1]; linarith, by rw [b1]; linarith⟩,
    ⟨?_, ?_⟩, fun hq hr => ?_⟩
  · rw [b1, b2]; push_cast; linarith
  · rw [b1, b2]; push_cast; linarith
  · have f1 : ⌊f64 (o / f64 (L / f64 C))⌋ = ⌊o / (L / C)⌋ := by
      rcases hq with rfl | hq
      · rw [zero_div, zero_div, f64_zero]
      · exact floor_same e1 hq
    have f2 := floor_same e2 hr
    change (_, _) = (_, _)
    rw [f1, f2]

/-- A region of 5.3 by 2.9 in a box of 100 with 40 cells: cells 2 and 3, as in exact arithmetic. -/
example : boxAxis64 100 40 (f64 5.3) (f64 2.9) = boxAxis (100 / 40) (f64 5.3) (f64 2.9) := by
  refine (C130_partial (L := 100) (C := 40) (by norm_num) (by norm_num) (by norm_num) (f64_rep _) (f64_nonneg (by norm_num))
    (f64_nonneg (by norm_num))).2.2.2.2 (Or.inr ?_) ?_
  all_goals
    have a : |f64 5.3 - 5.3| ≤ |5.3| / 2 ^ 53 := f64_err _
    have b : |f64 2.9 - 2.9| ≤ |2.9| / 2 ^ 53 := f64_err _
    rw [abs_le, abs_of_pos (by norm_num)] at a b
    obtain ⟨a1, a2⟩ := a
    obtain ⟨b1, b2⟩ := b
    generalize f64 5.3 = x at *
    generalize f64 2.9 = y at *
    norm_num at a1 a2 b1 b2 ⊢
    intro z
    rw [lt_abs]
    rcases le_or_gt z 2 with hz | hz
    · have : (z : ℚ) ≤ 2 := by exact_mod_cast hz
      first
        | (left; linarith)
        | (rcases le_or_gt z 3 with hz | hz <;> left <;> linarith)
    · rcases le_or_gt z 3 with hz3 | hz3
      · have h1 : (z : ℚ) ≤ 3 := by exact_mod_cast hz3
        have h2 : (3 : ℚ) ≤ z := by exact_mod_cast hz
        first
          | (left; linarith)
          | (right; linarith)
      · have h2 : (4 : ℚ) ≤ z := by exact_mod_cast hz3
        right
        linarith

/-- **C130**: the same for the pixels of a new box, whose edges may differ from axis to axis. -/
theorem C130_box_partial {L : ℚ} {C : ℤ} (hL : 0 < L) (hC : 0 < C) (hC' : C ≤ 2 ^ 53) (o w : Vec)
    (ho : ∀ j, F64 (o j) ∧ 0 ≤ o j) (hw : ∀ j, 0 ≤ w j) (j : Fin 3) :
    let cb := newBoxBounds64 L C o w
    let q := o j / (L / C)
    let r := (w j + o j) / (L / C)
    0 ≤ cb.origin j ∧ 1 ≤ cb.width j ∧
    (cb.origin j ≤ q + q / 2 ^ 51 ∧ q - q / 2 ^ 51 < cb.origin j + 1) ∧
    (((cb.origin j + cb.width j - 1 : ℤ) : ℚ) ≤ r + r / 2 ^ 51 ∧ r - r / 2 ^ 51 < cb.origin j + cb.width j) ∧
    ((o j = 0 ∨ ∀ z : ℤ, q / 2 ^ 51 < |q - z|) → (∀ z : ℤ, r / 2 ^ 51 < |r - z|) →
      cb.origin j = (newBoxBounds L C o w).origin j ∧ cb.width j = (newBoxBounds L C o w).width j) := by
  obtain ⟨h1, h2, h3, h4, h5⟩ := C130_partial hL hC hC' (ho j).1 (ho j).2 (hw j)
  exact ⟨h1, h2, h3, h4, fun a b => Prod.ext_iff.mp (h5 a b)⟩

/-- An image of one by two by three cells. -/
example : (∀ j, F64 ((![0, 1, 0] : Vec) j) ∧ 0 ≤ (![0, 1, 0] : Vec) j) ∧ (∀ j, 0 ≤ (![1/2, 1, 5/2] : Vec) j) ∧
    (newBoxBounds64 8 8 ![0, 1, 0] ![1/2, 1, 5/2]).width = ![1, 2, 3] := by
  have h : ∀ j, f64 ((![0, 1, 0] : Vec) j) = (![0, 1, 0] : Vec) j := by decide +kernel
  refine ⟨fun j => ⟨h j ▸ f64_rep _, ?_⟩, by decide +kernel, by decide +kernel⟩
  revert j
  decide +kernel

/-- **C130**: an image of the whole box, wherever it starts, is at least as wide as the box: none of the cells of the box
is lost to rounding. It has at most two pixels more than cells, at most one if it starts at zero. -/
theorem C130_whole {L o : ℚ} {C : ℤ} (hL : 0 < L) (hC : 0 < C) (hC' : C ≤ 2 ^ 48) (ho : F64 o) (h0 : 0 ≤ o) (h1 : o < L) :
    let b := boxAxis64 L C o L
    0 ≤ b.1 ∧ b.1 ≤ C ∧ C ≤ b.2 ∧ b.2 ≤ C + 2 ∧ (o = 0 → b.1 = 0 ∧ b.2 ≤ C + 1) := by
  intro b
  have hc : (0 : ℚ) < C := by exact_mod_cast hC
  have hcq : (C : ℚ) ≤ 2 ^ 48 := by exact_mod_cast hC'
  have d0 : 0 < L / C := div_pos hL hc
  obtain ⟨n0, n1, ⟨p1, p2⟩, ⟨r1, r2⟩, -⟩ := C130_partial (w := L) hL hC (hC'.trans (by norm_num)) ho h0 hL.le
  change 0 ≤ b.1 at n0
  change (b.1 : ℚ) ≤ _ at p1
  change _ < (b.1 : ℚ) + 1 at p2
  change ((b.1 + b.2 - 1 : ℤ) : ℚ) ≤ _ at r1
  change _ < (b.1 : ℚ) + b.2 at r2
  have e : (L + o) / (L / C) = C + o / (L / C) := by field_simp
  rw [e] at r1 r2
  have q0 : 0 ≤ o / (L / C) := by positivity
  have q1 : o / (L / C) < C := by
    rw [div_lt_iff₀ d0]
    calc o < L := h1
      _ = C * (L / C) := by field_simp
  have z1 : o = 0 → o / (L / C) = 0 := by rintro rfl; exact zero_div _
  generalize o / (L / C) = q at *
  push_cast at r1
  have k1 : (b.1 : ℚ) < C + 1 := by linarith
  have k2 : (C : ℚ) - 1 < b.2 := by linarith
  have k3 : (b.2 : ℚ) < C + 3 := by linarith
  refine ⟨n0, ?_, ?_, ?_, fun ho => ?_⟩
  · have : b.1 < C + 1 := by exact_mod_cast k1
    omega
  · have : C - 1 < b.2 := by exact_mod_cast k2
    omega
  · have : b.2 < C + 3 := by exact_mod_cast k3
    omega
  · have hq := z1 ho
    rw [hq] at p1 r1
    have m1 : (b.1 : ℚ) < 1 := by linarith
    have m2 : b.1 < 1 := by exact_mod_cast m1
    have m3 : b.1 = 0 := by omega
    refine ⟨m3, ?_⟩
    rw [m3] at r1
    have m4 : (b.2 : ℚ) < C + 2 := by push_cast at r1; linarith
    have : b.2 < C + 2 := by exact_mod_cast m4
    omega

/-- Both numbers of pixels occur for an image of the whole box from zero on, and two pixels more than cells occur too. -/
example : boxAxis64 1 92 0 1 = (0, 93) ∧ boxAxis64 1 93 0 1 = (0, 93) ∧ boxAxis64 1 5 (f64 (3 / 5)) 1 = (2, 7) := by
  decide +kernel

/-- **C130**: the densities in an image of the whole box add up to the number of cells of the box within the rounding error
of summation, also when the pixels are computed with rounding. -/
theorem C130_mean (m : ℕ) (L : ℚ) (cells countWidth : ℤ) (hL : 0 < L) (hcells : cells ≤ 2 ^ 48) (origin : Vec)
    (ho : ∀ j, F64 (origin j) ∧ 0 ≤ origin j ∧ origin j < L)
    (ps : List (SegRun R64)) (hps : ∀ p ∈ ps, p.Ok false cells (newBoxBounds64 L cells origin fun _ => L))
    (hfull : Full cells countWidth ps)
    (hval : ∀ p ∈ ps, ∀ w, (p.val w).val = mcPtVal64 p.mc.points p.mc.skip (rendererPtVal64 cells countWidth))
    (grid out : List R64) (hg : (grid.length : ℤ) = boxLen3 (newBoxBounds64 L cells origin fun _ => L))
    (hz : ∀ v ∈ grid, v = 0) (h : Rendered false m ps grid out) :
    |(out.map R64.val).sum - (cells : ℚ) ^ 3| ≤
      (cells : ℚ) ^ 3 * ((1 + 1 / 2 ^ 53) ^ ((ps.map samples).sum + 8) - 1) :=
  C129_mean m cells countWidth _
    (fun j => (C130_whole hL hfull.cells.1 hcells (ho j).1 (ho j).2.1 (ho j).2.2).2.2.1) ps hps hfull hval grid out hg hz h

/-- The segment of one cube in an image of the whole box of two cells, which has three pixels per side. -/
example : let p : SegRun R64 := { exRun64 false with mc := { exMC with dom := newBoxBounds64 1 2 0 fun _ => 1 } }
    p.Ok false 2 (newBoxBounds64 1 2 0 fun _ => 1) ∧ Full 2 1 [p] ∧
      boxLen3 (newBoxBounds64 1 2 0 fun _ => 1) = 27 := by
  intro p
  have h := exRun_ok (M := R64) false false (fun _ => ⟨mcPtVal64 2 1 (rendererPtVal64 2 1)⟩) (fun _ _ _ => rfl)
  have hd : newBoxBounds64 1 2 0 (fun _ => 1) = ⟨fun _ => 0, fun _ => 3⟩ := by
    have e : boxAxis64 1 2 0 1 = (0, 3) := by decide +kernel
    unfold newBoxBounds64
    simp only [Pi.zero_apply, e]
  refine ⟨⟨fun id => ⟨(h.mc id).seg, (h.mc id).skip, (h.mc id).unit, (h.mc id).pick, rfl⟩, rfl, rfl, h.val, h.xs, h.vs,
    fun id => ⟨(h.init id).vec, (h.init id).w⟩, h.zero, fun _ => ?_, fun hf => absurd hf (by decide)⟩,
    by constructor <;> simp [p, exMC], by rw [hd]; rfl⟩
  rw [hd]
  refine ⟨fun j => ?_, fun j => ?_, fun j => ?_, (h.seg rfl).2.2.2⟩ <;> fin_cases j <;> decide

/-- **C130**, pixels that differ from those of exact arithmetic: with 93 cells an image of the whole box has 93 pixels
instead of 94, and a region that starts just below the upper end of a box of 3 cells starts in cell 3, which is not a
cell of the box, and leaves out its first point. -/
theorem C130_counterexample :
    boxAxis64 1 93 0 1 = (0, 93) ∧ boxAxis (1 / 93) 0 1 = (0, 94) ∧
    F64 (1 - 1 / 2 ^ 53) ∧ (boxAxis64 1 3 (1 - 1 / 2 ^ 53) (1 / 2)).1 = 3 ∧
    (boxAxis (1 / 3) (1 - 1 / 2 ^ 53) (1 / 2)).1 = 2 := by
  refine ⟨by decide +kernel, by decide +kernel, ?_, by decide +kernel, by decide +kernel⟩
  exact ⟨2 ^ 53 - 1, -53, by norm_num, by norm_num⟩

end Verif.Fp
