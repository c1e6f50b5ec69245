import Verif.Fp.Machine
import Verif.Fp.ZoomModel
import Verif.Render.McAny

/-!
# Images of part of the box in machine arithmetic: C144

When a segment is larger than the image, the renderer works with buffers that have the shape of the image ("domain" buffers),
and positions are relative to the image: they may be negative, and `modCoord` and `intFloor` round. A run may mix passes of
both kinds.
-/

set_option autoImplicit false

namespace Verif.Fp

open Verif.Go Verif.Geom Verif.Render

/-! ## Specification -/

/-- The cell `g` is, up to the period, that of a point which is `35 / 2 ^ 24` of the box or less away from `x` along each
axis. -/
def CountedNear (cells : ℤ) (g : IVec) (x : Vec) : Prop :=
  ∀ j, ∃ y : ℚ, |y - x j| ≤ 35 * ((cells : ℚ) / 2 ^ 24) ∧ cells ∣ g j - ⌊y⌋

/-- Sum over the samples in an image cell of the values `g` of a pass `p`, when samples are counted in the cells `F p` and have
the velocities `w`. -/
def cellSum {M : Type} [AddCommMonoid M] (F : SegRun R64 → (Fin 4 → Vec) → Vec → IVec) (w : (Fin 4 → Vec) → Vec → Vec)
    (ps : List (SegRun R64)) (g : SegRun R64 → Vec → M) (U : List (ℤ × ℤ × ℤ × Fin 6 → List Vec)) (x y z : ℤ) : M :=
  (List.zipWith (fun p u => cellImage (F p) w p.mc.cells p.mc.buf p.mc.dom p.mc.points.toNat (p.mc.segWidth / p.mc.skip)
    (segCorners p.mc p.xs) (segCorners p.mc p.vs) (g p) u x y z) ps U).sum

/-- What is assumed about a pass over a domain buffer in machine arithmetic. What is assumed about the particles is what
`C144_scaled` derives from the particles in the file. -/
structure Zoom {M : Type} (p : SegRun M) (reqVel : Bool) (cells : ℤ) (dom : CellBounds) : Prop where
  arith : p.mc.arith = machine
  direct : p.direct = true
  seg : 0 ≤ p.mc.segWidth
  skip : 0 < p.mc.skip
  unit : ∀ u ∈ p.mc.unitBufs, (u.length : ℤ) = p.mc.points ∧ ∀ q ∈ u, NearUnit (10 / 2 ^ 24) q
  pick : ∀ id n, 0 ≤ p.pick id n ∧ p.pick id n < p.mc.unitBufs.length
  hcells : p.mc.cells = cells
  hdom : p.mc.dom = dom
  val : reqVel = false → ∀ w w', p.val w = p.val w'
  xs : (p.xs.length : ℤ) = (p.mc.segWidth + 1) * (p.mc.segWidth + 1) * (p.mc.segWidth + 1)
  vs : reqVel = true → (p.vs.length : ℤ) = (p.mc.segWidth + 1) * (p.mc.segWidth + 1) * (p.mc.segWidth + 1)
  init : ∀ id, (p.init id).Ok p.mc reqVel
  buf : p.mc.buf = dom
  width : ∀ j, 0 ≤ dom.width j
  pos : ∀ x ∈ p.xs, ∀ j, F32 (x j) ∧ (((-cells + 1 : ℤ) : ℚ) ≤ x j ∧ x j < ((2 * cells : ℤ) : ℚ)) ∧
    ∀ z : ℤ, 160 * ((cells : ℚ) / 2 ^ 24) < |x j - z|

/-- A pass of either kind. -/
def AnyPass {M : Type} (p : SegRun M) (reqVel : Bool) (cells : ℤ) (dom : CellBounds) : Prop :=
  Machine p reqVel cells dom ∨ Zoom p reqVel cells dom

/-- Where a pass counts a sample: in the cell of the rounded position, or what `modCoord` and `intFloor` make of it. -/
def counted {M : Type} (p : SegRun M) (c : Fin 4 → Vec) (q : Vec) : IVec :=
  if p.direct then p.mc.cellA c q else fun j => ⌊machine.place c q j⌋

/-! ## Cells of samples -/

/-- `intFloor32` gives the cell of a point close by. -/
theorem intFloor32_near {x g : ℚ} (hg : 0 < g) (hx : |x - 1| ≤ 2 ^ 24 * (2 * g)) (hg1 : g ≤ 1) :
    ∃ y, |y - x| ≤ 3 * g ∧ intFloor32 x = ⌊y⌋ := by
  unfold intFloor32
  split_ifs with h
  · exact ⟨x, by rw [sub_self, abs_zero]; positivity, trunc_of_nonneg h.le⟩
  have e := f32_abs hx
  rw [mul_div_cancel_left₀ _ (by norm_num)] at e
  have hle : f32 (x - 1) ≤ -1 := by
    have := rnd_mono (p := 24) (by norm_num) (show x - 1 ≤ -1 by linarith)
    rwa [show rnd 24 (-1) = f32 (-1) from rfl, f32_of (rep_neg F32.one)] at this
  generalize f32 (x - 1) = v at *
  obtain ⟨e1, e2⟩ := abs_le.mp e
  have ht : trunc v = ⌈v⌉ := by
    unfold trunc
    rw [if_neg (by linarith)]
  rw [ht]
  by_cases hv : ∃ n : ℤ, v = n
  · obtain ⟨n, rfl⟩ := hv
    refine ⟨n + 1 - g, ?_, ?_⟩
    · rw [abs_le]; constructor <;> linarith
    · rw [Int.ceil_intCast, eq_comm, Int.floor_eq_iff]
      constructor <;> linarith
  · refine ⟨v + 1, ?_, ?_⟩
    · rw [abs_le]; constructor <;> linarith
    · rw [Int.floor_add_one, Int.ceil_eq_iff]
      push_cast
      refine ⟨?_, by linarith [Int.lt_floor_add_one v]⟩
      have := Int.floor_le v
      rcases this.eq_or_lt with e | e
      · exact absurd ⟨_, e.symm⟩ hv
      · linarith

/-- The cell in which a domain buffer counts a sample at `x`: that of a point close by, up to the period. -/
theorem fixed_cell {mc : MC} {cells : ℤ} {g : ℚ} (hA : mc.arith = machine) (hc : mc.cells = cells) (hcg : (cells : ℚ) = 2 ^ 24 * g)
    (hg : 0 < g) (hg1 : g ≤ 1) (c : Fin 4 → Vec) (x : Vec) (j : Fin 3) (h1 : -(cells : ℚ) < x j) (h2 : x j < 2 * cells) :
    ∃ y, |y - x j| ≤ 3 * g ∧ (mc.arith.floor (mc.fixA c x j) = ⌊y⌋ ∨
      mc.arith.floor (mc.fixA c x j) = ⌊y⌋ + cells ∧ 0 ≤ ⌊y⌋ + cells ∧ ⌊y⌋ + cells ≤ cells) := by
  rw [hA]
  change ∃ y, |y - x j| ≤ 3 * g ∧ (intFloor32 (mc.fixA c x j) = ⌊y⌋ ∨ intFloor32 (mc.fixA c x j) = ⌊y⌋ + cells ∧ _)
  have key : (mc.fixA c x j = x j) ∨ (x j < 0 ∧ mc.fixA c x j = f32 (x j + cells)) := by
    unfold MC.fixA
    split_ifs
    · exact Or.inl rfl
    · dsimp only
      split_ifs with hh
      · simp only [Bool.and_eq_true, decide_eq_true_eq] at hh
        refine Or.inr ⟨hh.2, ?_⟩
        rw [hA, hc]
        change f32 (x j + f32 cells) = _
        rw [f32_cells]
        · have : (0 : ℚ) ≤ cells := by rw [hcg]; positivity
          exact_mod_cast this
        · have : (cells : ℚ) ≤ 2 ^ 24 := by rw [hcg]; linarith
          exact_mod_cast this
      · exact Or.inl rfl
  have hc1 : (1 : ℚ) ≤ cells := by
    have : (0 : ℚ) < cells := by rw [hcg]; positivity
    exact_mod_cast (by exact_mod_cast this : (0 : ℤ) < cells)
  rcases key with e | ⟨hneg, e⟩
  · rw [e]
    obtain ⟨y, hy, ey⟩ := intFloor32_near (x := x j) hg (abs_le.mpr ⟨by linarith, by linarith⟩)
      hg1
    exact ⟨y, hy, Or.inl ey⟩
  · rw [e]
    have hr := f32_abs (x := x j + cells) (B := 2 ^ 24 * g) (abs_le.mpr ⟨by rw [hcg] at h1 ⊢; linarith, by rw [hcg]; linarith⟩)
    rw [mul_div_cancel_left₀ _ (by norm_num)] at hr
    have hp : 0 < f32 (x j + cells) := rnd_pos (by norm_num) (by linarith)
    have hle : f32 (x j + cells) ≤ cells := by
      have h24 : (cells : ℚ) ≤ 2 ^ 24 := by rw [hcg]; linarith
      have h0 : (0 : ℚ) ≤ cells := by rw [hcg]; positivity
      have := rnd_mono (p := 24) (by norm_num) (show x j + cells ≤ cells by linarith)
      rwa [show rnd 24 (cells : ℚ) = f32 cells from rfl, f32_cells (by exact_mod_cast h0) (by exact_mod_cast h24)] at this
    generalize f32 (x j + cells) = v at *
    obtain ⟨e1, e2⟩ := abs_le.mp hr
    refine ⟨v - cells, abs_le.mpr ⟨by linarith, by linarith⟩, Or.inr ?_⟩
    rw [Int.floor_sub_intCast, sub_add_cancel]
    refine ⟨?_, Int.floor_nonneg.mpr hp.le, ?_⟩
    · unfold intFloor32
      rw [if_pos hp, trunc_of_nonneg hp.le]
    · have := (Int.floor_le v).trans hle
      exact_mod_cast this

/-- The cell bounds of a tetrahedron whose corners keep a distance from the faces of the cells are not changed by rounding. -/
theorem cellBounds32_near {c : Fin 4 → Vec} {g : ℚ} (hF : ∀ k j, F32 (c k j))
    (hb : ∀ k j, |c k j| ≤ 2 ^ 24 * g) (hoff : ∀ k j, ∀ z : ℤ, 5 * g < |c k j - z|) :
    cellBounds32 (newTetra (c 0) (c 1) (c 2) (c 3)) 1 = (newTetra (c 0) (c 1) (c 2) (c 3)).cellBounds 1 := by
  have g0 : 0 ≤ g := by have := (abs_nonneg _).trans (hb 0 0); norm_num at this; linarith
  unfold cellBounds32 Tetra.cellBounds
  rw [newTetra_corners]
  have e1 : ∀ j, ⌊f64 ((cornerMinMax c j).1 / 1)⌋ = ⌊(cornerMinMax c j).1 / 1⌋ := fun j => by
    obtain ⟨-, ⟨k, e⟩, -⟩ := cornerMinMax_spec c j
    rw [e, div_one, f64_of (hF k j).f64]
  have e2 : ∀ j, ⌊f64 (f32 (f32 ((cornerMinMax c j).2 - (cornerMinMax c j).1) + (cornerMinMax c j).1) / 1)⌋ =
      ⌊((cornerMinMax c j).2 - (cornerMinMax c j).1 + (cornerMinMax c j).1) / 1⌋ := fun j => by
    obtain ⟨h0, ⟨k, e⟩, l, e'⟩ := cornerMinMax_spec c j
    rw [e, e', div_one, div_one, f64_of (f32_rep _).f64, sub_add_cancel]
    refine floor_off (hoff l j) ?_
    obtain ⟨a1, a2⟩ := abs_le.mp (hb k j)
    obtain ⟨b1, b2⟩ := abs_le.mp (hb l j)
    generalize c k j = a at *
    generalize c l j = b at *
    have d1 := f32_abs (x := b - a) (B := 2 ^ 24 * (2 * g)) (abs_le.mpr ⟨by linarith, by linarith⟩)
    rw [mul_div_cancel_left₀ _ (by norm_num)] at d1
    obtain ⟨d1a, d1b⟩ := abs_le.mp d1
    generalize f32 (b - a) = w at *
    have d2 := f32_abs (x := w + a) (B := 2 ^ 24 * (2 * g)) (abs_le.mpr ⟨by norm_num at *; linarith, by norm_num at *; linarith⟩)
    rw [mul_div_cancel_left₀ _ (by norm_num)] at d2
    obtain ⟨d2a, d2b⟩ := abs_le.mp d2
    rw [abs_le]
    constructor <;> linarith
  simp only [e1, e2]

/-! ## One pass -/

section Pass

variable {M : Type} {p : SegRun M} {reqVel : Bool} {cells : ℤ} {dom : CellBounds}

theorem Zoom.runs (h : Zoom p reqVel cells dom) (id : ℕ) : p.mc.Runs (p.pick id) :=
  ⟨h.seg, h.skip, fun u hu => (h.unit u hu).1, h.pick id, by rw [h.arith]; exact laws_machine⟩

theorem Zoom.corner (h : Zoom p reqVel cells dom) {t : ℤ × ℤ × ℤ × Fin 6}
    (ht : t ∈ tetras (p.mc.segWidth / p.mc.skip)) (k : Fin 4) (j : Fin 3) :
    F32 (segCorners p.mc p.xs t k j) ∧
      (((-cells + 1 : ℤ) : ℚ) ≤ segCorners p.mc p.xs t k j ∧ segCorners p.mc p.xs t k j < ((2 * cells : ℤ) : ℚ)) ∧
      ∀ z : ℤ, 160 * ((cells : ℚ) / 2 ^ 24) < |segCorners p.mc p.xs t k j - z| :=
  h.pos _ (corner_mem h.skip h.xs (mem_tetras.mp ht) _ k) j

/-- There is room between the faces of cells. -/
theorem Zoom.small (h : Zoom p reqVel cells dom) {t : ℤ × ℤ × ℤ × Fin 6} (ht : t ∈ tetras (p.mc.segWidth / p.mc.skip)) :
    320 * ((cells : ℚ) / 2 ^ 24) < 1 := by
  have o := (h.corner ht 0 0).2.2
  generalize segCorners p.mc p.xs t 0 0 = x at o
  have f1 := Int.floor_le x
  have f2 := Int.lt_floor_add_one x
  have o1 := o ⌊x⌋
  have o2 := o (⌊x⌋ + 1)
  push_cast at o2
  rw [abs_of_nonneg (by linarith : (0 : ℚ) ≤ x - ⌊x⌋)] at o1
  rw [abs_of_neg (by linarith : x - (⌊x⌋ + 1) < 0)] at o2
  linarith

/-- The cell of a sample is, up to the period, that of a point `35 / 2 ^ 24` of the box away from the exact place, and inside the
bounds of the tetrahedron. -/
theorem Zoom.sample (h : Zoom p reqVel cells dom) (hc : 0 < cells) {t : ℤ × ℤ × ℤ × Fin 6}
    (ht : t ∈ tetras (p.mc.segWidth / p.mc.skip)) {u : List Vec} (hu : u ∈ p.mc.unitBufs) {q : Vec} (hq : q ∈ u)
    (j : Fin 3) : ∃ y : ℚ, |y - mix (segCorners p.mc p.xs t) q j| ≤ 35 * ((cells : ℚ) / 2 ^ 24) ∧
      cells ∣ p.mc.cellA (segCorners p.mc p.xs t) q j - ⌊y⌋ ∧
      (-cells ≤ p.mc.cellA (segCorners p.mc p.xs t) q j ∧ p.mc.cellA (segCorners p.mc p.xs t) q j < 2 * cells) ∧
      ⌊(cornerMinMax (segCorners p.mc p.xs t) j).1⌋ ≤ ⌊y⌋ ∧ ⌊y⌋ ≤ ⌊(cornerMinMax (segCorners p.mc p.xs t) j).2⌋ := by
  have hC : (0 : ℚ) < cells := by exact_mod_cast hc
  have hsm := h.small ht
  obtain ⟨g, hg⟩ : ∃ g : ℚ, g = (cells : ℚ) / 2 ^ 24 := ⟨_, rfl⟩
  have hcg : (cells : ℚ) = 2 ^ 24 * g := by rw [hg]; ring
  have g0 : 0 < g := by rw [hg]; positivity
  obtain ⟨hm, ⟨k1, e1⟩, k2, e2⟩ := cornerMinMax_spec (segCorners p.mc p.xs t) j
  obtain ⟨-, ⟨a1, a2⟩, a3⟩ := h.corner ht k1 j
  obtain ⟨-, ⟨b1, b2⟩, b3⟩ := h.corner ht k2 j
  obtain ⟨hd, hrg⟩ := machine_places (segCorners p.mc p.xs t) q ((h.unit u hu).2 q hq) j (2 * cells) fun k => by
    obtain ⟨c1, c2⟩ := (h.corner ht k j).2.1
    push_cast at c1 c2
    rw [abs_le]
    constructor <;> linarith
  rw [e1, e2] at hm
  obtain ⟨l1, l2⟩ := hrg _ _ hm
  rw [e1, e2]
  have o1 := a3 (-cells + 1)
  have o2 := b3 (2 * cells)
  push_cast at a1 a2 b1 b2 o1 o2
  rw [abs_of_nonneg (by linarith)] at o1
  rw [abs_of_neg (by linarith)] at o2
  rw [show (2 * (cells : ℚ)) / 2 ^ 20 = 32 * g by rw [hg]; ring] at hd
  rw [← hg] at o1 o2 hsm a3 b3 ⊢
  unfold MC.cellA
  rw [h.arith] at *
  rw [show ∀ x, machine.floor x = p.mc.arith.floor x by rw [h.arith]; exact fun _ => rfl]
  generalize hlo : segCorners p.mc p.xs t k1 j = lo at *
  generalize hhi : segCorners p.mc p.xs t k2 j = hi at *
  have hov : (16 * (2 * (cells : ℚ)) + 40 * (hi - lo)) / 2 ^ 24 ≤ 152 * g := by
    rw [div_le_iff₀ (by norm_num), hcg]
    rw [hcg] at b2 a1
    linarith
  obtain ⟨y, hy, hcase⟩ := fixed_cell h.arith h.hcells hcg g0 (by linarith) (segCorners p.mc p.xs t)
    (machine.place (segCorners p.mc p.xs t) q) j (by linarith) (by linarith)
  obtain ⟨y1, y2⟩ := abs_le.mp hy
  obtain ⟨d1, d2⟩ := abs_le.mp hd
  have f1 := le_floor_off (x := lo) (y := y) (d := 160 * g) (by positivity) a3 (by linarith)
  have f2 := floor_off_le (x := hi) (y := y) (d := 160 * g) (by positivity) b3 (by linarith)
  refine ⟨y, abs_le.mpr ⟨by linarith, by linarith⟩, ?_, ?_, f1, f2⟩
  · rcases hcase with e | ⟨e, -⟩
    · rw [e, sub_self]; exact dvd_zero _
    · rw [e, add_sub_cancel_left]
  · rcases hcase with e | ⟨e, z1, z2⟩
    · rw [e, Int.le_floor, Int.floor_lt]
      push_cast
      constructor <;> linarith
    · rw [e]
      omega

theorem Zoom.skipped (h : Zoom p reqVel cells dom) (hc : 0 < cells) :
    ∀ t ∈ tetras (p.mc.segWidth / p.mc.skip), p.mc.drawnA (segCorners p.mc p.xs t) = false → ∀ u ∈ p.mc.unitBufs,
      ∀ q ∈ u, ¬ ∃ x y z, IsCell p.mc.dom.width x y z ∧ ∀ j, p.mc.cells ∣
        p.mc.cellA (segCorners p.mc p.xs t) q j + p.mc.buf.origin j - ((![x, y, z] : IVec) j + p.mc.dom.origin j) := by
  intro t ht hd u hu q hq
  have hC : (0 : ℚ) < cells := by exact_mod_cast hc
  have hcb := cellBounds32_near (c := segCorners p.mc p.xs t) (g := 2 * ((cells : ℚ) / 2 ^ 24))
    (fun k j => (h.corner ht k j).1)
    (fun k j => by
      obtain ⟨c1, c2⟩ := (h.corner ht k j).2.1
      push_cast at c1 c2
      rw [show (2 : ℚ) ^ 24 * (2 * (cells / 2 ^ 24)) = 2 * cells by ring, abs_le]
      constructor <;> linarith)
    (fun k j z => lt_of_le_of_lt (by
      have : 0 < (cells : ℚ) / 2 ^ 24 := by positivity
      linarith) ((h.corner ht k j).2.2 z))
  have hd' : p.mc.drawn (segCorners p.mc p.xs t) = false := by
    rw [← hd]
    unfold MC.drawn MC.drawnA
    rw [h.arith]
    change _ = (cellBounds32 _ 1).intersect _ _
    rw [hcb]
  choose y _ hdv _ hlo hhi using fun j => h.sample hc ht hu hq j
  have key := skipped_cells p.mc (by rw [h.hcells]; exact hc) _ (fun k j => by
    rw [h.hdom, h.buf, h.hcells, sub_self, zero_sub, zero_add]
    exact (h.corner ht k j).2.1) hd' (fun j => ⌊y j⌋) fun j => by
      simp only [Tetra.cellBounds, newTetra_corners, div_one, sub_add_cancel]
      have := hlo j
      have := hhi j
      omega
  rintro ⟨a, b, c, hcell, hj⟩
  refine key ⟨a, b, c, hcell, fun j => ?_⟩
  have h1 := hdv j
  have h2 := hj j
  rw [h.hcells] at h2 ⊢
  rw [show ⌊y j⌋ + p.mc.buf.origin j - ((![a, b, c] : IVec) j + p.mc.dom.origin j) =
    p.mc.cellA (segCorners p.mc p.xs t) q j + p.mc.buf.origin j - ((![a, b, c] : IVec) j + p.mc.dom.origin j) -
      (p.mc.cellA (segCorners p.mc p.xs t) q j - ⌊y j⌋) by ring]
  exact dvd_sub h2 h1

theorem Zoom.inside (h : Zoom p reqVel cells dom) (hc : 0 < cells) :
    ∀ t ∈ tetras (p.mc.segWidth / p.mc.skip), ∀ u ∈ p.mc.unitBufs, ∀ q ∈ u, ∀ j,
      -p.mc.cells ≤ p.mc.cellA (segCorners p.mc p.xs t) q j ∧
        p.mc.cellA (segCorners p.mc p.xs t) q j < 2 * p.mc.cells := by
  intro t ht u hu q hq j
  obtain ⟨_, _, _, hr, _⟩ := h.sample hc ht hu hq j
  rw [h.hcells]
  exact hr

/-! ## Both kinds of passes -/

theorem Zoom.counted (h : Zoom p reqVel cells dom) : counted p = p.mc.cellA := by
  unfold Fp.counted
  rw [h.direct]
  rfl

theorem Machine.counted (h : Machine p reqVel cells dom) : counted p = fun c q j => ⌊machine.place c q j⌋ := by
  unfold Fp.counted
  rw [h.direct]
  rfl

theorem AnyPass.hcells (h : AnyPass p reqVel cells dom) : p.mc.cells = cells := by
  rcases h with h | h <;> exact h.hcells

theorem AnyPass.val (h : AnyPass p reqVel cells dom) : reqVel = false → ∀ w w', p.val w = p.val w' := by
  rcases h with h | h <;> exact h.val

theorem AnyPass.unit (h : AnyPass p reqVel cells dom) :
    ∀ u ∈ p.mc.unitBufs, (u.length : ℤ) = p.mc.points ∧ ∀ q ∈ u, NearUnit (10 / 2 ^ 24) q := by
  rcases h with h | h <;> exact h.unit

/-- Where samples are counted. -/
theorem AnyPass.near (h : AnyPass p reqVel cells dom) (hc : 0 < cells) : ∀ t ∈ tetras (p.mc.segWidth / p.mc.skip),
    ∀ u ∈ p.mc.unitBufs, ∀ q ∈ u,
      CountedNear cells (counted p (segCorners p.mc p.xs t) q) (mix (segCorners p.mc p.xs t) q) := by
  intro t ht u hu q hq j
  rcases h with h | h
  · refine ⟨machine.place (segCorners p.mc p.xs t) q j, ?_, by rw [h.counted, sub_self]; exact dvd_zero _⟩
    obtain ⟨hd, -⟩ := machine_places (segCorners p.mc p.xs t) q ((h.unit u hu).2 q hq) j cells fun k => by
      have hw : (p.mc.buf.width j : ℚ) ≤ cells := by exact_mod_cast (h.width j).2
      obtain ⟨-, ⟨a1, a2⟩, -⟩ := h.corner ht k j
      rw [abs_le]
      constructor <;> linarith
    have hC : (0 : ℚ) < cells := by exact_mod_cast hc
    rw [show (cells : ℚ) / 2 ^ 20 = 16 * (cells / 2 ^ 24) by ring] at hd
    refine hd.trans ?_
    have : 0 < (cells : ℚ) / 2 ^ 24 := by positivity
    linarith
  · obtain ⟨y, h1, h2, -⟩ := h.sample hc ht hu hq j
    exact ⟨y, h1, by rw [h.counted]; exact h2⟩

variable [AddCommMonoid M]

theorem zoom_draws (h : Zoom p reqVel cells dom) (hc : 0 < cells)
    (hz : ∀ id, (p.init id).cells = List.replicate (bufferSize3 p.mc.buf).toNat 0) (m : ℕ) :
    p.Draws reqVel m cells dom (cellImage (counted p) machine.place p.mc.cells p.mc.buf p.mc.dom p.mc.points.toNat
      (p.mc.segWidth / p.mc.skip) (segCorners p.mc p.xs) (segCorners p.mc p.vs) p.val) := by
  obtain ⟨s', G, U, hU, hrun, hsum⟩ := domain_samples p.mc p.pick h.runs (by rw [h.hcells]; exact hc)
    (by rw [h.buf, h.hdom]) (by rw [h.hdom]; exact h.width) reqVel p.val h.val p.xs p.vs h.xs h.vs (h.inside hc)
    (h.skipped hc) (m + 1) (Nat.succ_pos m) p.init h.init hz
  rw [h.hdom] at hrun
  refine ⟨fun i => s' i.val, fun i => G i.val, U, hU, fun i => ?_, fun i => ?_, fun x y z hcell => ?_⟩
  · have := (hrun i.val i.isLt).1
    rw [mcInterpolate_visits] at this
    have e1 : p.sub = domSub p.mc p.val := by unfold SegRun.sub; rw [h.direct]; rfl
    unfold Render.runOps SegRun.job
    rw [List.foldlM_map, e1, ← this]
    push_cast
    rfl
  · have e2 : p.add = domAdd := by
      funext b g; unfold SegRun.add; rw [h.direct]; rfl
    change Adds _ (p.add _) _
    rw [e2]
    exact (hrun i.val i.isLt).2
  · have := hsum x y z (by rw [h.hdom]; exact hcell)
    rw [h.counted, ← h.arith, ← h.hcells, ← this, h.hdom, Finset.sum_range]

theorem any_draws (h : AnyPass p reqVel cells dom) (hc : 0 < cells)
    (hz : ∀ id, (p.init id).cells = List.replicate (bufferSize3 p.mc.buf).toNat 0) (m : ℕ) :
    p.Draws reqVel m cells dom (cellImage (counted p) machine.place p.mc.cells p.mc.buf p.mc.dom p.mc.points.toNat
      (p.mc.segWidth / p.mc.skip) (segCorners p.mc p.xs) (segCorners p.mc p.vs) p.val) := by
  rcases h with h | h
  · rw [h.counted]
    exact machine_draws h hc hz m
  · exact zoom_draws h hc hz m

theorem any_draws2 {proj : ℤ} (hproj : 0 ≤ proj ∧ proj < 3) (h : AnyPass p reqVel cells dom) (hc : 0 < cells)
    (hz : ∀ id, (p.init id).cells = List.replicate (bufferSize2 p.mc.buf proj).toNat 0) (m : ℕ) :
    p.Draws2 proj reqVel m cells dom (cellColumn (counted p) machine.place p.mc.cells p.mc.buf p.mc.dom proj
      p.mc.points.toNat (p.mc.segWidth / p.mc.skip) (segCorners p.mc p.xs) (segCorners p.mc p.vs) p.val) := by
  rcases h with h | h
  · obtain ⟨s', G, U, hU, hrun, hsum⟩ := segment2_samples p.mc proj hproj p.pick h.runs (by rw [h.hcells]; exact hc)
      (by rw [h.hcells, h.hdom]; exact h.near) (by rw [h.hcells, h.hdom]; exact h.rel) (fun j => (h.width j).1) reqVel p.val
      h.val p.xs p.vs h.xs h.vs (fun x hx j => (h.pos x hx j).2.1.1) (h.inside hc) (h.skipped hc)
      (m + 1) (Nat.succ_pos m) p.init h.init hz
    rw [h.hdom] at hrun
    refine ⟨fun i => s' i.val, fun i => G i.val, U, hU, fun i => ?_, fun i => ?_, fun x y hx hy => ?_⟩
    · have := (hrun i.val i.isLt).1
      rw [mcInterpolate_visits] at this
      have e1 : p.sub2 proj = seg2Sub p.mc proj p.val := by unfold SegRun.sub2; rw [h.direct]; rfl
      unfold Render.runOps SegRun.job2
      rw [List.foldlM_map, e1, ← this]
      push_cast
      rfl
    · have e2 : p.add2 proj = seg2Add p.mc.buf p.mc.dom p.mc.cells proj := by
        funext b g; unfold SegRun.add2; rw [h.direct]; rfl
      change Adds _ (p.add2 proj _) _
      rw [e2, h.hdom]
      exact (hrun i.val i.isLt).2
    · have := hsum x y (by rw [h.hdom]; exact hx) (by rw [h.hdom]; exact hy)
      rw [h.counted, ← h.arith, ← h.hcells, ← this, h.hdom, Finset.sum_range]
  · obtain ⟨s', G, U, hU, hrun, hsum⟩ := domain2_samples p.mc p.pick h.runs (by rw [h.hcells]; exact hc)
      (by rw [h.buf, h.hdom]) (by rw [h.hdom]; exact h.width) reqVel p.val h.val p.xs p.vs h.xs h.vs (h.inside hc)
      (h.skipped hc) (m + 1) (Nat.succ_pos m) p.init h.init proj hproj hz
    rw [h.hdom] at hrun
    refine ⟨fun i => s' i.val, fun i => G i.val, U, hU, fun i => ?_, fun i => ?_, fun x y hx hy => ?_⟩
    · have := (hrun i.val i.isLt).1
      rw [mcInterpolate_visits] at this
      have e1 : p.sub2 proj = dom2Sub p.mc proj p.val := by unfold SegRun.sub2; rw [h.direct]; rfl
      unfold Render.runOps SegRun.job2
      rw [List.foldlM_map, e1, ← this]
      push_cast
      rfl
    · have e2 : p.add2 proj = domAdd := by
        funext b g; unfold SegRun.add2; rw [h.direct]; rfl
      change Adds _ (p.add2 proj _) _
      rw [e2]
      exact (hrun i.val i.isLt).2
    · have := hsum x y (by rw [h.hdom]; exact hx) (by rw [h.hdom]; exact hy)
      rw [h.counted, ← h.arith, ← h.hcells, ← this, h.hdom, Finset.sum_range]

theorem any_gives (h : AnyPass p reqVel cells dom) (hc : 0 < cells) (hwide : ∀ j, cells ≤ dom.width j)
    (hz : ∀ id, (p.init id).cells = List.replicate (bufferSize3 p.mc.buf).toNat 0) (m : ℕ) :
    p.Gives reqVel m dom (placedTotal machine.place p.mc.points.toNat (p.mc.segWidth / p.mc.skip) (segCorners p.mc p.vs)
      p.val) := by
  rcases h with h | h
  · exact machine_gives h hc hwide hz m
  obtain ⟨s', G, U, hU, hrun, hsum⟩ := domain_samples_total p.mc p.pick h.runs (by rw [h.hcells]; exact hc)
    (by rw [h.buf, h.hdom]) reqVel p.val h.val p.xs p.vs h.xs h.vs (h.inside hc)
    (h.skipped hc) (m + 1) (Nat.succ_pos m) p.init h.init (by rw [h.hcells, h.hdom]; exact hwide) hz
  rw [h.hdom] at hrun hsum
  refine ⟨fun i => s' i.val, fun i => G i.val, U, hU, fun i => ?_, fun i => ?_, ?_⟩
  · have := (hrun i.val i.isLt).1
    rw [mcInterpolate_visits] at this
    have e1 : p.sub = domSub p.mc p.val := by unfold SegRun.sub; rw [h.direct]; rfl
    unfold Render.runOps SegRun.job
    rw [List.foldlM_map, e1, ← this]
    push_cast
    rfl
  · have e2 : p.add = domAdd := by
      funext b g; unfold SegRun.add; rw [h.direct]; rfl
    change Adds _ (p.add _) _
    rw [e2]
    exact (hrun i.val i.isLt).2
  · rw [← h.arith, ← hsum]
    exact Finset.sum_congr rfl fun c _ => (Finset.sum_range (fun id => G id c)).symm

theorem any_gives2 {proj : ℤ} (hproj : 0 ≤ proj ∧ proj < 3) (h : AnyPass p reqVel cells dom)
    (hc : 0 < cells) (hwide : ∀ j, cells ≤ dom.width j)
    (hz : ∀ id, (p.init id).cells = List.replicate (bufferSize2 p.mc.buf proj).toNat 0) (m : ℕ) :
    p.Gives2 proj reqVel m dom (placedTotal machine.place p.mc.points.toNat (p.mc.segWidth / p.mc.skip)
      (segCorners p.mc p.vs) p.val) := by
  rcases h with h | h
  · exact machine_gives2 hproj h hc hwide hz m
  obtain ⟨s', G, U, hU, hrun, hsum⟩ := domain2_samples_total p.mc p.pick h.runs (by rw [h.hcells]; exact hc)
    (by rw [h.buf, h.hdom]) reqVel p.val h.val p.xs p.vs h.xs h.vs (h.inside hc)
    (h.skipped hc) (m + 1) (Nat.succ_pos m) p.init h.init proj hproj (by rw [h.hcells, h.hdom]; exact hwide) hz
  rw [h.hdom] at hrun hsum
  refine ⟨fun i => s' i.val, fun i => G i.val, U, hU, fun i => ?_, fun i => ?_, ?_⟩
  · have := (hrun i.val i.isLt).1
    rw [mcInterpolate_visits] at this
    have e1 : p.sub2 proj = dom2Sub p.mc proj p.val := by unfold SegRun.sub2; rw [h.direct]; rfl
    unfold Render.runOps SegRun.job2
    rw [List.foldlM_map, e1, ← this]
    push_cast
    rfl
  · have e2 : p.add2 proj = domAdd := by
      funext b g; unfold SegRun.add2; rw [h.direct]; rfl
    change Adds _ (p.add2 proj _) _
    rw [e2]
    exact (hrun i.val i.isLt).2
  · rw [← h.arith, ← hsum]
    exact Finset.sum_congr rfl fun c _ => (Finset.sum_range (fun id => G id c)).symm

end Pass

/-! ## Images -/

theorem tally_any {p : SegRun R64} {reqVel : Bool} {cells : ℤ} {dom : CellBounds} (h : AnyPass p reqVel cells dom) :
    AnyPass (tally p) reqVel cells dom := by
  rcases h with h | h
  · exact Or.inl (tally_machine h)
  · exact Or.inr ⟨h.arith, h.direct, h.seg, h.skip, h.unit, h.pick, h.hcells, h.hdom, fun hq w w' => by
      change ((p.val w).val, |(p.val w).val|, 1) = ((p.val w').val, |(p.val w').val|, 1)
      rw [h.val hq w w'], h.xs, h.vs, fun id => ⟨(h.init id).vec, (h.init id).w⟩, h.buf, h.width, h.pos⟩

section Maps

variable {M N : Type} [AddCommMonoid M] [AddCommMonoid N] (φ : M →+ N) (g : (Fin 4 → Vec) → Vec → IVec)
  (w : (Fin 4 → Vec) → Vec → Vec) (cells : ℤ) (buf dom : CellBounds) (proj : ℤ) (points : ℕ) (n : ℤ)
  (c cv : ℤ × ℤ × ℤ × Fin 6 → Fin 4 → Vec) (val : Vec → M) (U : ℤ × ℤ × ℤ × Fin 6 → List Vec)

theorem cellImage_map (x y z : ℤ) : φ (cellImage g w cells buf dom points n c cv val U x y z) =
    cellImage g w cells buf dom points n c cv (fun v => φ (val v)) U x y z := by
  unfold cellImage
  rw [map_sum]
  refine Finset.sum_congr rfl fun t _ => ?_
  rw [map_sum]
  refine Finset.sum_congr rfl fun i _ => ?_
  rw [apply_ite φ, map_zero]

theorem cellColumn_map (i j : ℤ) : φ (cellColumn g w cells buf dom proj points n c cv val U i j) =
    cellColumn g w cells buf dom proj points n c cv (fun v => φ (val v)) U i j := by
  unfold cellColumn
  rw [map_sum]
  exact Finset.sum_congr rfl fun k _ => cellImage_map φ _ _ _ _ _ _ _ _ _ _ _ _ _ _

end Maps

/-- The same sum over the voxels behind a pixel. -/
def cellSum2 {M : Type} [AddCommMonoid M] (F : SegRun R64 → (Fin 4 → Vec) → Vec → IVec) (w : (Fin 4 → Vec) → Vec → Vec)
    (proj : ℤ) (ps : List (SegRun R64)) (g : SegRun R64 → Vec → M) (U : List (ℤ × ℤ × ℤ × Fin 6 → List Vec)) (i j : ℤ) : M :=
  (List.zipWith (fun p u => cellColumn (F p) w p.mc.cells p.mc.buf p.mc.dom proj p.mc.points.toNat
    (p.mc.segWidth / p.mc.skip) (segCorners p.mc p.xs) (segCorners p.mc p.vs) (g p) u i j) ps U).sum

theorem cell_tally (F : SegRun R64 → (Fin 4 → Vec) → Vec → IVec) (f : (Fin 4 → Vec) → Vec → Vec) (ps : List (SegRun R64))
    (U : List (ℤ × ℤ × ℤ × Fin 6 → List Vec)) (x y z : ℤ) :
    cellSum F f ps (fun p w => ((p.val w).val, |(p.val w).val|, 1)) U x y z =
      (cellSum F f ps (fun p w => (p.val w).val) U x y z, cellSum F f ps (fun p w => |(p.val w).val|) U x y z,
        cellSum F f ps (fun _ _ => (1 : ℕ)) U x y z) := by
  have key : ∀ {N : Type} [AddCommMonoid N] (φ : ℚ × ℚ × ℕ →+ N),
      φ (cellSum F f ps (fun p w => ((p.val w).val, |(p.val w).val|, 1)) U x y z) =
        cellSum F f ps (fun p w => φ ((p.val w).val, |(p.val w).val|, 1)) U x y z := by
    intro N _ φ
    unfold cellSum
    rw [map_list_sum, List.map_zipWith]
    simp only [cellImage_map]
  exact Prod.ext (key (AddMonoidHom.fst ℚ (ℚ × ℕ))) (Prod.ext
    (key ((AddMonoidHom.fst ℚ ℕ).comp (AddMonoidHom.snd ℚ (ℚ × ℕ))))
    (key ((AddMonoidHom.snd ℚ ℕ).comp (AddMonoidHom.snd ℚ (ℚ × ℕ)))))

theorem column_tally (F : SegRun R64 → (Fin 4 → Vec) → Vec → IVec) (f : (Fin 4 → Vec) → Vec → Vec) (proj : ℤ)
    (ps : List (SegRun R64)) (U : List (ℤ × ℤ × ℤ × Fin 6 → List Vec)) (i j : ℤ) :
    cellSum2 F f proj ps (fun p w => ((p.val w).val, |(p.val w).val|, 1)) U i j =
      (cellSum2 F f proj ps (fun p w => (p.val w).val) U i j, cellSum2 F f proj ps (fun p w => |(p.val w).val|) U i j,
        cellSum2 F f proj ps (fun _ _ => (1 : ℕ)) U i j) := by
  have key : ∀ {N : Type} [AddCommMonoid N] (φ : ℚ × ℚ × ℕ →+ N),
      φ (cellSum2 F f proj ps (fun p w => ((p.val w).val, |(p.val w).val|, 1)) U i j) =
        cellSum2 F f proj ps (fun p w => φ ((p.val w).val, |(p.val w).val|, 1)) U i j := by
    intro N _ φ
    unfold cellSum2
    rw [map_list_sum, List.map_zipWith]
    simp only [cellColumn_map]
  exact Prod.ext (key (AddMonoidHom.fst ℚ (ℚ × ℕ))) (Prod.ext
    (key ((AddMonoidHom.fst ℚ ℕ).comp (AddMonoidHom.snd ℚ (ℚ × ℕ))))
    (key ((AddMonoidHom.snd ℚ ℕ).comp (AddMonoidHom.snd ℚ (ℚ × ℕ)))))

/-- **C144**: rendering a list of segments in machine arithmetic, each with a buffer of its own or, as in images of part of
the box, straight into buffers with the shape of the image. Under every schedule the passes run to the end without a panic;
every sample is counted, up to the period, in the cell of a point `35 / 2 ^ 24` of the box or less away from its exact place;
and the value of an image cell differs from the exact sum of the values of the samples counted there by at most the error of
the sum. -/
theorem C144_image_partial (reqVel : Bool) (m : ℕ) (cells : ℤ) (hc : 0 < cells) (dom : CellBounds)
    (ps : List (SegRun R64)) (hps : ∀ p ∈ ps, AnyPass p reqVel cells dom)
    (h0 : ∀ p ∈ ps, ∀ id, (p.init id).cells = List.replicate (bufferSize3 p.mc.buf).toNat 0)
    (hv : ∀ p ∈ ps, ∀ w, F64 (p.val w).val) :
    ∃ (F : SegRun R64 → (Fin 4 → Vec) → Vec → IVec) (f : (Fin 4 → Vec) → Vec → Vec)
      (U : List (ℤ × ℤ × ℤ × Fin 6 → List Vec)),
      (∀ p ∈ ps, ∀ t ∈ tetras (p.mc.segWidth / p.mc.skip), ∀ u ∈ p.mc.unitBufs, ∀ q ∈ u,
        CountedNear cells (F p (segCorners p.mc p.xs t) q) (mix (segCorners p.mc p.xs t) q)) ∧
      Places f ∧ List.Forall₂ (fun p u => ∀ t, u t ∈ p.mc.unitBufs) ps U ∧
      ∀ grid : List R64, (grid.length : ℤ) = boxLen3 dom → (∀ v ∈ grid, v = 0) →
        (∃ out, Rendered reqVel m ps grid out) ∧
        ∀ out, Rendered reqVel m ps grid out → out.length = grid.length ∧
          ∀ x y z, IsCell dom.width x y z →
            ∃ v, rd out (x + y * dom.width 0 + z * (dom.width 0 * dom.width 1)) = some v ∧
              if x < cells ∧ y < cells ∧ z < cells then
                |v.val - cellSum F f ps (fun p w => (p.val w).val) U x y z| ≤
                  cellSum F f ps (fun p w => |(p.val w).val|) U x y z * sumErr (cellSum F f ps (fun _ _ => 1) U x y z)
              else v.val = 0 := by
  obtain ⟨U, hU, hrun⟩ := image_of_draws (M := ℚ × ℚ × ℕ) reqVel m cells dom (ps.map tally)
    (fun q => cellImage (counted q) machine.place q.mc.cells q.mc.buf q.mc.dom q.mc.points.toNat (q.mc.segWidth / q.mc.skip)
      (segCorners q.mc q.xs) (segCorners q.mc q.vs) q.val)
    (fun q hq => by
      obtain ⟨p, hp, rfl⟩ := List.mem_map.mp hq
      exact any_draws (tally_any (hps p hp)) hc (tally_zero (h0 p hp)) m)
  have hsame : List.Forall₂ (SegRun.Same Sums) ps (ps.map tally) := zero_same (fun p hp i v hvi => by
    rw [h0 p hp i] at hvi
    exact List.eq_of_mem_replicate hvi) hv
  refine ⟨counted, machine.place, U, fun p hp => (hps p hp).near hc, machine_places, ?_, fun grid hg hz => ?_⟩
  · rw [List.forall₂_map_left_iff] at hU
    exact hU
  obtain ⟨⟨out', ho'⟩, hall⟩ := hrun (grid.map fun _ => 0) (by rw [List.length_map]; exact hg)
  constructor
  · obtain ⟨out, ho, _⟩ := Rendered.same (additive_flip sums_add)
      (List.Forall₂.flip (hsame.imp fun _ _ h => same_flip h)) (zero_grid hz).flip ho'
    exact ⟨out, ho⟩
  · intro out ho
    obtain ⟨out'', ho'', hrel⟩ := Rendered.same sums_add hsame (zero_grid hz) ho
    obtain ⟨hlen, hcells⟩ := hall out'' ho''
    refine ⟨by rw [hrel.length_eq, hlen, List.length_map], fun x y z hcell => ?_⟩
    obtain ⟨v0, h1, h2⟩ := hcells x y z hcell
    have hv0 : v0 = 0 := zero_cell h1
    rw [hv0, zero_add] at h2
    dsimp only at h2
    obtain ⟨v, hv1, hv2⟩ := follows_rd hrel.flip _ _ h2
    refine ⟨v, hv1, ?_⟩
    have e := cell_tally counted machine.place ps U x y z
    by_cases hxyz : x < cells ∧ y < cells ∧ z < cells
    · rw [if_pos hxyz]
      rw [if_pos hxyz, List.zipWith_map_left] at hv2
      change Sums v (cellSum counted machine.place ps (fun p w => ((p.val w).val, |(p.val w).val|, 1)) U x y z) at hv2
      rw [e] at hv2
      exact hv2.err
    · rw [if_neg hxyz]
      rw [if_neg hxyz] at hv2
      exact (hv2.none rfl).1

/-- **C145**: the same for projected images, pixel by pixel: a pixel holds the samples counted in the voxels behind it. -/
theorem C145_pixel_partial (proj : ℤ) (hproj : 0 ≤ proj ∧ proj < 3) (reqVel : Bool) (m : ℕ) (cells : ℤ) (hc : 0 < cells)
    (dom : CellBounds) (ps : List (SegRun R64)) (hps : ∀ p ∈ ps, AnyPass p reqVel cells dom)
    (h0 : ∀ p ∈ ps, ∀ id, (p.init id).cells = List.replicate (bufferSize2 p.mc.buf proj).toNat 0)
    (hv : ∀ p ∈ ps, ∀ w, F64 (p.val w).val) :
    ∃ (F : SegRun R64 → (Fin 4 → Vec) → Vec → IVec) (f : (Fin 4 → Vec) → Vec → Vec)
      (U : List (ℤ × ℤ × ℤ × Fin 6 → List Vec)),
      (∀ p ∈ ps, ∀ t ∈ tetras (p.mc.segWidth / p.mc.skip), ∀ u ∈ p.mc.unitBufs, ∀ q ∈ u,
        CountedNear cells (F p (segCorners p.mc p.xs t) q) (mix (segCorners p.mc p.xs t) q)) ∧
      Places f ∧ List.Forall₂ (fun p u => ∀ t, u t ∈ p.mc.unitBufs) ps U ∧
      ∀ grid : List R64, (grid.length : ℤ) = boxLen2 dom proj → (∀ v ∈ grid, v = 0) →
        (∃ out, Rendered2 proj reqVel m ps grid out) ∧
        ∀ out, Rendered2 proj reqVel m ps grid out → out.length = grid.length ∧
          ∀ i j, (0 ≤ i ∧ i < dom.width (projDims proj).1) → (0 ≤ j ∧ j < dom.width (projDims proj).2.1) →
            ∃ v, rd out (i + j * dom.width (projDims proj).1) = some v ∧
              if i < cells ∧ j < cells then
                |v.val - cellSum2 F f proj ps (fun p w => (p.val w).val) U i j| ≤
                  cellSum2 F f proj ps (fun p w => |(p.val w).val|) U i j *
                    sumErr (cellSum2 F f proj ps (fun _ _ => 1) U i j)
              else v.val = 0 := by
  obtain ⟨U, hU, hrun⟩ := image_of_draws2 (M := ℚ × ℚ × ℕ) proj reqVel m cells dom (ps.map tally)
    (fun q => cellColumn (counted q) machine.place q.mc.cells q.mc.buf q.mc.dom proj q.mc.points.toNat
      (q.mc.segWidth / q.mc.skip) (segCorners q.mc q.xs) (segCorners q.mc q.vs) q.val)
    (fun q hq => by
      obtain ⟨p, hp, rfl⟩ := List.mem_map.mp hq
      exact any_draws2 hproj (tally_any (hps p hp)) hc (tally_zero (h0 p hp)) m)
  have hsame : List.Forall₂ (SegRun.Same Sums) ps (ps.map tally) := zero_same (fun p hp i v hvi => by
    rw [h0 p hp i] at hvi
    exact List.eq_of_mem_replicate hvi) hv
  refine ⟨counted, machine.place, U, fun p hp => (hps p hp).near hc, machine_places, ?_, fun grid hg hz => ?_⟩
  · rw [List.forall₂_map_left_iff] at hU
    exact hU
  obtain ⟨⟨out', ho'⟩, hall⟩ := hrun (grid.map fun _ => 0) (by rw [List.length_map]; exact hg)
  constructor
  · obtain ⟨out, ho, _⟩ := Rendered2.same (additive_flip sums_add)
      (List.Forall₂.flip (hsame.imp fun _ _ h => same_flip h)) (zero_grid hz).flip ho'
    exact ⟨out, ho⟩
  · intro out ho
    obtain ⟨out'', ho'', hrel⟩ := Rendered2.same sums_add hsame (zero_grid hz) ho
    obtain ⟨hlen, hcells⟩ := hall out'' ho''
    refine ⟨by rw [hrel.length_eq, hlen, List.length_map], fun i j hi hj => ?_⟩
    obtain ⟨v0, h1, h2⟩ := hcells i j hi hj
    have hv0 : v0 = 0 := zero_cell h1
    rw [hv0, zero_add] at h2
    dsimp only at h2
    obtain ⟨v, hv1, hv2⟩ := follows_rd hrel.flip _ _ h2
    refine ⟨v, hv1, ?_⟩
    have e := column_tally counted machine.place proj ps U i j
    by_cases hij : i < cells ∧ j < cells
    · rw [if_pos hij]
      rw [if_pos hij, List.zipWith_map_left] at hv2
      change Sums v (cellSum2 counted machine.place proj ps (fun p w => ((p.val w).val, |(p.val w).val|, 1)) U i j) at hv2
      rw [e] at hv2
      exact hv2.err
    · rw [if_neg hij]
      rw [if_neg hij] at hv2
      exact (hv2.none rfl).1

/-! ## Densities -/

/-- When exact samples keep a distance from the faces of cells, they are counted in their own cells. -/
theorem cellImage_exact {M : Type} [AddCommMonoid M] {F : (Fin 4 → Vec) → Vec → IVec} {f : (Fin 4 → Vec) → Vec → Vec}
    {reqVel : Bool} {cells : ℤ} {dom : CellBounds} {p : SegRun R64} (h : AnyPass p reqVel cells dom)
    (hF : ∀ t ∈ tetras (p.mc.segWidth / p.mc.skip), ∀ u ∈ p.mc.unitBufs, ∀ q ∈ u,
        CountedNear cells (F (segCorners p.mc p.xs t) q) (mix (segCorners p.mc p.xs t) q))
    (hoff : ∀ t ∈ tetras (p.mc.segWidth / p.mc.skip), ∀ u ∈ p.mc.unitBufs, ∀ q ∈ u, ∀ j, ∀ z : ℤ,
      35 * ((cells : ℚ) / 2 ^ 24) < |mix (segCorners p.mc p.xs t) q j - z|)
    (g : Vec → M) (hg : ∀ w w', g w = g w') {u : ℤ × ℤ × ℤ × Fin 6 → List Vec} (hu : ∀ t, u t ∈ p.mc.unitBufs) (x y z : ℤ) :
    cellImage F f p.mc.cells p.mc.buf p.mc.dom p.mc.points.toNat (p.mc.segWidth / p.mc.skip)
      (segCorners p.mc p.xs) (segCorners p.mc p.vs) g u x y z = (withVal p g).image u x y z := by
  unfold cellImage SegRun.image sampleImage withVal
  refine Finset.sum_congr rfl fun t ht => Finset.sum_congr rfl fun i hi => ?_
  have hm := mem_getD (h.unit _ (hu t)).1 (Finset.mem_range.mp hi)
  refine if_congr (forall_congr' fun j => ?_) (hg _ _) rfl
  obtain ⟨y', h1, h2⟩ := hF t ht _ (hu t) _ hm j
  rw [floor_off (hoff t ht _ (hu t) _ hm j) h1] at h2
  rw [h.hcells]
  dsimp only
  generalize F (segCorners p.mc p.xs t) ((u t).getD i 0) j = a at *
  generalize ⌊mix (segCorners p.mc p.xs t) ((u t).getD i 0) j⌋ = b at *
  generalize (![x, y, z] : IVec) j + p.mc.dom.origin j = c at *
  rw [show a + p.mc.buf.origin j - c = (b + p.mc.buf.origin j - c) + (a - b) by ring]
  exact dvd_add_left h2


theorem cell_exact {M : Type} [AddCommMonoid M] {F : SegRun R64 → (Fin 4 → Vec) → Vec → IVec}
    {f : (Fin 4 → Vec) → Vec → Vec} {reqVel : Bool} {cells : ℤ} {dom : CellBounds} {ps : List (SegRun R64)}
    (hps : ∀ p ∈ ps, AnyPass p reqVel cells dom)
    (hF : ∀ p ∈ ps, ∀ t ∈ tetras (p.mc.segWidth / p.mc.skip), ∀ u ∈ p.mc.unitBufs, ∀ q ∈ u,
        CountedNear cells (F p (segCorners p.mc p.xs t) q) (mix (segCorners p.mc p.xs t) q))
    (hoff : ∀ p ∈ ps, ∀ t ∈ tetras (p.mc.segWidth / p.mc.skip), ∀ u ∈ p.mc.unitBufs, ∀ q ∈ u, ∀ j, ∀ z : ℤ,
      35 * ((cells : ℚ) / 2 ^ 24) < |mix (segCorners p.mc p.xs t) q j - z|)
    (g : SegRun R64 → Vec → M) (hg : ∀ p ∈ ps, ∀ w w', g p w = g p w')
    {U : List (ℤ × ℤ × ℤ × Fin 6 → List Vec)} (hU : List.Forall₂ (fun p u => ∀ t, u t ∈ p.mc.unitBufs) ps U) (proj : ℤ) :
    (∀ x y z, cellSum F f ps g U x y z = (List.zipWith (fun p u => (withVal p (g p)).image u x y z) ps U).sum) ∧
      ∀ i j, cellSum2 F f proj ps g U i j = (List.zipWith (fun p u => (withVal p (g p)).image2 proj u i j) ps U).sum := by
  unfold cellSum cellSum2
  induction hU with
  | nil => exact ⟨fun _ _ _ => rfl, fun _ _ => rfl⟩
  | cons hu hrest ih =>
    rename_i p u ps U
    obtain ⟨ih1, ih2⟩ := ih (fun q hq => hps q (by simp [hq])) (fun q hq => hF q (by simp [hq]))
      (fun q hq => hoff q (by simp [hq])) (fun q hq => hg q (by simp [hq]))
    have key := cellImage_exact (f := f) (hps p (by simp)) (hF p (by simp)) (hoff p (by simp)) (g p) (hg p (by simp)) hu
    constructor
    · intro x y z
      rw [List.zipWith_cons_cons, List.zipWith_cons_cons, List.sum_cons, List.sum_cons, ih1, key]
    · intro i j
      rw [List.zipWith_cons_cons, List.zipWith_cons_cons, List.sum_cons, List.sum_cons, ih2]
      congr 1
      unfold cellColumn
      simp only [key]
      rfl

/-- **C144**: a density image of part of the box, rendered in machine arithmetic, is the exact one of C107 up to the error of
the sums when no exact sample is within `35 / 2 ^ 24` of the box of a face of a cell. -/
theorem C144_density_partial (m : ℕ) (cells : ℤ) (hc : 0 < cells) (dom : CellBounds)
    (ps : List (SegRun R64)) (hps : ∀ p ∈ ps, AnyPass p false cells dom)
    (h0 : ∀ p ∈ ps, ∀ id, (p.init id).cells = List.replicate (bufferSize3 p.mc.buf).toNat 0)
    (hv : ∀ p ∈ ps, ∀ w, F64 (p.val w).val)
    (hoff : ∀ p ∈ ps, ∀ t ∈ tetras (p.mc.segWidth / p.mc.skip), ∀ u ∈ p.mc.unitBufs, ∀ q ∈ u, ∀ j, ∀ z : ℤ,
      35 * ((cells : ℚ) / 2 ^ 24) < |mix (segCorners p.mc p.xs t) q j - z|) :
    ∃ U : List (ℤ × ℤ × ℤ × Fin 6 → List Vec), List.Forall₂ (fun p u => ∀ t, u t ∈ p.mc.unitBufs) ps U ∧
      ∀ grid : List R64, (grid.length : ℤ) = boxLen3 dom → (∀ v ∈ grid, v = 0) →
        (∃ out, Rendered false m ps grid out) ∧
        ∀ out, Rendered false m ps grid out → out.length = grid.length ∧
          ∀ x y z, IsCell dom.width x y z →
            ∃ v, rd out (x + y * dom.width 0 + z * (dom.width 0 * dom.width 1)) = some v ∧
              if x < cells ∧ y < cells ∧ z < cells then
                |v.val - exactImage ps U x y z| ≤ absImage ps U x y z * sumErr (countImage ps U x y z)
              else v.val = 0 := by
  obtain ⟨F, f, U, hF, -, hU, h⟩ := C144_image_partial false m cells hc dom ps hps h0 hv
  refine ⟨U, hU, fun grid hg hz => ⟨(h grid hg hz).1, fun out ho => ?_⟩⟩
  obtain ⟨hl, hcells⟩ := (h grid hg hz).2 out ho
  refine ⟨hl, fun x y z hcell => ?_⟩
  obtain ⟨v, h1, h2⟩ := hcells x y z hcell
  have hval : ∀ p ∈ ps, ∀ w w', p.val w = p.val w' := fun p hp => (hps p hp).val rfl
  rw [(cell_exact hps hF hoff _ (fun p hp w w' => by rw [hval p hp w w']) hU 0).1,
    (cell_exact hps hF hoff _ (fun p hp w w' => by rw [hval p hp w w']) hU 0).1,
    (cell_exact hps hF hoff _ (fun p hp w w' => rfl) hU 0).1] at h2
  exact ⟨v, h1, h2⟩

/-- **C145**: the same for a projected density image, which is the exact one of C111 up to the error of the sums. -/
theorem C145_density_partial (proj : ℤ) (hproj : 0 ≤ proj ∧ proj < 3) (m : ℕ) (cells : ℤ) (hc : 0 < cells) (dom : CellBounds)
    (ps : List (SegRun R64)) (hps : ∀ p ∈ ps, AnyPass p false cells dom)
    (h0 : ∀ p ∈ ps, ∀ id, (p.init id).cells = List.replicate (bufferSize2 p.mc.buf proj).toNat 0)
    (hv : ∀ p ∈ ps, ∀ w, F64 (p.val w).val)
    (hoff : ∀ p ∈ ps, ∀ t ∈ tetras (p.mc.segWidth / p.mc.skip), ∀ u ∈ p.mc.unitBufs, ∀ q ∈ u, ∀ j, ∀ z : ℤ,
      35 * ((cells : ℚ) / 2 ^ 24) < |mix (segCorners p.mc p.xs t) q j - z|) :
    ∃ U : List (ℤ × ℤ × ℤ × Fin 6 → List Vec), List.Forall₂ (fun p u => ∀ t, u t ∈ p.mc.unitBufs) ps U ∧
      ∀ grid : List R64, (grid.length : ℤ) = boxLen2 dom proj → (∀ v ∈ grid, v = 0) →
        (∃ out, Rendered2 proj false m ps grid out) ∧
        ∀ out, Rendered2 proj false m ps grid out → out.length = grid.length ∧
          ∀ i j, (0 ≤ i ∧ i < dom.width (projDims proj).1) → (0 ≤ j ∧ j < dom.width (projDims proj).2.1) →
            ∃ v, rd out (i + j * dom.width (projDims proj).1) = some v ∧
              if i < cells ∧ j < cells then
                |v.val - exactImage2 proj ps U i j| ≤ absImage2 proj ps U i j * sumErr (countImage2 proj ps U i j)
              else v.val = 0 := by
  obtain ⟨F, f, U, hF, -, hU, h⟩ := C145_pixel_partial proj hproj false m cells hc dom ps hps h0 hv
  refine ⟨U, hU, fun grid hg hz => ⟨(h grid hg hz).1, fun out ho => ?_⟩⟩
  obtain ⟨hl, hcells⟩ := (h grid hg hz).2 out ho
  refine ⟨hl, fun i j hi hj => ?_⟩
  obtain ⟨v, h1, h2⟩ := hcells i j hi hj
  have hval : ∀ p ∈ ps, ∀ w w', p.val w = p.val w' := fun p hp => (hps p hp).val rfl
  rw [(cell_exact hps hF hoff _ (fun p hp w w' => by rw [hval p hp w w']) hU proj).2,
    (cell_exact hps hF hoff _ (fun p hp w w' => by rw [hval p hp w w']) hU proj).2,
    (cell_exact hps hF hoff _ (fun p hp w w' => rfl) hU proj).2] at h2
  exact ⟨v, h1, h2⟩

/-! ## The mean density -/

/-- **C144**: with passes of either kind the densities in an image of the whole box add up to the number of cells in the box,
with a relative error below `(1 + 2 ^ -53) ^ (n + 8) - 1`, where `n` is the number of samples. -/
theorem C144_mean (m : ℕ) (cells countWidth : ℤ) (dom : CellBounds) (hd : ∀ j, cells ≤ dom.width j)
    (ps : List (SegRun R64)) (hps : ∀ p ∈ ps, AnyPass p false cells dom)
    (h0 : ∀ p ∈ ps, ∀ id, (p.init id).cells = List.replicate (bufferSize3 p.mc.buf).toNat 0)
    (hfull : Full cells countWidth ps)
    (hval : ∀ p ∈ ps, ∀ w, (p.val w).val = mcPtVal64 p.mc.points p.mc.skip (rendererPtVal64 cells countWidth))
    (grid : List R64) (hg : (grid.length : ℤ) = boxLen3 dom) (hz : ∀ v ∈ grid, v = 0) :
    (∃ out, Rendered false m ps grid out) ∧ ∀ out, Rendered false m ps grid out →
      |(out.map R64.val).sum - (cells : ℚ) ^ 3| ≤
        (cells : ℚ) ^ 3 * ((1 + 1 / 2 ^ 53) ^ ((ps.map samples).sum + 8) - 1) := by
  have hv : ∀ p ∈ ps, ∀ w, F64 (p.val w).val := fun p hp w => by rw [hval p hp w]; exact f64_rep _
  constructor
  · obtain ⟨_, _, _, _, _, _, h⟩ := C144_image_partial false m cells hfull.cells.1 dom ps hps h0 hv
    exact (h grid hg hz).1
  intro out h
  obtain ⟨U, hU, hrun⟩ := total_of_gives (M := ℚ × ℚ × ℕ) false m dom (ps.map tally)
    (fun q => placedTotal machine.place q.mc.points.toNat (q.mc.segWidth / q.mc.skip) (segCorners q.mc q.vs) q.val)
    (fun q hq => by
      obtain ⟨p, hp, rfl⟩ := List.mem_map.mp hq
      exact any_gives (tally_any (hps p hp)) hfull.cells.1 hd (tally_zero (h0 p hp)) m)
  obtain ⟨out', ho', hrel⟩ := Rendered.same sums_add (zero_same (fun p hp i v hvi => by
      rw [h0 p hp i] at hvi
      exact List.eq_of_mem_replicate hvi) hv) (zero_grid hz) h
  obtain ⟨-, hs⟩ := (hrun _ (by rw [List.length_map]; exact hg)).2 out' ho'
  have hl : ps.length = U.length := by rw [← hU.length_eq, List.length_map]
  have hc0 : ∀ p ∈ ps, 0 ≤ mcPtVal64 p.mc.points p.mc.skip (rendererPtVal64 cells countWidth) := fun p hp =>
    ptVal_nonneg (hfull.points p hp).1.le (hfull.skip p hp).1.le
      (rendererPtVal_nonneg hfull.cells.1.le hfull.width.1.le)
  rw [placed_totals hl _ hc0 hval, show (grid.map fun _ => (0 : ℚ × ℚ × ℕ)).sum = 0 by simp, zero_add] at hs
  obtain ⟨-, herr⟩ := sums_sum hrel
  rw [hs] at herr
  obtain ⟨hT, hR⟩ := rel_sum (k := 8) ps (fun p => mcPtVal64 p.mc.points p.mc.skip (rendererPtVal64 cells countWidth))
    (fun p => mcPtVal false p.mc.points p.mc.skip (rendererPtVal false cells countWidth))
    (fun p hp => ptVal_exact_nonneg (hfull.points p hp).1 (hfull.skip p hp).1 hfull.cells.1 hfull.width.1)
    (fun p hp => hfull.rel hp)
  rw [exact_total cells countWidth hfull.width.1 ps (fun p hp => (hfull.skip p hp).1) hfull.seg
    (fun p hp => (hfull.points p hp).1) hfull.dvd hfull.all] at hT hR
  refine mean_core hT ?_ hR herr
  exact List.sum_nonneg fun x hx => by
    obtain ⟨p, hp, rfl⟩ := List.mem_map.mp hx
    exact mul_nonneg (by positivity) (hc0 p hp)

/-- **C145**: the same for a projection through an image of the whole box. -/
theorem C145_mean (proj : ℤ) (hproj : 0 ≤ proj ∧ proj < 3) (m : ℕ) (cells countWidth : ℤ) (dom : CellBounds)
    (hd : ∀ j, cells ≤ dom.width j) (hd' : dom.width (projDims proj).2.2 ≤ 2 ^ 53)
    (ps : List (SegRun R64)) (hps : ∀ p ∈ ps, AnyPass p false cells dom)
    (h0 : ∀ p ∈ ps, ∀ id, (p.init id).cells = List.replicate (bufferSize2 p.mc.buf proj).toNat 0)
    (hfull : Full cells countWidth ps)
    (hval : ∀ p ∈ ps, ∀ w, (p.val w).val =
      projPtVal64 dom proj (mcPtVal64 p.mc.points p.mc.skip (rendererPtVal64 cells countWidth)))
    (grid : List R64) (hg : (grid.length : ℤ) = boxLen2 dom proj) (hz : ∀ v ∈ grid, v = 0) :
    (∃ out, Rendered2 proj false m ps grid out) ∧ ∀ out, Rendered2 proj false m ps grid out →
      |(out.map R64.val).sum - (cells : ℚ) ^ 3 / dom.width (projDims proj).2.2| ≤
        (cells : ℚ) ^ 3 / dom.width (projDims proj).2.2 * ((1 + 1 / 2 ^ 53) ^ ((ps.map samples).sum + 9) - 1) := by
  have hv : ∀ p ∈ ps, ∀ w, F64 (p.val w).val := fun p hp w => by rw [hval p hp w]; exact f64_rep _
  obtain ⟨U, hU, hrun⟩ := total_of_gives2 (M := ℚ × ℚ × ℕ) proj false m dom (ps.map tally)
    (fun q => placedTotal machine.place q.mc.points.toNat (q.mc.segWidth / q.mc.skip) (segCorners q.mc q.vs) q.val)
    (fun q hq => by
      obtain ⟨p, hp, rfl⟩ := List.mem_map.mp hq
      exact any_gives2 hproj (tally_any (hps p hp)) hfull.cells.1 hd (tally_zero (h0 p hp)) m)
  have hsame : List.Forall₂ (SegRun.Same Sums) ps (ps.map tally) := zero_same (fun p hp i v hvi => by
    rw [h0 p hp i] at hvi
    exact List.eq_of_mem_replicate hvi) hv
  have hr := hrun (grid.map fun _ => 0) (by rw [List.length_map]; exact hg)
  constructor
  · obtain ⟨out', ho'⟩ := hr.1
    obtain ⟨out, ho, _⟩ := Rendered2.same (additive_flip sums_add)
      (List.Forall₂.flip (hsame.imp fun _ _ h => same_flip h)) (zero_grid hz).flip ho'
    exact ⟨out, ho⟩
  intro out h
  obtain ⟨out', ho', hrel⟩ := Rendered2.same sums_add hsame (zero_grid hz) h
  obtain ⟨-, hs⟩ := hr.2 out' ho'
  have hl : ps.length = U.length := by rw [← hU.length_eq, List.length_map]
  have hw0 : 0 < dom.width (projDims proj).2.2 := hfull.cells.1.trans_le (hd _)
  have hw : f64 (dom.width (projDims proj).2.2 : ℚ) = dom.width (projDims proj).2.2 :=
    f64_of (f64_int (abs_le.mpr ⟨by linarith, hd'⟩))
  have hwq : (0 : ℚ) < dom.width (projDims proj).2.2 := by exact_mod_cast hw0
  have hc0 : ∀ p ∈ ps, 0 ≤ projPtVal64 dom proj (mcPtVal64 p.mc.points p.mc.skip (rendererPtVal64 cells countWidth)) :=
    fun p hp => by
      unfold projPtVal64
      rw [hw]
      exact f64_nonneg (div_nonneg (ptVal_nonneg (hfull.points p hp).1.le (hfull.skip p hp).1.le
        (rendererPtVal_nonneg hfull.cells.1.le hfull.width.1.le)) hwq.le)
  rw [placed_totals hl _ hc0 hval, show (grid.map fun _ => (0 : ℚ × ℚ × ℕ)).sum = 0 by simp, zero_add] at hs
  obtain ⟨-, herr⟩ := sums_sum hrel
  rw [hs] at herr
  obtain ⟨hT, hR⟩ := rel_sum (k := 9) ps
    (fun p => projPtVal64 dom proj (mcPtVal64 p.mc.points p.mc.skip (rendererPtVal64 cells countWidth)))
    (fun p => mcPtVal false p.mc.points p.mc.skip (rendererPtVal false cells countWidth) / dom.width (projDims proj).2.2)
    (fun p hp => div_nonneg (ptVal_exact_nonneg (hfull.points p hp).1 (hfull.skip p hp).1 hfull.cells.1 hfull.width.1) hwq.le)
    (fun p hp => by
      unfold projPtVal64
      rw [hw]
      exact rel_f64 (rel_div (hfull.rel hp) _))
  have e : (ps.map fun p => (samples p : ℚ) * (mcPtVal false p.mc.points p.mc.skip (rendererPtVal false cells countWidth) /
      dom.width (projDims proj).2.2)).sum = (cells : ℚ) ^ 3 / dom.width (projDims proj).2.2 := by
    rw [← exact_total cells countWidth hfull.width.1 ps (fun p hp => (hfull.skip p hp).1) hfull.seg
      (fun p hp => (hfull.points p hp).1) hfull.dvd hfull.all, div_eq_mul_inv, ← List.sum_map_mul_right]
    simp only [div_eq_mul_inv, mul_assoc]
  rw [e] at hT hR
  refine mean_core hT ?_ hR herr
  exact List.sum_nonneg fun x hx => by
    obtain ⟨p, hp, rfl⟩ := List.mem_map.mp hx
    exact mul_nonneg (by positivity) (hc0 p hp)

/-! ## Examples -/

/-- A segment of one cube whose particles are on both sides of the edge of the image along the first axis. -/
def zoomXs : List Vec := exXs.map fun x j => if j = 0 then x 0 - 1 else x j

/-- The renderer, for a box of `cells` cells. -/
def zoomMC (cells : ℤ) (dom buf : CellBounds) : MC := { exMachineMC with cells := cells, dom := dom, buf := buf }

/-- A pass through a buffer with the shape of the image. -/
def exZoom (cells : ℤ) (dom : CellBounds) (n : ℕ) (val : Vec → R64) : SegRun R64 :=
  ⟨zoomMC cells dom dom, true, zoomXs, exXs, fun id n => ((id + n) % 2 : ℕ),
    fun _ => ⟨newTetra 0 0 0 0, newTetra 0 0 0 0, [0, 0], [0, 0], 0, List.replicate n 0⟩, val⟩

theorem exZoom_ok {cells : ℤ} (hc : 2 ≤ cells) (hc' : cells ≤ 16) {dom : CellBounds} (hw : ∀ j, 0 ≤ dom.width j) (n : ℕ)
    (reqVel : Bool) (val : Vec → R64) (hval : reqVel = false → ∀ w w', val w = val w') :
    Zoom (exZoom cells dom n val) reqVel cells dom where
  arith := rfl
  direct := rfl
  seg := (by decide : 0 ≤ exMachineMC.segWidth)
  skip := (by decide : 0 < exMachineMC.skip)
  unit := (exMachine_ok n reqVel val hval).unit
  pick := (exMachine_ok n reqVel val hval).pick
  hcells := rfl
  hdom := rfl
  val := hval
  xs := rfl
  vs := fun _ => rfl
  init := fun _ => ⟨rfl, fun _ => le_refl (2 : ℤ)⟩
  buf := rfl
  width := hw
  pos := by
    have h : ∀ x ∈ zoomXs, ∀ j, x j = 1 / 4 ∨ x j = 7 / 4 ∨ x j = -3 / 4 ∨ x j = 3 / 4 := by decide +kernel
    have hb : 160 * ((cells : ℚ) / 2 ^ 24) < 1 / 8 := by
      have : (cells : ℚ) ≤ 16 := by exact_mod_cast hc'
      norm_num
      linarith
    have h2 : (2 : ℚ) ≤ cells := by exact_mod_cast hc
    intro x hx j
    push_cast
    rcases h x hx j with e | e | e | e <;> rw [e]
    · refine ⟨⟨1, -2, by norm_num, by norm_num⟩, ⟨by linarith, by linarith⟩, fun z => hb.trans (off_of_floor ?_ ?_ z)⟩ <;>
        rw [show ⌊(1 / 4 : ℚ)⌋ = 0 by decide +kernel] <;> norm_num
    · refine ⟨⟨7, -2, by norm_num, by norm_num⟩, ⟨by linarith, by linarith⟩, fun z => hb.trans (off_of_floor ?_ ?_ z)⟩ <;>
        rw [show ⌊(7 / 4 : ℚ)⌋ = 1 by decide +kernel] <;> norm_num
    · refine ⟨⟨-3, -2, by norm_num, by norm_num⟩, ⟨by linarith, by linarith⟩, fun z => hb.trans (off_of_floor ?_ ?_ z)⟩ <;>
        rw [show ⌊(-3 / 4 : ℚ)⌋ = -1 by decide +kernel] <;> norm_num
    · refine ⟨⟨3, -2, by norm_num, by norm_num⟩, ⟨by linarith, by linarith⟩, fun z => hb.trans (off_of_floor ?_ ?_ z)⟩ <;>
        rw [show ⌊(3 / 4 : ℚ)⌋ = 0 by decide +kernel] <;> norm_num

/-- An eighth of the box, off the origin. -/
def zoomDom : CellBounds := ⟨![1, 0, 0], ![2, 2, 2]⟩

/-- A pass over another segment through a buffer of its own, for that image. -/
def exZoomSeg (n : ℕ) (val : Vec → R64) : SegRun R64 :=
  ⟨zoomMC 4 zoomDom ⟨![0, 0, 0], ![2, 2, 2]⟩, false, exXs, exXs, fun id n => ((id + n) % 2 : ℕ),
    fun _ => ⟨newTetra 0 0 0 0, newTetra 0 0 0 0, [0, 0], [0, 0], 0, List.replicate n 0⟩, val⟩

theorem exZoomSeg_ok (n : ℕ) (reqVel : Bool) (val : Vec → R64) (hval : reqVel = false → ∀ w w', val w = val w') :
    Machine (exZoomSeg n val) reqVel 4 zoomDom where
  arith := rfl
  direct := rfl
  seg := (by decide : 0 ≤ exMachineMC.segWidth)
  skip := (by decide : 0 < exMachineMC.skip)
  unit := (exMachine_ok n reqVel val hval).unit
  pick := (exMachine_ok n reqVel val hval).pick
  hcells := rfl
  hdom := rfl
  val := hval
  xs := rfl
  vs := fun _ => rfl
  init := fun _ => ⟨rfl, fun _ => le_refl (2 : ℤ)⟩
  near := by change Near 4 ⟨![0, 0, 0], ![2, 2, 2]⟩ zoomDom; intro j; fin_cases j <;> decide
  rel := by
    change ∀ j, -4 < zoomDom.origin j - (![0, 0, 0] : IVec) j ∧ zoomDom.origin j - (![0, 0, 0] : IVec) j < 4
    intro j; fin_cases j <;> decide
  width := by
    change ∀ j, 0 ≤ (![2, 2, 2] : IVec) j ∧ (![2, 2, 2] : IVec) j ≤ 4
    intro j; fin_cases j <;> decide
  pos := by
    intro x hx j
    obtain ⟨h1, h2, h3⟩ := (exMachine_ok n reqVel val hval).pos x hx j
    refine ⟨h1, h2, ?_⟩
    have h : ∀ x ∈ exXs, ∀ j, x j = 1 / 4 ∨ x j = 7 / 4 := by decide +kernel
    intro z
    rcases h x hx j with e | e <;> rw [e] <;> revert z
    · exact off_of_floor (by rw [show ⌊(1 / 4 : ℚ)⌋ = 0 by decide +kernel]; norm_num)
        (by rw [show ⌊(1 / 4 : ℚ)⌋ = 0 by decide +kernel]; norm_num)
    · exact off_of_floor (by rw [show ⌊(7 / 4 : ℚ)⌋ = 1 by decide +kernel]; norm_num)
        (by rw [show ⌊(7 / 4 : ℚ)⌋ = 1 by decide +kernel]; norm_num)

theorem zoomDom_width : ∀ j, 0 ≤ zoomDom.width j := by
  change ∀ j, 0 ≤ (![2, 2, 2] : IVec) j
  intro j; fin_cases j <;> decide

/-- With three workers an image of the first velocity component of both segments is rendered without a panic. -/
example : ∃ out, Rendered true 2 [exZoom 4 zoomDom 8 fun w => ⟨f64 (w 0)⟩, exZoomSeg 8 fun w => ⟨f64 (w 0)⟩]
    (List.replicate 8 0) out := by
  obtain ⟨_, _, _, _, _, _, h⟩ := C144_image_partial true 2 4 (by norm_num) zoomDom
    [exZoom 4 zoomDom 8 fun w => ⟨f64 (w 0)⟩, exZoomSeg 8 fun w => ⟨f64 (w 0)⟩]
    (by
      simp only [List.mem_cons, List.not_mem_nil, or_false, forall_eq_or_imp, forall_eq]
      exact ⟨Or.inr (exZoom_ok (by norm_num) (by norm_num) zoomDom_width _ _ _ (fun h => by cases h)),
        Or.inl (exZoomSeg_ok _ _ _ (fun h => by cases h))⟩)
    (by
      simp only [List.mem_cons, List.not_mem_nil, or_false, forall_eq_or_imp, forall_eq]
      exact ⟨fun _ => rfl, fun _ => rfl⟩)
    (by
      simp only [List.mem_cons, List.not_mem_nil, or_false, forall_eq_or_imp, forall_eq]
      exact ⟨fun _ => f64_rep _, fun _ => f64_rep _⟩)
  exact (h (List.replicate 8 0) (by decide) (fun v hv => List.eq_of_mem_replicate hv)).1

/-- The same for a projection along any axis. -/
example (proj : ℤ) (hproj : 0 ≤ proj ∧ proj < 3) :
    let n := (bufferSize2 zoomDom proj).toNat
    ∃ out, Rendered2 proj true 2 [exZoom 4 zoomDom n fun w => ⟨f64 (w 0)⟩, exZoomSeg n fun w => ⟨f64 (w 0)⟩]
      (List.replicate 4 0) out := by
  intro n
  obtain ⟨_, _, _, _, _, _, h⟩ := C145_pixel_partial proj hproj true 2 4 (by norm_num) zoomDom
    [exZoom 4 zoomDom n fun w => ⟨f64 (w 0)⟩, exZoomSeg n fun w => ⟨f64 (w 0)⟩]
    (by
      simp only [List.mem_cons, List.not_mem_nil, or_false, forall_eq_or_imp, forall_eq]
      exact ⟨Or.inr (exZoom_ok (by norm_num) (by norm_num) zoomDom_width _ _ _ (fun h => by cases h)),
        Or.inl (exZoomSeg_ok _ _ _ (fun h => by cases h))⟩)
    (by
      simp only [List.mem_cons, List.not_mem_nil, or_false, forall_eq_or_imp, forall_eq]
      exact ⟨fun _ => rfl, fun _ => rfl⟩)
    (by
      simp only [List.mem_cons, List.not_mem_nil, or_false, forall_eq_or_imp, forall_eq]
      exact ⟨fun _ => f64_rep _, fun _ => f64_rep _⟩)
  have hw : ∀ j, zoomDom.width j = 2 := fun j => by
    change (![2, 2, 2] : IVec) j = 2
    fin_cases j <;> rfl
  exact (h (List.replicate 4 0) (by rw [boxLen2, hw, hw]; rfl) (fun v hv => List.eq_of_mem_replicate hv)).1

/-- The exact samples keep a distance from the faces of cells. -/
theorem exZoom_off {n : ℕ} {val : Vec → R64} : ∀ t ∈ tetras ((exZoom 4 zoomDom n val).mc.segWidth /
    (exZoom 4 zoomDom n val).mc.skip), ∀ u ∈ (exZoom 4 zoomDom n val).mc.unitBufs, ∀ q ∈ u, ∀ j, ∀ z : ℤ,
      35 * (((4 : ℤ) : ℚ) / 2 ^ 24) < |mix (segCorners (exZoom 4 zoomDom n val).mc (exZoom 4 zoomDom n val).xs t) q j - z| := by
  have h : ∀ t ∈ tetras ((zoomMC 4 zoomDom zoomDom).segWidth / (zoomMC 4 zoomDom zoomDom).skip),
    ∀ u ∈ (zoomMC 4 zoomDom zoomDom).unitBufs, ∀ q ∈ u, ∀ j,
    35 * (((4 : ℤ) : ℚ) / 2 ^ 24) < mix (segCorners (zoomMC 4 zoomDom zoomDom) zoomXs t) q j -
      ⌊mix (segCorners (zoomMC 4 zoomDom zoomDom) zoomXs t) q j⌋ ∧
    35 * (((4 : ℤ) : ℚ) / 2 ^ 24) < ⌊mix (segCorners (zoomMC 4 zoomDom zoomDom) zoomXs t) q j⌋ + 1 -
      mix (segCorners (zoomMC 4 zoomDom zoomDom) zoomXs t) q j := by
    decide +kernel
  intro t ht u hu q hq j
  exact off_of_floor (h t ht u hu q hq j).1 (h t ht u hu q hq j).2

/-- The conditions of the density image are met. -/
example : let p := exZoom 4 zoomDom 8 fun _ => ⟨mcPtVal64 2 1 (rendererPtVal64 4 1)⟩
    ∃ U : List (ℤ × ℤ × ℤ × Fin 6 → List Vec), ∀ out, Rendered false 2 [p] (List.replicate 8 0) out →
      ∃ v, rd out 6 = some v ∧ |v.val - exactImage [p] U 0 1 1| ≤ absImage [p] U 0 1 1 * sumErr (countImage [p] U 0 1 1) := by
  intro p
  obtain ⟨U, _, h⟩ := C144_density_partial 2 4 (by norm_num) zoomDom [p]
    (fun q hq => by
      rw [List.mem_singleton.mp hq]
      exact Or.inr (exZoom_ok (by norm_num) (by norm_num) zoomDom_width _ _ _ (fun _ _ _ => rfl)))
    (fun q hq _ => by rw [List.mem_singleton.mp hq]; rfl)
    (fun q hq w => by rw [List.mem_singleton.mp hq]; exact f64_rep _)
    (fun q hq => by rw [List.mem_singleton.mp hq]; exact exZoom_off)
  refine ⟨U, fun out ho => ?_⟩
  obtain ⟨v, h1, h2⟩ := ((h (List.replicate 8 0) (by decide) (fun v hv => List.eq_of_mem_replicate hv)).2 out ho).2 0 1 1
    (by unfold IsCell; decide)
  exact ⟨v, h1, h2⟩

/-- Those of a projected density image are met. -/
example : let p := exZoom 4 zoomDom 4 fun _ => ⟨mcPtVal64 2 1 (rendererPtVal64 4 1)⟩
    ∃ U : List (ℤ × ℤ × ℤ × Fin 6 → List Vec), ∀ out, Rendered2 2 false 2 [p] (List.replicate 4 0) out →
      ∃ v, rd out 2 = some v ∧
        |v.val - exactImage2 2 [p] U 0 1| ≤ absImage2 2 [p] U 0 1 * sumErr (countImage2 2 [p] U 0 1) := by
  intro p
  obtain ⟨U, _, h⟩ := C145_density_partial 2 (by norm_num) 2 4 (by norm_num) zoomDom [p]
    (fun q hq => by
      rw [List.mem_singleton.mp hq]
      exact Or.inr (exZoom_ok (by norm_num) (by norm_num) zoomDom_width _ _ _ (fun _ _ _ => rfl)))
    (fun q hq _ => by rw [List.mem_singleton.mp hq]; rfl)
    (fun q hq w => by rw [List.mem_singleton.mp hq]; exact f64_rep _)
    (fun q hq => by rw [List.mem_singleton.mp hq]; exact exZoom_off)
  refine ⟨U, fun out ho => ?_⟩
  obtain ⟨v, h1, h2⟩ := ((h (List.replicate 4 0) (by decide) (fun v hv => List.eq_of_mem_replicate hv)).2 out ho).2 0 1
    (by decide) (by decide)
  exact ⟨v, h1, h2⟩

/-- The whole box, in which positions are relative to the image. With three workers the total density is 8 within
`2 ^ -45`. -/
example : let p := exZoom 2 ⟨![0, 0, 0], ![2, 2, 2]⟩ 8 fun _ => ⟨mcPtVal64 2 1 (rendererPtVal64 2 1)⟩
    (∃ out, Rendered false 2 [p] (List.replicate 8 0) out) ∧
    ∀ out, Rendered false 2 [p] (List.replicate 8 0) out → |(out.map R64.val).sum - 8| ≤ 1 / 2 ^ 45 := by
  intro p
  obtain ⟨h1, h2⟩ := C144_mean 2 2 1 ⟨![0, 0, 0], ![2, 2, 2]⟩ (fun j => by fin_cases j <;> rfl) [p]
    (fun q hq => by
      rw [List.mem_singleton.mp hq]
      exact Or.inr (exZoom_ok (by norm_num) (by norm_num) (fun j => by fin_cases j <;> decide) _ _ _ (fun _ _ _ => rfl)))
    (fun q hq _ => by rw [List.mem_singleton.mp hq]; rfl)
    (by constructor <;> simp [p, exZoom, zoomMC, exMachineMC, exMC])
    (fun p hp w => by rw [List.mem_singleton.mp hp]; rfl)
    (List.replicate 8 0) (by decide) (fun v hv => List.eq_of_mem_replicate hv)
  refine ⟨h1, fun out h => ?_⟩
  have := h2 out h
  rw [show ([p].map samples).sum = 12 by simp [samples, p, exZoom, zoomMC, exMachineMC, exMC]] at this
  norm_num at this ⊢
  linarith

/-- The same for a projection along the last axis. -/
example : let p := exZoom 2 ⟨![0, 0, 0], ![2, 2, 2]⟩ 4 fun _ =>
      ⟨projPtVal64 ⟨![0, 0, 0], ![2, 2, 2]⟩ 2 (mcPtVal64 2 1 (rendererPtVal64 2 1))⟩
    (∃ out, Rendered2 2 false 2 [p] (List.replicate 4 0) out) ∧
    ∀ out, Rendered2 2 false 2 [p] (List.replicate 4 0) out → |(out.map R64.val).sum - 4| ≤ 1 / 2 ^ 45 := by
  intro p
  have hw : ∀ j, (⟨![0, 0, 0], ![2, 2, 2]⟩ : CellBounds).width j = 2 := fun j => by fin_cases j <;> rfl
  obtain ⟨h1, h2⟩ := C145_mean 2 (by norm_num) 2 2 1 ⟨![0, 0, 0], ![2, 2, 2]⟩ (fun j => (hw j).ge) (by rw [hw]; norm_num) [p]
    (fun q hq => by
      rw [List.mem_singleton.mp hq]
      exact Or.inr (exZoom_ok (by norm_num) (by norm_num) (fun j => by fin_cases j <;> decide) _ _ _ (fun _ _ _ => rfl)))
    (fun q hq _ => by rw [List.mem_singleton.mp hq]; rfl)
    (by constructor <;> simp [p, exZoom, zoomMC, exMachineMC, exMC])
    (fun p hp w => by rw [List.mem_singleton.mp hp]; rfl)
    (List.replicate 4 0) (by decide) (fun v hv => List.eq_of_mem_replicate hv)
  refine ⟨h1, fun out h => ?_⟩
  have := h2 out h
  rw [show ([p].map samples).sum = 12 by simp [p, samples, exZoom, zoomMC, exMachineMC, exMC], hw] at this
  norm_num at this ⊢
  linarith

/-! ## Close to the faces -/

/-- The pass over a segment whose particles are just below the edge of an image of the whole box of eight cells. -/
def edgeZoom (A : Arith) : Option (MCState ℚ) :=
  mcInterpolate (edgeMC A) false (domSub (edgeMC A) fun _ => 1) (fun _ => 0)
    ((List.range 8).map fun _ => ![-1 / 2 ^ 26, 1 / 2, 1 / 2]) [] 0 1 1
    ⟨newTetra 0 0 0 0, newTetra 0 0 0 0, [0], [], 0, List.replicate (bufferSize3 (edgeMC A).buf).toNat 0⟩

/-- **C144**: the distance from the faces of cells is needed. With exact arithmetic all samples are in the last cell; rounded,
they are in the first. -/
theorem C144_counterexample :
    (edgeZoom .exact).map (·.cells) = some [0, 0, 0, 0, 0, 0, 0, 6] ∧
    (edgeZoom machine).map (·.cells) = some [6, 0, 0, 0, 0, 0, 0, 0] := by
  constructor <;> decide +kernel

end Verif.Fp
