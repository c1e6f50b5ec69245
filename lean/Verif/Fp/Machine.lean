import Verif.Fp.MachineModel
import Verif.Fp.Sample
import Verif.Fp.Sum

/-! # Rendering with rounded coordinates: property C134

C129 follows the rounding of the values of samples and of their sums; here the coordinates of the samples are rounded too. -/

set_option autoImplicit false

namespace Verif.Fp

open Verif.Go Verif.Geom Verif.Render

/-! ## Specification -/

/-- `f` puts every point that is close to the unit tetrahedron close to its exact place in the tetrahedron with corners `c`
(see `GoodCoord`). -/
def Places (f : (Fin 4 → Vec) → Vec → Vec) : Prop :=
  ∀ c p, NearUnit (10 / 2 ^ 24) p → ∀ j, GoodCoord c p j (f c p j)

/-- Sum over the samples in an image cell of the values `g` of a pass, when samples are placed by `f`. -/
def placedSum {M : Type} [AddCommMonoid M] (f : (Fin 4 → Vec) → Vec → Vec) (ps : List (SegRun R64))
    (g : SegRun R64 → Vec → M) (U : List (ℤ × ℤ × ℤ × Fin 6 → List Vec)) (x y z : ℤ) : M :=
  (List.zipWith (fun p u => placedImage f p.mc.cells p.mc.buf p.mc.dom p.mc.points.toNat (p.mc.segWidth / p.mc.skip)
    (segCorners p.mc p.xs) (segCorners p.mc p.vs) (g p) u x y z) ps U).sum

/-- What is assumed about a pass over a segment buffer in machine arithmetic. The distance of the scaled particles from the
faces of the cells is what `C134_scaled` derives from the particles in the file. -/
structure Machine {M : Type} (p : SegRun M) (reqVel : Bool) (cells : ℤ) (dom : CellBounds) : Prop where
  arith : p.mc.arith = machine
  direct : p.direct = false
  seg : 0 ≤ p.mc.segWidth
  skip : 0 < p.mc.skip
  unit : ∀ u ∈ p.mc.unitBufs, (u.length : ℤ) = p.mc.points ∧ ∀ q ∈ u, NearUnit (10 / 2 ^ 24) q
  pick : ∀ id n, 0 ≤ p.pick id n ∧ p.pick id n < p.mc.unitBufs.length
  hcells : p.mc.cells = cells
  hdom : p.mc.dom = dom
  val : reqVel = false → ∀ w w', p.val w = p.val w'
  xs : (p.xs.length : ℤ) = (p.mc.segWidth + 1) * (p.mc.segWidth + 1) * (p.mc.segWidth + 1)
  vs : reqVel = true → (p.vs.length : ℤ) = (p.mc.segWidth + 1) * (p.mc.segWidth + 1) * (p.mc.segWidth + 1)
  init : ∀ id, (p.init id).Ok p.mc reqVel
  near : Near cells p.mc.buf dom
  rel : ∀ j, -cells < dom.origin j - p.mc.buf.origin j ∧ dom.origin j - p.mc.buf.origin j < cells
  width : ∀ j, 0 ≤ p.mc.buf.width j ∧ p.mc.buf.width j ≤ cells
  pos : ∀ x ∈ p.xs, ∀ j, F32 (x j) ∧ (0 ≤ x j ∧ x j < p.mc.buf.width j) ∧
    ∀ z : ℤ, 56 * ((cells : ℚ) / 2 ^ 24) < |x j - z|

/-! ## The arithmetic -/

theorem newTetra_fresh (c0 c1 c2 c3 : Vec) : Fresh (newTetra c0 c1 c2 c3) := fun h => absurd h Bool.false_ne_true

theorem newTetra_corners (c : Fin 4 → Vec) : (newTetra (c 0) (c 1) (c 2) (c 3)).corners = c := by
  funext k; fin_cases k <;> rfl

theorem machine_place (c : Fin 4 → Vec) (p : Vec) : machine.place c p =
    cornerSum32 c (fun i => f32 (f32 (f32 (c 0 i + c 1 i) + c 2 i) / 4)) (p 0) (p 1) (p 2) := by
  obtain ⟨out, t', e, _, _, hl, ho⟩ := distributeTetra32_eq (newTetra_fresh (c 0) (c 1) (c 2) (c 3)) [p] [0] le_rfl
  have h0 := ho 0
  rw [newTetra_corners] at h0
  unfold Arith.place
  rw [show machine.distribute = distributeTetra32 from rfl, e]
  cases out with
  | nil => simp at hl
  | cons q qs =>
    rw [if_pos (by simp)] at h0
    simpa using h0

theorem machine_places : Places machine.place := by
  intro c p hp j
  rw [machine_place]
  exact sample_good c hp j

theorem laws_machine : machine.Laws := by
  constructor
  · intro t ht pts buf hl
    obtain ⟨out, t', e, hc, -, hlen, ho⟩ := distributeTetra32_eq (t := t) (fun h => by rw [ht] at h; exact absurd h (by simp))
      pts buf hl
    refine ⟨out, t', e, hc, hlen, List.ext_getElem? fun i => ?_⟩
    rw [List.getElem?_map, List.getElem?_take]
    by_cases hi : i < pts.length
    · rw [if_pos hi, ho i, if_pos hi, List.getElem?_eq_getElem hi, Option.map_some, machine_place]
      simp [hi]
    · rw [if_neg hi, List.getElem?_eq_none (by omega)]
      rfl
  · intro s t h
    change cellBounds32 s 1 = cellBounds32 t 1
    unfold cellBounds32
    rw [h]
  · intro x hx
    change intFloor32 x = intFloor x
    unfold intFloor32 intFloor
    rcases hx.eq_or_lt with rfl | h
    · rw [zero_sub, show f32 (-1) = -1 from f32_of (rep_neg F32.one)]
    · rw [if_pos h, if_pos h]

/-! ## Bounds of tetrahedra -/

/-- Numbers that are closer than the distance from the integers have the same floor. -/
theorem floor_off {x y d : ℚ} (hoff : ∀ z : ℤ, d < |x - z|) (h : |y - x| ≤ d) : ⌊y⌋ = ⌊x⌋ := by
  obtain ⟨e1, e2⟩ := abs_le.mp h
  have f1 := Int.floor_le x
  have f2 := Int.lt_floor_add_one x
  have o1 := hoff ⌊x⌋
  have o2 := hoff (⌊x⌋ + 1)
  push_cast at o2
  rw [abs_of_nonneg (by linarith : (0 : ℚ) ≤ x - ⌊x⌋)] at o1
  rw [abs_of_neg (by linarith : x - (⌊x⌋ + 1) < 0)] at o2
  rw [Int.floor_eq_iff]
  constructor <;> linarith

theorem le_floor_off {x y d : ℚ} (hd : 0 ≤ d) (hoff : ∀ z : ℤ, d < |x - z|) (h : x - d ≤ y) : ⌊x⌋ ≤ ⌊y⌋ := by
  rw [← floor_off hoff (show |x - d - x| ≤ d by rw [sub_sub_cancel_left, abs_neg, abs_of_nonneg hd])]
  exact Int.floor_le_floor h

theorem floor_off_le {x y d : ℚ} (hd : 0 ≤ d) (hoff : ∀ z : ℤ, d < |x - z|) (h : y ≤ x + d) : ⌊y⌋ ≤ ⌊x⌋ := by
  rw [← floor_off hoff (show |x + d - x| ≤ d by rw [add_sub_cancel_left, abs_of_nonneg hd])]
  exact Int.floor_le_floor h

/-- The cell bounds of a tetrahedron whose corners keep a distance from the faces of the cells are not changed by rounding. -/
theorem cellBounds32_eq {c : Fin 4 → Vec} {g : ℚ} (hF : ∀ k j, F32 (c k j))
    (hb : ∀ k j, 0 ≤ c k j ∧ c k j ≤ 2 ^ 24 * g) (hoff : ∀ k j, ∀ z : ℤ, 4 * g < |c k j - z|) :
    cellBounds32 (newTetra (c 0) (c 1) (c 2) (c 3)) 1 = (newTetra (c 0) (c 1) (c 2) (c 3)).cellBounds 1 := by
  have g0 : 0 ≤ g := by have := hb 0 0; norm_num at this; linarith
  unfold cellBounds32 Tetra.cellBounds
  rw [newTetra_corners]
  have e1 : ∀ j, ⌊f64 ((cornerMinMax c j).1 / 1)⌋ = ⌊(cornerMinMax c j).1 / 1⌋ := fun j => by
    obtain ⟨-, ⟨k, e⟩, -⟩ := cornerMinMax_spec c j
    rw [e, div_one, f64_of (hF k j).f64]
  have e2 : ∀ j, ⌊f64 (f32 (f32 ((cornerMinMax c j).2 - (cornerMinMax c j).1) + (cornerMinMax c j).1) / 1)⌋ =
      ⌊((cornerMinMax c j).2 - (cornerMinMax c j).1 + (cornerMinMax c j).1) / 1⌋ := fun j => by
    obtain ⟨h0, ⟨k, e⟩, l, e'⟩ := cornerMinMax_spec c j
    have hkl := (h0 l).1
    rw [e] at hkl
    rw [e, e', div_one, div_one, f64_of (f32_rep _).f64, sub_add_cancel]
    refine floor_off (hoff l j) ?_
    obtain ⟨a1, a2⟩ := hb k j
    obtain ⟨b1, b2⟩ := hb l j
    generalize c k j = a at *
    generalize c l j = b at *
    have d1 := f32_abs (x := b - a) (B := 2 ^ 24 * g) (abs_le.mpr ⟨by norm_num at *; linarith, by linarith⟩)
    rw [mul_div_cancel_left₀ _ (by norm_num)] at d1
    obtain ⟨d1a, d1b⟩ := abs_le.mp d1
    generalize f32 (b - a) = w at *
    have d2 := f32_abs (x := w + a) (B := 2 ^ 24 * (2 * g)) (abs_le.mpr ⟨by norm_num at *; linarith, by norm_num at *; linarith⟩)
    rw [mul_div_cancel_left₀ _ (by norm_num)] at d2
    obtain ⟨d2a, d2b⟩ := abs_le.mp d2
    rw [abs_le]
    constructor <;> linarith
  simp only [e1, e2]

/-! ## One pass -/

section Pass

variable {M : Type} {p : SegRun M} {reqVel : Bool} {cells : ℤ} {dom : CellBounds}

theorem Machine.runs (h : Machine p reqVel cells dom) (id : ℕ) : p.mc.Runs (p.pick id) :=
  ⟨h.seg, h.skip, fun u hu => (h.unit u hu).1, h.pick id, by rw [h.arith]; exact laws_machine⟩

theorem Machine.corner (h : Machine p reqVel cells dom) {t : ℤ × ℤ × ℤ × Fin 6}
    (ht : t ∈ tetras (p.mc.segWidth / p.mc.skip)) (k : Fin 4) (j : Fin 3) :
    F32 (segCorners p.mc p.xs t k j) ∧
      (0 ≤ segCorners p.mc p.xs t k j ∧ segCorners p.mc p.xs t k j < p.mc.buf.width j) ∧
      ∀ z : ℤ, 56 * ((cells : ℚ) / 2 ^ 24) < |segCorners p.mc p.xs t k j - z| :=
  h.pos _ (corner_mem h.skip h.xs (mem_tetras.mp ht) _ k) j

/-- Samples are in the range of the corners, up to the distance the corners keep from the faces of cells. -/
theorem Machine.sample (h : Machine p reqVel cells dom) (hc : 0 < cells) {t : ℤ × ℤ × ℤ × Fin 6}
    (_ht : t ∈ tetras (p.mc.segWidth / p.mc.skip)) {u : List Vec} (hu : u ∈ p.mc.unitBufs) {q : Vec} (hq : q ∈ u)
    (j : Fin 3) {lo hi : ℚ} (hl : ∀ k, lo ≤ segCorners p.mc p.xs t k j ∧ segCorners p.mc p.xs t k j ≤ hi)
    (hlo : 0 ≤ lo) (hhi : hi ≤ cells) :
    lo - 56 * ((cells : ℚ) / 2 ^ 24) ≤ p.mc.arith.place (segCorners p.mc p.xs t) q j ∧
      p.mc.arith.place (segCorners p.mc p.xs t) q j ≤ hi + 56 * ((cells : ℚ) / 2 ^ 24) := by
  rw [h.arith]
  have hC : (0 : ℚ) < cells := by exact_mod_cast hc
  obtain ⟨-, hg⟩ := machine_places (segCorners p.mc p.xs t) q ((h.unit u hu).2 q hq) j cells fun k => by
    have := hl k
    rw [abs_le]
    constructor <;> linarith
  obtain ⟨a, b⟩ := hg lo hi hl
  have e : (16 * (cells : ℚ) + 40 * (hi - lo)) / 2 ^ 24 ≤ 56 * (cells / 2 ^ 24) := by
    rw [div_le_iff₀ (by norm_num)]
    linarith
  constructor <;> linarith

theorem Machine.inside (h : Machine p reqVel cells dom) (hc : 0 < cells) :
    ∀ t ∈ tetras (p.mc.segWidth / p.mc.skip), ∀ u ∈ p.mc.unitBufs, ∀ q ∈ u, ∀ j,
      0 < p.mc.arith.place (segCorners p.mc p.xs t) q j ∧
        p.mc.arith.place (segCorners p.mc p.xs t) q j < p.mc.buf.width j := by
  intro t ht u hu q hq j
  obtain ⟨hm, ⟨k1, e1⟩, k2, e2⟩ := cornerMinMax_spec (segCorners p.mc p.xs t) j
  obtain ⟨-, ⟨a1, a2⟩, a3⟩ := h.corner ht k1 j
  obtain ⟨-, ⟨b1, b2⟩, b3⟩ := h.corner ht k2 j
  have hw : (p.mc.buf.width j : ℚ) ≤ cells := by exact_mod_cast (h.width j).2
  rw [e1, e2] at hm
  obtain ⟨l1, l2⟩ := h.sample hc ht hu hq j hm a1 (by linarith)
  have o1 := a3 0
  have o2 := b3 (p.mc.buf.width j)
  rw [Int.cast_zero, sub_zero, abs_of_nonneg a1] at o1
  rw [abs_of_neg (by linarith)] at o2
  constructor <;> linarith

theorem Machine.skipped (h : Machine p reqVel cells dom) (hc : 0 < cells) :
    ∀ t ∈ tetras (p.mc.segWidth / p.mc.skip), p.mc.drawnA (segCorners p.mc p.xs t) = false → ∀ u ∈ p.mc.unitBufs,
      ∀ q ∈ u, ¬ ∃ x y z, IsCell p.mc.dom.width x y z ∧ ∀ j, p.mc.cells ∣
        ⌊p.mc.arith.place (segCorners p.mc p.xs t) q j⌋ + p.mc.buf.origin j - ((![x, y, z] : IVec) j + p.mc.dom.origin j) := by
  intro t ht hd u hu q hq
  have hC : (0 : ℚ) < cells := by exact_mod_cast hc
  have g0 : 0 ≤ 56 * ((cells : ℚ) / 2 ^ 24) := by positivity
  have hlt : ∀ k j, segCorners p.mc p.xs t k j < cells := fun k j => by
    have hw : (p.mc.buf.width j : ℚ) ≤ cells := by exact_mod_cast (h.width j).2
    linarith [(h.corner ht k j).2.1.2]
  have hcb := cellBounds32_eq (c := segCorners p.mc p.xs t) (g := (cells : ℚ) / 2 ^ 24) (fun k j => (h.corner ht k j).1)
    (fun k j => ⟨(h.corner ht k j).2.1.1, by rw [mul_div_cancel₀ _ (by norm_num)]; exact (hlt k j).le⟩)
    (fun k j z => lt_of_le_of_lt (by linarith) ((h.corner ht k j).2.2 z))
  have hd' : p.mc.drawn (segCorners p.mc p.xs t) = false := by
    rw [← hd]
    unfold MC.drawn MC.drawnA
    rw [h.arith]
    change _ = (cellBounds32 _ 1).intersect _ _
    rw [hcb]
  refine skipped_cells p.mc (by rw [h.hcells]; exact hc) _ (fun k j => ?_) hd'
    (fun j => ⌊p.mc.arith.place (segCorners p.mc p.xs t) q j⌋) fun j => ?_
  · obtain ⟨r1, r2⟩ := h.rel j
    rw [h.hdom, h.hcells]
    constructor
    · refine le_trans ?_ (h.corner ht k j).2.1.1
      exact_mod_cast (by omega : dom.origin j - p.mc.buf.origin j - cells + 1 ≤ 0)
    · refine lt_of_lt_of_le (hlt k j) ?_
      exact_mod_cast (by omega : cells ≤ dom.origin j - p.mc.buf.origin j + 2 * cells)
  · obtain ⟨hm, ⟨k1, e1⟩, k2, e2⟩ := cornerMinMax_spec (segCorners p.mc p.xs t) j
    simp only [Tetra.cellBounds, newTetra_corners, div_one, sub_add_cancel, e1, e2]
    rw [e1, e2] at hm
    obtain ⟨l1, l2⟩ := h.sample hc ht hu hq j hm (h.corner ht k1 j).2.1.1 (hlt k2 j).le
    have f1 := le_floor_off g0 (h.corner ht k1 j).2.2 l1
    have f2 := floor_off_le g0 (h.corner ht k2 j).2.2 l2
    omega

theorem machine_draws [AddCommMonoid M] (h : Machine p reqVel cells dom) (hc : 0 < cells)
    (hz : ∀ id, (p.init id).cells = List.replicate (bufferSize3 p.mc.buf).toNat 0) (m : ℕ) :
    p.Draws reqVel m cells dom (placedImage machine.place p.mc.cells p.mc.buf p.mc.dom p.mc.points.toNat
      (p.mc.segWidth / p.mc.skip) (segCorners p.mc p.xs) (segCorners p.mc p.vs) p.val) := by
  obtain ⟨s', G, U, hU, hrun, hsum⟩ := segment_samples p.mc p.pick h.runs
    (by rw [h.hcells, h.hdom]; exact h.near) (fun j => (h.width j).1) reqVel p.val h.val p.xs p.vs h.xs h.vs
    (fun x hx j => (h.pos x hx j).2.1.1) (fun t ht u hu q hq j => ⟨(h.inside hc t ht u hu q hq j).1.le,
      (h.inside hc t ht u hu q hq j).2⟩) (h.skipped hc) (m + 1) (Nat.succ_pos m) p.init h.init hz
  rw [h.hdom] at hrun
  refine ⟨fun i => s' i.val, fun i => G i.val, U, hU, fun i => ?_, fun i => ?_, fun x y z hcell => ?_⟩
  · have := (hrun i.val i.isLt).1
    rw [mcInterpolate_visits] at this
    have e1 : p.sub = segSub p.mc p.val := by unfold SegRun.sub; rw [h.direct]; rfl
    unfold Render.runOps SegRun.job
    rw [List.foldlM_map, e1, ← this]
    push_cast
    rfl
  · have e2 : p.add = seg3Add p.mc.buf p.mc.dom p.mc.cells := by
      funext b g; unfold SegRun.add; rw [h.direct]; rfl
    change Adds _ (p.add _) _
    rw [e2, h.hdom]
    exact (hrun i.val i.isLt).2
  · have := hsum x y z (by rw [h.hdom]; exact hcell)
    rw [← h.arith, ← h.hcells, ← this, h.hdom, Finset.sum_range]

theorem machine_gives [AddCommMonoid M] (h : Machine p reqVel cells dom) (hc : 0 < cells)
    (hwide : ∀ j, cells ≤ dom.width j)
    (hz : ∀ id, (p.init id).cells = List.replicate (bufferSize3 p.mc.buf).toNat 0) (m : ℕ) :
    p.Gives reqVel m dom (placedTotal machine.place p.mc.points.toNat (p.mc.segWidth / p.mc.skip) (segCorners p.mc p.vs)
      p.val) := by
  obtain ⟨s', G, U, hU, hrun, hsum⟩ := segment_samples_total p.mc p.pick h.runs (by rw [h.hcells]; exact hc)
    (by rw [h.hcells, h.hdom]; exact h.near) (by rw [h.hcells, h.hdom]; exact hwide) (fun j => (h.width j).1) reqVel p.val
    h.val p.xs p.vs h.xs h.vs (fun x hx j => (h.pos x hx j).2.1.1)
    (fun t ht u hu q hq j => ⟨(h.inside hc t ht u hu q hq j).1.le, (h.inside hc t ht u hu q hq j).2⟩) (h.skipped hc)
    (m + 1) (Nat.succ_pos m) p.init h.init hz
  rw [h.hdom] at hrun hsum
  refine ⟨fun i => s' i.val, fun i => G i.val, U, hU, fun i => ?_, fun i => ?_, ?_⟩
  · have := (hrun i.val i.isLt).1
    rw [mcInterpolate_visits] at this
    have e1 : p.sub = segSub p.mc p.val := by unfold SegRun.sub; rw [h.direct]; rfl
    unfold Render.runOps SegRun.job
    rw [List.foldlM_map, e1, ← this]
    push_cast
    rfl
  · have e2 : p.add = seg3Add p.mc.buf p.mc.dom p.mc.cells := by
      funext b g; unfold SegRun.add; rw [h.direct]; rfl
    change Adds _ (p.add _) _
    rw [e2, h.hdom]
    exact (hrun i.val i.isLt).2
  · rw [← h.arith, ← hsum]
    exact Finset.sum_congr rfl fun c _ => (Finset.sum_range (fun id => G id c)).symm

theorem machine_gives2 [AddCommMonoid M] {proj : ℤ} (hproj : 0 ≤ proj ∧ proj < 3) (h : Machine p reqVel cells dom)
    (hc : 0 < cells) (hwide : ∀ j, cells ≤ dom.width j)
    (hz : ∀ id, (p.init id).cells = List.replicate (bufferSize2 p.mc.buf proj).toNat 0) (m : ℕ) :
    p.Gives2 proj reqVel m dom (placedTotal machine.place p.mc.points.toNat (p.mc.segWidth / p.mc.skip)
      (segCorners p.mc p.vs) p.val) := by
  obtain ⟨s', G, U, hU, hrun, hsum⟩ := segment2_samples_total p.mc proj hproj p.pick h.runs (by rw [h.hcells]; exact hc)
    (by rw [h.hcells, h.hdom]; exact h.near) (by rw [h.hcells, h.hdom]; exact hwide)
    (by rw [h.hcells, h.hdom]; exact h.rel) (fun j => (h.width j).1) reqVel p.val
    h.val p.xs p.vs h.xs h.vs (fun x hx j => (h.pos x hx j).2.1.1)
    (fun t ht u hu q hq j => ⟨(h.inside hc t ht u hu q hq j).1.le, (h.inside hc t ht u hu q hq j).2⟩) (h.skipped hc)
    (m + 1) (Nat.succ_pos m) p.init h.init hz
  rw [h.hdom] at hrun hsum
  refine ⟨fun i => s' i.val, fun i => G i.val, U, hU, fun i => ?_, fun i => ?_, ?_⟩
  · have := (hrun i.val i.isLt).1
    rw [mcInterpolate_visits] at this
    have e1 : p.sub2 proj = seg2Sub p.mc proj p.val := by unfold SegRun.sub2; rw [h.direct]; rfl
    unfold Render.runOps SegRun.job2
    rw [List.foldlM_map, e1, ← this]
    push_cast
    rfl
  · have e2 : p.add2 proj = seg2Add p.mc.buf p.mc.dom p.mc.cells proj := by
      funext b g; unfold SegRun.add2; rw [h.direct]; rfl
    change Adds _ (p.add2 proj _) _
    rw [e2, h.hdom]
    exact (hrun i.val i.isLt).2
  · rw [← h.arith, ← hsum]
    exact Finset.sum_congr rfl fun c _ => (Finset.sum_range (fun id => G id c)).symm

end Pass

/-! ## Images -/

theorem tally_machine {p : SegRun R64} {reqVel : Bool} {cells : ℤ} {dom : CellBounds} (h : Machine p reqVel cells dom) :
    Machine (tally p) reqVel cells dom :=
  ⟨h.arith, h.direct, h.seg, h.skip, h.unit, h.pick, h.hcells, h.hdom, fun hq w w' => by
      change ((p.val w).val, |(p.val w).val|, 1) = ((p.val w').val, |(p.val w').val|, 1)
      rw [h.val hq w w'], h.xs, h.vs, fun id => ⟨(h.init id).vec, (h.init id).w⟩, h.near, h.rel, h.width, h.pos⟩

theorem tally_zero {p : SegRun R64} {n : ℕ} (h : ∀ id, (p.init id).cells = List.replicate n 0) (id : ℕ) :
    ((tally p).init id).cells = List.replicate n 0 := by
  change ((p.init id).cells.map fun _ => (0 : ℚ × ℚ × ℕ)) = _
  rw [h id, List.map_replicate]

theorem placed_map {M N : Type} [AddCommMonoid M] [AddCommMonoid N] (φ : M →+ N) (f : (Fin 4 → Vec) → Vec → Vec)
    (ps : List (SegRun R64)) (g : SegRun R64 → Vec → M) (U : List (ℤ × ℤ × ℤ × Fin 6 → List Vec)) (x y z : ℤ) :
    φ (placedSum f ps g U x y z) = placedSum f ps (fun p w => φ (g p w)) U x y z := by
  unfold placedSum
  induction ps generalizing U with
  | nil => simp
  | cons p ps ih =>
    cases U with
    | nil => simp
    | cons u U =>
      simp only [List.zipWith_cons_cons, List.sum_cons, map_add, ih U]
      congr 1
      unfold placedImage
      rw [map_sum]
      refine Finset.sum_congr rfl fun t _ => ?_
      rw [map_sum]
      refine Finset.sum_congr rfl fun i _ => ?_
      rw [apply_ite φ, map_zero]

theorem placed_tally (f : (Fin 4 → Vec) → Vec → Vec) (ps : List (SegRun R64)) (U : List (ℤ × ℤ × ℤ × Fin 6 → List Vec))
    (x y z : ℤ) :
    placedSum f ps (fun p w => ((p.val w).val, |(p.val w).val|, 1)) U x y z =
      (placedSum f ps (fun p w => (p.val w).val) U x y z, placedSum f ps (fun p w => |(p.val w).val|) U x y z,
        placedSum f ps (fun _ _ => (1 : ℕ)) U x y z) := by
  have h1 := placed_map (AddMonoidHom.fst ℚ (ℚ × ℕ)) f ps (fun p w => ((p.val w).val, |(p.val w).val|, 1)) U x y z
  have h2 := placed_map ((AddMonoidHom.fst ℚ ℕ).comp (AddMonoidHom.snd ℚ (ℚ × ℕ))) f ps
    (fun p w => ((p.val w).val, |(p.val w).val|, 1)) U x y z
  have h3 := placed_map ((AddMonoidHom.snd ℚ ℕ).comp (AddMonoidHom.snd ℚ (ℚ × ℕ))) f ps
    (fun p w => ((p.val w).val, |(p.val w).val|, 1)) U x y z
  exact Prod.ext h1 (Prod.ext h2 h3)

/-- **C134**: rendering a list of segments with rounded coordinates, values and sums. Under every schedule the passes run to
the end without a panic, every sample is within `M / 2 ^ 20` of its exact place (for coordinates up to `M`), and the value of
an image cell differs from the exact sum of the values of the samples in it by at most the error of the sum. -/
theorem C134_image_partial (reqVel : Bool) (m : ℕ) (cells : ℤ) (hc : 0 < cells) (dom : CellBounds)
    (ps : List (SegRun R64)) (hps : ∀ p ∈ ps, Machine p reqVel cells dom)
    (h0 : ∀ p ∈ ps, ∀ id, (p.init id).cells = List.replicate (bufferSize3 p.mc.buf).toNat 0)
    (hv : ∀ p ∈ ps, ∀ w, F64 (p.val w).val) :
    ∃ (f : (Fin 4 → Vec) → Vec → Vec) (U : List (ℤ × ℤ × ℤ × Fin 6 → List Vec)), Places f ∧
      List.Forall₂ (fun p u => ∀ t, u t ∈ p.mc.unitBufs) ps U ∧
      ∀ grid : List R64, (grid.length : ℤ) = boxLen3 dom → (∀ v ∈ grid, v = 0) →
        (∃ out, Rendered reqVel m ps grid out) ∧
        ∀ out, Rendered reqVel m ps grid out → out.length = grid.length ∧
          ∀ x y z, IsCell dom.width x y z →
            ∃ v, rd out (x + y * dom.width 0 + z * (dom.width 0 * dom.width 1)) = some v ∧
              if x < cells ∧ y < cells ∧ z < cells then
                |v.val - placedSum f ps (fun p w => (p.val w).val) U x y z| ≤
                  placedSum f ps (fun p w => |(p.val w).val|) U x y z * sumErr (placedSum f ps (fun _ _ => 1) U x y z)
              else v.val = 0 := by
  obtain ⟨U, hU, hrun⟩ := image_of_draws (M := ℚ × ℚ × ℕ) reqVel m cells dom (ps.map tally)
    (fun q => placedImage machine.place q.mc.cells q.mc.buf q.mc.dom q.mc.points.toNat (q.mc.segWidth / q.mc.skip)
      (segCorners q.mc q.xs) (segCorners q.mc q.vs) q.val)
    (fun q hq => by
      obtain ⟨p, hp, rfl⟩ := List.mem_map.mp hq
      exact machine_draws (tally_machine (hps p hp)) hc (tally_zero (h0 p hp)) m)
  have hsame : List.Forall₂ (SegRun.Same Sums) ps (ps.map tally) := zero_same (fun p hp i v hvi => by
    rw [h0 p hp i] at hvi
    exact List.eq_of_mem_replicate hvi) hv
  refine ⟨machine.place, U, machine_places, ?_, fun grid hg hz => ?_⟩
  · rw [List.forall₂_map_left_iff] at hU
    exact hU
  obtain ⟨⟨out', ho'⟩, hall⟩ := hrun (grid.map fun _ => 0) (by rw [List.length_map]; exact hg)
  constructor
  · obtain ⟨out, ho, _⟩ := Rendered.same (additive_flip sums_add)
      (List.Forall₂.flip (hsame.imp fun _ _ h => same_flip h)) (zero_grid hz).flip ho'
    exact ⟨out, ho⟩
  · intro out ho
    obtain ⟨out'', ho'', hrel⟩ := Rendered.same sums_add hsame (zero_grid hz) ho
    obtain ⟨hlen, hcells⟩ := hall out'' ho''
    refine ⟨by rw [hrel.length_eq, hlen, List.length_map], fun x y z hcell => ?_⟩
    obtain ⟨v0, h1, h2⟩ := hcells x y z hcell
    have hv0 : v0 = 0 := zero_cell h1
    rw [hv0, zero_add] at h2
    dsimp only at h2
    obtain ⟨v, hv1, hv2⟩ := follows_rd hrel.flip _ _ h2
    refine ⟨v, hv1, ?_⟩
    have e := placed_tally machine.place ps U x y z
    by_cases hxyz : x < cells ∧ y < cells ∧ z < cells
    · rw [if_pos hxyz]
      rw [if_pos hxyz, List.zipWith_map_left] at hv2
      change Sums v (placedSum machine.place ps (fun p w => ((p.val w).val, |(p.val w).val|, 1)) U x y z) at hv2
      rw [e] at hv2
      exact hv2.err
    · rw [if_neg hxyz]
      rw [if_neg hxyz] at hv2
      exact (hv2.none rfl).1

/-- When exact samples keep a distance from the faces of cells, rounded samples are in the same cells. -/
theorem placed_exact {M : Type} [AddCommMonoid M] {f : (Fin 4 → Vec) → Vec → Vec} (hf : Places f) {reqVel : Bool} {cells : ℤ}
    {dom : CellBounds} {ps : List (SegRun R64)} (hps : ∀ p ∈ ps, Machine p reqVel cells dom)
    (hoff : ∀ p ∈ ps, ∀ t ∈ tetras (p.mc.segWidth / p.mc.skip), ∀ u ∈ p.mc.unitBufs, ∀ q ∈ u, ∀ j, ∀ z : ℤ,
      (cells : ℚ) / 2 ^ 20 < |mix (segCorners p.mc p.xs t) q j - z|)
    (g : SegRun R64 → Vec → M) (hg : ∀ p ∈ ps, ∀ w w', g p w = g p w')
    {U : List (ℤ × ℤ × ℤ × Fin 6 → List Vec)} (hU : List.Forall₂ (fun p u => ∀ t, u t ∈ p.mc.unitBufs) ps U) (x y z : ℤ) :
    placedSum f ps g U x y z = (List.zipWith (fun p u => (withVal p (g p)).image u x y z) ps U).sum := by
  unfold placedSum
  induction hU with
  | nil => rfl
  | cons hu hrest ih =>
    rename_i p u ps U
    have h := hps p (by simp)
    simp only [List.zipWith_cons_cons, List.sum_cons]
    rw [ih (fun q hq => hps q (by simp [hq])) (fun q hq => hoff q (by simp [hq])) (fun q hq => hg q (by simp [hq]))]
    congr 1
    unfold placedImage SegRun.image sampleImage withVal
    refine Finset.sum_congr rfl fun t ht => Finset.sum_congr rfl fun i hi => ?_
    have hm := mem_getD (h.unit _ (hu t)).1 (Finset.mem_range.mp hi)
    have e : ∀ j, ⌊f (segCorners p.mc p.xs t) ((u t).getD i 0) j⌋ = ⌊mix (segCorners p.mc p.xs t) ((u t).getD i 0) j⌋ :=
      fun j => C133_cell (hf _ _ ((h.unit _ (hu t)).2 _ hm) j) (M := cells) (fun k => by
        have hw : (p.mc.buf.width j : ℚ) ≤ cells := by exact_mod_cast (h.width j).2
        obtain ⟨-, ⟨a1, a2⟩, -⟩ := h.corner ht k j
        rw [abs_le]
        constructor <;> linarith) (hoff p (by simp) t ht _ (hu t) _ hm j)
    simp only [e]
    rw [hg p (by simp) _ (mix (segCorners p.mc p.vs t) ((u t).getD i 0))]

/-- **C134**: a density image rendered in machine arithmetic is the exact one of C107, up to the error of the sums, when no
exact sample is within `cells / 2 ^ 20` of a face of a cell. -/
theorem C134_density_partial (m : ℕ) (cells : ℤ) (hc : 0 < cells) (dom : CellBounds)
    (ps : List (SegRun R64)) (hps : ∀ p ∈ ps, Machine p false cells dom)
    (h0 : ∀ p ∈ ps, ∀ id, (p.init id).cells = List.replicate (bufferSize3 p.mc.buf).toNat 0)
    (hv : ∀ p ∈ ps, ∀ w, F64 (p.val w).val)
    (hoff : ∀ p ∈ ps, ∀ t ∈ tetras (p.mc.segWidth / p.mc.skip), ∀ u ∈ p.mc.unitBufs, ∀ q ∈ u, ∀ j, ∀ z : ℤ,
      (cells : ℚ) / 2 ^ 20 < |mix (segCorners p.mc p.xs t) q j - z|) :
    ∃ U : List (ℤ × ℤ × ℤ × Fin 6 → List Vec), List.Forall₂ (fun p u => ∀ t, u t ∈ p.mc.unitBufs) ps U ∧
      ∀ grid : List R64, (grid.length : ℤ) = boxLen3 dom → (∀ v ∈ grid, v = 0) →
        (∃ out, Rendered false m ps grid out) ∧
        ∀ out, Rendered false m ps grid out → out.length = grid.length ∧
          ∀ x y z, IsCell dom.width x y z →
            ∃ v, rd out (x + y * dom.width 0 + z * (dom.width 0 * dom.width 1)) = some v ∧
              if x < cells ∧ y < cells ∧ z < cells then
                |v.val - exactImage ps U x y z| ≤ absImage ps U x y z * sumErr (countImage ps U x y z)
              else v.val = 0 := by
  obtain ⟨f, U, hf, hU, h⟩ := C134_image_partial false m cells hc dom ps hps h0 hv
  refine ⟨U, hU, fun grid hg hz => ⟨(h grid hg hz).1, fun out ho => ?_⟩⟩
  obtain ⟨hl, hcells⟩ := (h grid hg hz).2 out ho
  refine ⟨hl, fun x y z hcell => ?_⟩
  obtain ⟨v, h1, h2⟩ := hcells x y z hcell
  have hval : ∀ p ∈ ps, ∀ w w', p.val w = p.val w' := fun p hp => (hps p hp).val rfl
  rw [placed_exact hf hps hoff _ (fun p hp w w' => by rw [hval p hp w w']) hU,
    placed_exact hf hps hoff _ (fun p hp w w' => by rw [hval p hp w w']) hU,
    placed_exact hf hps hoff _ (fun p hp w w' => rfl) hU] at h2
  exact ⟨v, h1, h2⟩

/-! ## The mean density -/

theorem placed_totals {ps : List (SegRun R64)} {U : List (ℤ × ℤ × ℤ × Fin 6 → List Vec)} (hl : ps.length = U.length)
    (c : SegRun R64 → ℚ) (hc : ∀ p ∈ ps, 0 ≤ c p) (hval : ∀ p ∈ ps, ∀ w, (p.val w).val = c p) :
    (List.zipWith (fun q : SegRun (ℚ × ℚ × ℕ) => placedTotal machine.place q.mc.points.toNat (q.mc.segWidth / q.mc.skip)
      (segCorners q.mc q.vs) q.val) (ps.map tally) U).sum =
      ((ps.map fun p => (samples p : ℚ) * c p).sum, (ps.map fun p => (samples p : ℚ) * c p).sum, (ps.map samples).sum) := by
  rw [← tally_totals hl c hc hval, List.zipWith_map_left, List.zipWith_map_left]
  congr 1
  induction ps generalizing U with
  | nil => rfl
  | cons p ps ih =>
    cases U with
    | nil => rfl
    | cons u U =>
      rw [List.zipWith_cons_cons, List.zipWith_cons_cons,
        ih (by simpa using hl) (fun q hq => hc q (by simp [hq])) (fun q hq => hval q (by simp [hq]))]
      congr 1
      unfold placedTotal SegRun.total sampleTotal tally withVal
      simp only [hval p (by simp)]

/-- **C134**: rendered in machine arithmetic throughout, the densities in an image of the whole box add up to the number of
cells in the box, with a relative error below `(1 + 2 ^ -53) ^ (n + 8) - 1`, where `n` is the number of samples: rounded
coordinates move samples, but lose none. -/
theorem C134_mean (m : ℕ) (cells countWidth : ℤ) (dom : CellBounds) (hd : ∀ j, cells ≤ dom.width j)
    (ps : List (SegRun R64)) (hps : ∀ p ∈ ps, Machine p false cells dom)
    (h0 : ∀ p ∈ ps, ∀ id, (p.init id).cells = List.replicate (bufferSize3 p.mc.buf).toNat 0)
    (hfull : Full cells countWidth ps)
    (hval : ∀ p ∈ ps, ∀ w, (p.val w).val = mcPtVal64 p.mc.points p.mc.skip (rendererPtVal64 cells countWidth))
    (grid : List R64) (hg : (grid.length : ℤ) = boxLen3 dom) (hz : ∀ v ∈ grid, v = 0) :
    (∃ out, Rendered false m ps grid out) ∧ ∀ out, Rendered false m ps grid out →
      |(out.map R64.val).sum - (cells : ℚ) ^ 3| ≤
        (cells : ℚ) ^ 3 * ((1 + 1 / 2 ^ 53) ^ ((ps.map samples).sum + 8) - 1) := by
  have hv : ∀ p ∈ ps, ∀ w, F64 (p.val w).val := fun p hp w => by rw [hval p hp w]; exact f64_rep _
  constructor
  · obtain ⟨_, _, _, _, h⟩ := C134_image_partial false m cells hfull.cells.1 dom ps hps h0 hv
    exact (h grid hg hz).1
  intro out h
  obtain ⟨U, hU, hrun⟩ := total_of_gives (M := ℚ × ℚ × ℕ) false m dom (ps.map tally)
    (fun q => placedTotal machine.place q.mc.points.toNat (q.mc.segWidth / q.mc.skip) (segCorners q.mc q.vs) q.val)
    (fun q hq => by
      obtain ⟨p, hp, rfl⟩ := List.mem_map.mp hq
      exact machine_gives (tally_machine (hps p hp)) hfull.cells.1 hd (tally_zero (h0 p hp)) m)
  obtain ⟨out', ho', hrel⟩ := Rendered.same sums_add (zero_same (fun p hp i v hvi => by
      rw [h0 p hp i] at hvi
      exact List.eq_of_mem_replicate hvi) hv) (zero_grid hz) h
  obtain ⟨-, hs⟩ := (hrun _ (by rw [List.length_map]; exact hg)).2 out' ho'
  have hl : ps.length = U.length := by rw [← hU.length_eq, List.length_map]
  have hc0 : ∀ p ∈ ps, 0 ≤ mcPtVal64 p.mc.points p.mc.skip (rendererPtVal64 cells countWidth) := fun p hp =>
    ptVal_nonneg (hfull.points p hp).1.le (hfull.skip p hp).1.le
      (rendererPtVal_nonneg hfull.cells.1.le hfull.width.1.le)
  rw [placed_totals hl _ hc0 hval, show (grid.map fun _ => (0 : ℚ × ℚ × ℕ)).sum = 0 by simp, zero_add] at hs
  obtain ⟨-, herr⟩ := sums_sum hrel
  rw [hs] at herr
  obtain ⟨hT, hR⟩ := rel_sum (k := 8) ps (fun p => mcPtVal64 p.mc.points p.mc.skip (rendererPtVal64 cells countWidth))
    (fun p => mcPtVal false p.mc.points p.mc.skip (rendererPtVal false cells countWidth))
    (fun p hp => ptVal_exact_nonneg (hfull.points p hp).1 (hfull.skip p hp).1 hfull.cells.1 hfull.width.1)
    (fun p hp => hfull.rel hp)
  rw [exact_total cells countWidth hfull.width.1 ps (fun p hp => (hfull.skip p hp).1) hfull.seg
    (fun p hp => (hfull.points p hp).1) hfull.dvd hfull.all] at hT hR
  refine mean_core hT ?_ hR herr
  exact List.sum_nonneg fun x hx => by
    obtain ⟨p, hp, rfl⟩ := List.mem_map.mp hx
    exact mul_nonneg (by positivity) (hc0 p hp)

/-- **C134**: the same for a projection through an image of the whole box. -/
theorem C134_mean_project (proj : ℤ) (hproj : 0 ≤ proj ∧ proj < 3) (m : ℕ) (cells countWidth : ℤ) (dom : CellBounds)
    (hd : ∀ j, cells ≤ dom.width j) (hd' : dom.width (projDims proj).2.2 ≤ 2 ^ 53)
    (ps : List (SegRun R64)) (hps : ∀ p ∈ ps, Machine p false cells dom)
    (h0 : ∀ p ∈ ps, ∀ id, (p.init id).cells = List.replicate (bufferSize2 p.mc.buf proj).toNat 0)
    (hfull : Full cells countWidth ps)
    (hval : ∀ p ∈ ps, ∀ w, (p.val w).val =
      projPtVal64 dom proj (mcPtVal64 p.mc.points p.mc.skip (rendererPtVal64 cells countWidth)))
    (grid : List R64) (hg : (grid.length : ℤ) = boxLen2 dom proj) (hz : ∀ v ∈ grid, v = 0) :
    (∃ out, Rendered2 proj false m ps grid out) ∧ ∀ out, Rendered2 proj false m ps grid out →
      |(out.map R64.val).sum - (cells : ℚ) ^ 3 / dom.width (projDims proj).2.2| ≤
        (cells : ℚ) ^ 3 / dom.width (projDims proj).2.2 * ((1 + 1 / 2 ^ 53) ^ ((ps.map samples).sum + 9) - 1) := by
  have hv : ∀ p ∈ ps, ∀ w, F64 (p.val w).val := fun p hp w => by rw [hval p hp w]; exact f64_rep _
  obtain ⟨U, hU, hrun⟩ := total_of_gives2 (M := ℚ × ℚ × ℕ) proj false m dom (ps.map tally)
    (fun q => placedTotal machine.place q.mc.points.toNat (q.mc.segWidth / q.mc.skip) (segCorners q.mc q.vs) q.val)
    (fun q hq => by
      obtain ⟨p, hp, rfl⟩ := List.mem_map.mp hq
      exact machine_gives2 hproj (tally_machine (hps p hp)) hfull.cells.1 hd (tally_zero (h0 p hp)) m)
  have hsame : List.Forall₂ (SegRun.Same Sums) ps (ps.map tally) := zero_same (fun p hp i v hvi => by
    rw [h0 p hp i] at hvi
    exact List.eq_of_mem_replicate hvi) hv
  have hr := hrun (grid.map fun _ => 0) (by rw [List.length_map]; exact hg)
  constructor
  · obtain ⟨out', ho'⟩ := hr.1
    obtain ⟨out, ho, _⟩ := Rendered2.same (additive_flip sums_add)
      (List.Forall₂.flip (hsame.imp fun _ _ h => same_flip h)) (zero_grid hz).flip ho'
    exact ⟨out, ho⟩
  intro out h
  obtain ⟨out', ho', hrel⟩ := Rendered2.same sums_add hsame (zero_grid hz) h
  obtain ⟨-, hs⟩ := hr.2 out' ho'
  have hl : ps.length = U.length := by rw [← hU.length_eq, List.length_map]
  have hw0 : 0 < dom.width (projDims proj).2.2 := hfull.cells.1.trans_le (hd _)
  have hw : f64 (dom.width (projDims proj).2.2 : ℚ) = dom.width (projDims proj).2.2 :=
    f64_of (f64_int (abs_le.mpr ⟨by linarith, hd'⟩))
  have hwq : (0 : ℚ) < dom.width (projDims proj).2.2 := by exact_mod_cast hw0
  have hc0 : ∀ p ∈ ps, 0 ≤ projPtVal64 dom proj (mcPtVal64 p.mc.points p.mc.skip (rendererPtVal64 cells countWidth)) :=
    fun p hp => by
      unfold projPtVal64
      rw [hw]
      exact f64_nonneg (div_nonneg (ptVal_nonneg (hfull.points p hp).1.le (hfull.skip p hp).1.le
        (rendererPtVal_nonneg hfull.cells.1.le hfull.width.1.le)) hwq.le)
  rw [placed_totals hl _ hc0 hval, show (grid.map fun _ => (0 : ℚ × ℚ × ℕ)).sum = 0 by simp, zero_add] at hs
  obtain ⟨-, herr⟩ := sums_sum hrel
  rw [hs] at herr
  obtain ⟨hT, hR⟩ := rel_sum (k := 9) ps
    (fun p => projPtVal64 dom proj (mcPtVal64 p.mc.points p.mc.skip (rendererPtVal64 cells countWidth)))
    (fun p => mcPtVal false p.mc.points p.mc.skip (rendererPtVal false cells countWidth) / dom.width (projDims proj).2.2)
    (fun p hp => div_nonneg (ptVal_exact_nonneg (hfull.points p hp).1 (hfull.skip p hp).1 hfull.cells.1 hfull.width.1) hwq.le)
    (fun p hp => by
      unfold projPtVal64
      rw [hw]
      exact rel_f64 (rel_div (hfull.rel hp) _))
  have e : (ps.map fun p => (samples p : ℚ) * (mcPtVal false p.mc.points p.mc.skip (rendererPtVal false cells countWidth) /
      dom.width (projDims proj).2.2)).sum = (cells : ℚ) ^ 3 / dom.width (projDims proj).2.2 := by
    rw [← exact_total cells countWidth hfull.width.1 ps (fun p hp => (hfull.skip p hp).1) hfull.seg
      (fun p hp => (hfull.points p hp).1) hfull.dvd hfull.all, div_eq_mul_inv, ← List.sum_map_mul_right]
    simp only [div_eq_mul_inv, mul_assoc]
  rw [e] at hT hR
  refine mean_core hT ?_ hR herr
  exact List.sum_nonneg fun x hx => by
    obtain ⟨p, hp, rfl⟩ := List.mem_map.mp hx
    exact mul_nonneg (by positivity) (hc0 p hp)

/-! ## From the file -/

/-- **C134**: the conditions on the scaled particles follow, axis by axis, from conditions on the particles in the file: less
than about half a box across, and at a small distance from the faces of the cells. `hd` is the extent that was stored in the
header when the file was made (C127), `cb` the buffer made from it. -/
theorem C134_scaled {L x0 : ℚ} {xs : List ℚ} {C : ℤ} (hL : F32 L) (hL0 : 0 < L) (r0 : F32 x0) (h0 : x0 ∈ xs)
    (h01 : ∀ x ∈ xs, 0 ≤ x ∧ x ≤ L) {b S : ℚ} (hin : ∀ x ∈ xs, ∃ k : ℤ, b ≤ x + k * L ∧ x + k * L ≤ b + S)
    (hroom : S + 2 * ((moves L ⟨x0, 0, 0⟩ xs + 3) * (L / 2 ^ 22)) ≤ L / 2) (hC : 8 ≤ C) (hC' : C ≤ 2 ^ 24)
    (hoff : ∀ x ∈ xs, ∀ z : ℤ, (4 * (moves L ⟨x0, 0, 0⟩ xs + 3) + 52) * (C / 2 ^ 24) < |x * C / L - z|) :
    let hd := (axisBox L x0 xs).stored L
    let cb := cellAxis L hd.1 hd.2 C
    (0 ≤ cb.2 ∧ cb.2 ≤ C) ∧ ∀ x ∈ xs, let y := scaleSeg32 C (boxWidth64 L C) cb.1 x
      F32 y ∧ (0 ≤ y ∧ y < cb.2) ∧ ∀ z : ℤ, 56 * ((C : ℚ) / 2 ^ 24) < |y - z| := by
  intro hd cb
  obtain ⟨h1, h2⟩ := scaled_margin (D := 36) (by norm_num) hL hL0 r0 h0 h01 hin hroom hC hC' (by
    intro x hx z
    have := hoff x hx z
    rwa [show (4 * ((moves L ⟨x0, 0, 0⟩ xs : ℚ) + 3) + 16 + 36) = 4 * ((moves L ⟨x0, 0, 0⟩ xs : ℚ) + 3) + 52 by ring])
  have hg : (0 : ℚ) < (20 + 36) * (C / 2 ^ 24) := by
    have : (0 : ℚ) < C := by exact_mod_cast (by omega : 0 < C)
    positivity
  have hall : ∀ x ∈ xs, let y := scaleSeg32 C (boxWidth64 L C) cb.1 x
      F32 y ∧ (0 ≤ y ∧ y < cb.2) ∧ ∀ z : ℤ, 56 * ((C : ℚ) / 2 ^ 24) < |y - z| := by
    intro x hx y
    obtain ⟨a1, a2, -, a4⟩ := h2 x hx
    refine ⟨?_, ⟨(hg.trans a1).le, by linarith⟩, fun z => ?_⟩
    · change F32 (scaleSeg32 C (boxWidth64 L C) cb.1 x)
      unfold scaleSeg32
      dsimp only
      split <;> exact f32_rep _
    · have := a4 z
      norm_num at this ⊢
      exact this
  refine ⟨⟨?_, h1⟩, hall⟩
  obtain ⟨-, ⟨a, b⟩, -⟩ := hall x0 h0
  exact_mod_cast (a.trans b.le)

/-! ## Examples -/

/-- The segment of `exMC`, rendered in machine arithmetic. -/
def exMachineMC : MC :=
  { exMC with
    unitBufs := [[![1/8, 1/8, 1/16], ![1/16, 3/16, 1/8]], [![1/8, 1/16, 1/16], ![0, 0, 1]]]
    arith := machine }

/-- One pass over it; the buffers have the length `n`. -/
def exMachine (n : ℕ) (val : Vec → R64) : SegRun R64 :=
  ⟨exMachineMC, false, exXs, exXs, fun id n => ((id + n) % 2 : ℕ),
    fun _ => ⟨newTetra 0 0 0 0, newTetra 0 0 0 0, [0, 0], [0, 0], 0, List.replicate n 0⟩, val⟩

theorem off_of_floor {d y : ℚ} (h1 : d < y - ⌊y⌋) (h2 : d < ⌊y⌋ + 1 - y) : ∀ z : ℤ, d < |y - z| := by
  intro z
  rcases le_or_gt z ⌊y⌋ with h | h
  · have : (z : ℚ) ≤ ⌊y⌋ := by exact_mod_cast h
    exact (by linarith : d < y - z).trans_le (le_abs_self _)
  · have : (⌊y⌋ : ℚ) + 1 ≤ z := by exact_mod_cast h
    exact (by linarith : d < -(y - z)).trans_le (neg_le_abs _)

theorem exMachine_ok (n : ℕ) (reqVel : Bool) (val : Vec → R64) (hval : reqVel = false → ∀ w w', val w = val w') :
    Machine (exMachine n val) reqVel 2 ⟨![0, 0, 0], ![2, 2, 2]⟩ where
  arith := rfl
  direct := rfl
  seg := (by decide : 0 ≤ exMachineMC.segWidth)
  skip := (by decide : 0 < exMachineMC.skip)
  unit := by
    have : ∀ u ∈ exMachineMC.unitBufs, (u.length : ℤ) = 2 ∧ ∀ q ∈ u, -(10 / 2 ^ 24) ≤ q 0 ∧ -(10 / 2 ^ 24) ≤ q 1 ∧
      -(10 / 2 ^ 24) ≤ q 2 ∧ q 0 + q 1 + q 2 ≤ 1 + 10 / 2 ^ 24 := by decide +kernel
    exact this
  pick := fun id k => by
    show (0 : ℤ) ≤ ((id + k) % 2 : ℕ) ∧ (((id + k) % 2 : ℕ) : ℤ) < 2
    omega
  hcells := rfl
  hdom := rfl
  val := hval
  xs := rfl
  vs := fun _ => rfl
  init := fun _ => ⟨rfl, fun _ => le_refl (2 : ℤ)⟩
  near := by change Near 2 exMachineMC.buf _; intro j; fin_cases j <;> decide
  rel := by
    change ∀ j, -2 < _ - exMachineMC.buf.origin j ∧ _ - exMachineMC.buf.origin j < 2
    intro j; fin_cases j <;> decide
  width := by
    change ∀ j, 0 ≤ exMachineMC.buf.width j ∧ exMachineMC.buf.width j ≤ 2
    intro j; fin_cases j <;> decide
  pos := by
    have h : ∀ x ∈ exXs, ∀ j, (x j = 1 / 4 ∨ x j = 7 / 4) ∧ (exMachineMC.buf.width j = 2) := by decide +kernel
    intro x hx j
    change F32 (x j) ∧ (0 ≤ x j ∧ x j < (exMachineMC.buf.width j : ℚ)) ∧ _
    obtain ⟨h1, h2⟩ := h x hx j
    rw [h2]
    rcases h1 with h1 | h1 <;> rw [h1]
    · refine ⟨⟨1, -2, by norm_num, by norm_num⟩, by norm_num, off_of_floor ?_ ?_⟩ <;>
        rw [show ⌊(1 / 4 : ℚ)⌋ = 0 by decide +kernel] <;> norm_num
    · refine ⟨⟨7, -2, by norm_num, by norm_num⟩, by norm_num, off_of_floor ?_ ?_⟩ <;>
        rw [show ⌊(7 / 4 : ℚ)⌋ = 1 by decide +kernel] <;> norm_num

/-- Its exact samples keep a distance from the faces of cells. -/
theorem exMachine_off : ∀ t ∈ tetras (exMachineMC.segWidth / exMachineMC.skip), ∀ u ∈ exMachineMC.unitBufs, ∀ q ∈ u, ∀ j,
    ∀ z : ℤ, ((2 : ℤ) : ℚ) / 2 ^ 20 < |mix (segCorners exMachineMC exXs t) q j - z| := by
  have h : ∀ t ∈ tetras (exMachineMC.segWidth / exMachineMC.skip), ∀ u ∈ exMachineMC.unitBufs, ∀ q ∈ u, ∀ j,
    ((2 : ℤ) : ℚ) / 2 ^ 20 < mix (segCorners exMachineMC exXs t) q j - ⌊mix (segCorners exMachineMC exXs t) q j⌋ ∧
    ((2 : ℤ) : ℚ) / 2 ^ 20 < ⌊mix (segCorners exMachineMC exXs t) q j⌋ + 1 - mix (segCorners exMachineMC exXs t) q j := by
    decide +kernel
  intro t ht u hu q hq j
  exact off_of_floor (h t ht u hu q hq j).1 (h t ht u hu q hq j).2

/-- With three workers an image of the first velocity component is rendered without a panic. -/
example : ∃ out, Rendered true 2 [exMachine 8 fun w => ⟨f64 (w 0)⟩] (List.replicate 8 0) out := by
  obtain ⟨_, _, _, _, h⟩ := C134_image_partial true 2 2 (by norm_num) ⟨![0, 0, 0], ![2, 2, 2]⟩
    [exMachine 8 fun w => ⟨f64 (w 0)⟩] (fun p hp => by
      rw [List.mem_singleton.mp hp]
      exact exMachine_ok _ _ _ (fun h => by cases h))
    (fun p hp _ => by rw [List.mem_singleton.mp hp]; rfl)
    (fun p hp w => by rw [List.mem_singleton.mp hp]; exact f64_rep _)
  exact (h (List.replicate 8 0) (by decide) (fun v hv => List.eq_of_mem_replicate hv)).1

/-- The pass for densities. -/
def exMachineDensity : SegRun R64 := exMachine 8 fun _ => ⟨mcPtVal64 2 1 (rendererPtVal64 2 1)⟩

theorem exMachineDensity_ok : ∀ p ∈ [exMachineDensity], Machine p false 2 ⟨![0, 0, 0], ![2, 2, 2]⟩ := by
  intro p hp
  rw [List.mem_singleton.mp hp]
  exact exMachine_ok _ _ _ (fun _ _ _ => rfl)

theorem exMachineDensity_zero : ∀ p ∈ [exMachineDensity], ∀ id, (p.init id).cells =
    List.replicate (bufferSize3 p.mc.buf).toNat 0 := by
  intro p hp _
  rw [List.mem_singleton.mp hp]
  rfl

/-- The conditions of the density image are met. -/
example : ∃ U : List (ℤ × ℤ × ℤ × Fin 6 → List Vec), ∀ out, Rendered false 2 [exMachineDensity] (List.replicate 8 0) out →
    ∃ v, rd out 7 = some v ∧ |v.val - exactImage [exMachineDensity] U 1 1 1| ≤
      absImage [exMachineDensity] U 1 1 1 * sumErr (countImage [exMachineDensity] U 1 1 1) := by
  obtain ⟨U, _, h⟩ := C134_density_partial 2 2 (by norm_num) ⟨![0, 0, 0], ![2, 2, 2]⟩ [exMachineDensity]
    exMachineDensity_ok exMachineDensity_zero (fun p hp w => by rw [List.mem_singleton.mp hp]; exact f64_rep _)
    (fun p hp => by rw [List.mem_singleton.mp hp]; exact exMachine_off)
  refine ⟨U, fun out ho => ?_⟩
  obtain ⟨v, h1, h2⟩ := ((h (List.replicate 8 0) (by decide) (fun v hv => List.eq_of_mem_replicate hv)).2 out ho).2 1 1 1
    (by unfold IsCell; decide)
  exact ⟨v, h1, h2⟩

/-- With three workers and 12 samples the total density is 8 within `2 ^ -45`, and such an execution exists. -/
example : (∃ out, Rendered false 2 [exMachineDensity] (List.replicate 8 0) out) ∧
    ∀ out, Rendered false 2 [exMachineDensity] (List.replicate 8 0) out → |(out.map R64.val).sum - 8| ≤ 1 / 2 ^ 45 := by
  obtain ⟨h1, h2⟩ := C134_mean 2 2 1 ⟨![0, 0, 0], ![2, 2, 2]⟩ (fun j => by fin_cases j <;> rfl) [exMachineDensity]
    exMachineDensity_ok exMachineDensity_zero
    (by constructor <;> simp [exMachineDensity, exMachine, exMachineMC, exMC])
    (fun p hp w => by rw [List.mem_singleton.mp hp]; rfl)
    (List.replicate 8 0) (by decide) (fun v hv => List.eq_of_mem_replicate hv)
  refine ⟨h1, fun out h => ?_⟩
  have := h2 out h
  rw [show ([exMachineDensity].map samples).sum = 12 by
    simp [samples, exMachineDensity, exMachine, exMachineMC, exMC]] at this
  norm_num at this ⊢
  linarith

/-- The same for the projection of that segment along any axis, a total of 4. -/
example (proj : ℤ) (hproj : 0 ≤ proj ∧ proj < 3) :
    let p := exMachine (bufferSize2 exMC.buf proj).toNat fun _ =>
      (⟨projPtVal64 ⟨![0, 0, 0], ![2, 2, 2]⟩ proj (mcPtVal64 2 1 (rendererPtVal64 2 1))⟩ : R64)
    (∃ out, Rendered2 proj false 2 [p] (List.replicate 4 0) out) ∧
    ∀ out, Rendered2 proj false 2 [p] (List.replicate 4 0) out → |(out.map R64.val).sum - 4| ≤ 1 / 2 ^ 45 := by
  intro p
  have hw : ∀ j, (⟨![0, 0, 0], ![2, 2, 2]⟩ : CellBounds).width j = 2 := fun j => by fin_cases j <;> rfl
  obtain ⟨h1, h2⟩ := C134_mean_project proj hproj 2 2 1 ⟨![0, 0, 0], ![2, 2, 2]⟩ (fun j => (hw j).ge)
    (by rw [hw]; norm_num) [p]
    (fun q hq => by
      rw [List.mem_singleton.mp hq]
      exact exMachine_ok _ _ _ (fun _ _ _ => rfl))
    (fun q hq _ => by rw [List.mem_singleton.mp hq]; rfl)
    (by constructor <;> simp [p, exMachine, exMachineMC, exMC]) (fun q hq w => by rw [List.mem_singleton.mp hq]; rfl)
    (List.replicate 4 0) (by rw [boxLen2, hw, hw]; rfl) (fun v hv => List.eq_of_mem_replicate hv)
  refine ⟨h1, fun out h => ?_⟩
  have := h2 out h
  rw [show ([p].map samples).sum = 12 by simp [p, samples, exMachine, exMachineMC, exMC], hw] at this
  norm_num at this ⊢
  linarith

/-- The conditions on particles in a file are met, here across the edge of the box. -/
example : let xs : List ℚ := [7.5, 0.25, 1.25]
    (∀ x ∈ xs, ∃ k : ℤ, (7.5 : ℚ) ≤ x + k * 8 ∧ x + k * 8 ≤ 7.5 + 1.75) ∧
      (∀ x ∈ xs, ∀ z : ℤ, (4 * ((moves 8 ⟨7.5, 0, 0⟩ xs : ℚ) + 3) + 52) * ((8 : ℤ) / 2 ^ 24) < |x * (8 : ℤ) / 8 - z|) ∧
      (1.75 : ℚ) + 2 * ((moves 8 ⟨7.5, 0, 0⟩ xs + 3) * (8 / 2 ^ 22)) ≤ 8 / 2 := by
  have hmv : moves 8 ⟨7.5, 0, 0⟩ [7.5, 0.25, 1.25] ≤ 3 := moves_le_length _ _ _
  have hmv' : ((moves 8 ⟨7.5, 0, 0⟩ [7.5, 0.25, 1.25] : ℕ) : ℚ) ≤ 3 := by exact_mod_cast hmv
  refine ⟨?_, ?_, by linarith⟩
  · intro x hx
    simp only [List.mem_cons, List.not_mem_nil, or_false] at hx
    rcases hx with rfl | rfl | rfl
    · exact ⟨0, by norm_num⟩
    · exact ⟨1, by norm_num⟩
    · exact ⟨1, by norm_num⟩
  · intro x hx z
    have hb : (4 * ((moves 8 ⟨7.5, 0, 0⟩ [7.5, 0.25, 1.25] : ℚ) + 3) + 52) * ((8 : ℤ) / 2 ^ 24) < 1 / 8 := by
      push_cast
      linarith
    refine hb.trans (off_of_floor ?_ ?_ z) <;> revert x <;> decide +kernel

/-! ## Close to the faces -/

/-- A segment of one cube whose particles are all just below the upper end of a buffer of eight cells. -/
def edgeMC (A : Arith) : MC :=
  ⟨1, 1, 8, 1, [unitBuf32 [(6754192 / 2 ^ 24, 9236797 / 2 ^ 24, 13746497 / 2 ^ 24)]],
    ⟨![0, 0, 0], ![8, 1, 1]⟩, ⟨![0, 0, 0], ![8, 1, 1]⟩, A⟩

def edgeXs : List Vec :=
  (List.range 8).map fun i => ![if i = 1 then 8 - 2 / 2 ^ 21 else 8 - 1 / 2 ^ 21, 1 / 2, 1 / 2]

/-- The pass over it. -/
def edgePass (A : Arith) : Option (MCState ℚ) :=
  mcInterpolate (edgeMC A) false (segSub (edgeMC A) fun _ => 1) (fun _ => 0) edgeXs [] 0 1 1
    ⟨newTetra 0 0 0 0, newTetra 0 0 0 0, [0], [], 0, List.replicate (bufferSize3 (edgeMC A).buf).toNat 0⟩

/-- **C134**: the distance from the faces of cells is needed. All particles of this segment are inside its buffer, and with
exact arithmetic all samples are in the last cell; with rounding a sample lands at the end of the buffer, and the index is
out of range. -/
theorem C134_counterexample :
    (∀ x ∈ edgeXs, ∀ j, F32 (x j) ∧ 0 ≤ x j ∧ x j < (edgeMC machine).buf.width j) ∧
    (edgePass .exact).map (·.cells) = some [0, 0, 0, 0, 0, 0, 0, 6] ∧ edgePass machine = none := by
  refine ⟨?_, by decide +kernel, by decide +kernel⟩
  have h : ∀ x ∈ edgeXs, ∀ j, (x j = (2 ^ 24 - 1) / 2 ^ 21 ∨ x j = (2 ^ 24 - 2) / 2 ^ 21 ∨ x j = 1 / 2) ∧
    0 ≤ x j ∧ x j < (edgeMC machine).buf.width j := by decide +kernel
  intro x hx j
  obtain ⟨h1, h2⟩ := h x hx j
  refine ⟨?_, h2⟩
  rcases h1 with h1 | h1 | h1 <;> rw [h1]
  · exact ⟨2 ^ 24 - 1, -21, by norm_num, by norm_num⟩
  · exact ⟨2 ^ 24 - 2, -21, by norm_num, by norm_num⟩
  · exact ⟨1, -1, by norm_num, by norm_num⟩

end Verif.Fp
