import Verif.Render.McTotal
import Verif.Render.Schedule

/-!
# The image of a list of segments: C107

From the samples of one segment (C94) and the concurrent run of one pass (C46) to the finished image.
-/

set_option autoImplicit false

namespace Verif.Render

open Verif.Go Verif.Geom

variable {M : Type} [AddCommMonoid M] {m : ℕ}

/-! ## Passes over one image -/

/-- Everything that changes from one pass of `RenderDensityFromFile` (render/render.go 257-278) to the next: the
interpolators, whether the overlap is a domain overlap or a segment overlap (render/box.go 163-211), the scaled
positions, the velocities, the draws of each worker's generator, the states `initWorkspaces` leaves (render/render.go
192-213), and the value of a sample. -/
structure SegRun (M : Type) where
  mc : MC
  direct : Bool
  xs : List Vec
  vs : List Vec
  pick : ℕ → ℕ → ℤ
  init : ℕ → MCState M
  val : Vec → M

/-- `r.over.Interpolate` as called by `mcarlo.Interpolate`. render/box.go 540-582 and 642-683. -/
def SegRun.sub {M : Type} [Add M] (p : SegRun M) : List Vec → List Vec → List M → Option (List M) :=
  if p.direct then domSub p.mc p.val else segSub p.mc p.val

/-- `r.over.Add`. render/box.go 280-299 and 394-485. -/
def SegRun.add {M : Type} [Add M] (p : SegRun M) (buf grid : List M) : Option (List M) :=
  if p.direct then domAdd buf grid else seg3Add p.mc.buf p.mc.dom p.mc.cells buf grid

/-- The pass as a concurrent program: one operation of a worker is the visit of one tetrahedron. render/render.go
267-278 and 305-323. -/
def SegRun.job {M : Type} [Add M] (p : SegRun M) (reqVel : Bool) (m : ℕ) : Job M (MCState M) m where
  ops i := (workerVisits p.mc.segWidth p.mc.skip (m + 1) i.val).map
    fun v => mcVisit p.mc reqVel p.sub (p.pick i.val) p.xs p.vs v
  add s := p.add s.cells

/-- The passes one after the other, each under some schedule, with the contents of the image before and after.
render/render.go 230-237 and 257-278. -/
inductive Rendered {M : Type} [Add M] (reqVel : Bool) (m : ℕ) : List (SegRun M) → List M → List M → Prop
  | nil (grid : List M) : Rendered reqVel m [] grid grid
  | cons {p : SegRun M} {ps : List (SegRun M)} {grid out : List M} {n : ℕ} {fs : Sched M (MCState M) m}
      (h : Sched.Steps (p.job reqVel m) n (Sched.start (fun i => p.init i.val) grid) fs) (hf : fs.final)
      (hs : Rendered reqVel m ps fs.grid out) : Rendered reqVel m (p :: ps) grid out

/-! ## Conditions -/

/-- What is assumed about a pass for an image `dom` in a box of `cells` cells. -/
structure SegRun.Ok {M : Type} [Zero M] (p : SegRun M) (reqVel : Bool) (cells : ℤ) (dom : CellBounds) : Prop where
  mc : ∀ id, p.mc.Ok (p.pick id)
  hcells : p.mc.cells = cells
  hdom : p.mc.dom = dom
  val : reqVel = false → ∀ w w', p.val w = p.val w'
  xs : (p.xs.length : ℤ) = (p.mc.segWidth + 1) * (p.mc.segWidth + 1) * (p.mc.segWidth + 1)
  vs : reqVel = true → (p.vs.length : ℤ) = (p.mc.segWidth + 1) * (p.mc.segWidth + 1) * (p.mc.segWidth + 1)
  init : ∀ id, (p.init id).Ok p.mc reqVel
  zero : ∀ id, (p.init id).cells = List.replicate (bufferSize3 p.mc.buf).toNat 0
  seg : p.direct = false → Near cells p.mc.buf dom ∧
    (∀ j, -cells < dom.origin j - p.mc.buf.origin j ∧ dom.origin j - p.mc.buf.origin j < cells) ∧
    (∀ j, 0 ≤ p.mc.buf.width j) ∧ ∀ x ∈ p.xs, ∀ j, 0 ≤ x j ∧ x j < p.mc.buf.width j ∧ x j < cells
  direct : p.direct = true → p.mc.buf = dom ∧ (∀ j, 0 ≤ dom.width j) ∧
    ∀ x ∈ p.xs, ∀ j, ((-cells + 1 : ℤ) : ℚ) ≤ x j ∧ x j < ((2 * cells : ℤ) : ℚ)

/-- With a domain overlap, no sample has a coordinate that is zero or a negative whole number of cells. -/
def SegRun.OffFaces {M : Type} (p : SegRun M) : Prop := p.direct = true →
  ∀ t ∈ tetras (p.mc.segWidth / p.mc.skip), ∀ u ∈ p.mc.unitBufs, ∀ q ∈ u, ∀ j, ∀ k : ℤ, k ≤ 0 →
    mix (segCorners p.mc p.xs t) q j ≠ k

/-- What the pass adds to an image cell when the unit buffers `U` are drawn. -/
def SegRun.image (p : SegRun M) (U : ℤ × ℤ × ℤ × Fin 6 → List Vec) (x y z : ℤ) : M :=
  sampleImage p.mc.cells p.mc.buf p.mc.dom p.mc.points.toNat (p.mc.segWidth / p.mc.skip) (segCorners p.mc p.xs)
    (segCorners p.mc p.vs) p.val U x y z

/-- The values of all samples of the pass. -/
def SegRun.total (p : SegRun M) (U : ℤ × ℤ × ℤ × Fin 6 → List Vec) : M :=
  sampleTotal p.mc.points.toNat (p.mc.segWidth / p.mc.skip) (segCorners p.mc p.vs) p.val U

/-- The pass runs to the end, and adds `I U` to the image when the unit buffers `U` are drawn. -/
def SegRun.Draws (p : SegRun M) (reqVel : Bool) (m : ℕ) (cells : ℤ) (dom : CellBounds)
    (I : (ℤ × ℤ × ℤ × Fin 6 → List Vec) → ℤ → ℤ → ℤ → M) : Prop :=
  ∃ (fin : Fin (m + 1) → MCState M) (G : Fin (m + 1) → ℤ → M) (U : ℤ × ℤ × ℤ × Fin 6 → List Vec),
    (∀ t, U t ∈ p.mc.unitBufs) ∧ (∀ i, runOps ((p.job reqVel m).ops i) (p.init i.val) = some (fin i)) ∧
    (∀ i, Adds (boxLen3 dom) ((p.job reqVel m).add (fin i)) (G i)) ∧
    ∀ x y z, IsCell dom.width x y z →
      ∑ i, G i (x + y * dom.width 0 + z * (dom.width 0 * dom.width 1)) =
        if x < cells ∧ y < cells ∧ z < cells then I U x y z else 0

/-- The pass runs to the end, and the sum over the image grows by `T U` when the unit buffers `U` are drawn. -/
def SegRun.Gives (p : SegRun M) (reqVel : Bool) (m : ℕ) (dom : CellBounds)
    (T : (ℤ × ℤ × ℤ × Fin 6 → List Vec) → M) : Prop :=
  ∃ (fin : Fin (m + 1) → MCState M) (G : Fin (m + 1) → ℤ → M) (U : ℤ × ℤ × ℤ × Fin 6 → List Vec),
    (∀ t, U t ∈ p.mc.unitBufs) ∧ (∀ i, runOps ((p.job reqVel m).ops i) (p.init i.val) = some (fin i)) ∧
    (∀ i, Adds (boxLen3 dom) ((p.job reqVel m).add (fin i)) (G i)) ∧
    ∑ c ∈ Finset.Ico 0 (boxLen3 dom), ∑ i, G i c = T U

theorem SegRun.runs {p : SegRun M} {reqVel : Bool} {cells : ℤ} {dom : CellBounds} (h : p.Ok reqVel cells dom)
    (hoff : p.OffFaces) (hc : 0 < cells) (m : ℕ) :
    p.Draws reqVel m cells dom p.image := by
  have key : ∃ (s' : ℕ → MCState M) (G : ℕ → ℤ → M) (U : ℤ × ℤ × ℤ × Fin 6 → List Vec), (∀ t, U t ∈ p.mc.unitBufs) ∧
      (∀ id < m + 1,
        mcInterpolate p.mc reqVel p.sub (p.pick id) p.xs p.vs id (segLen p.mc.segWidth p.mc.skip) ((m + 1 : ℕ) : ℤ)
          (p.init id) = some (s' id) ∧
        Adds (boxLen3 p.mc.dom) (p.add (s' id).cells) (G id)) ∧
      ∀ x y z, IsCell p.mc.dom.width x y z →
        ∑ id ∈ Finset.range (m + 1),
          G id (x + y * p.mc.dom.width 0 + z * (p.mc.dom.width 0 * p.mc.dom.width 1)) =
            if x < p.mc.cells ∧ y < p.mc.cells ∧ z < p.mc.cells then p.image U x y z else 0 := by
    have hc' : 0 < p.mc.cells := by rw [h.hcells]; exact hc
    cases hd : p.direct with
    | false =>
      obtain ⟨h1, h2, h3, h4⟩ := h.seg hd
      rw [← h.hcells, ← h.hdom] at h1 h2
      rw [← h.hcells] at h4
      have := C94_segment p.mc p.pick h.mc hc' h1 h2 h3 reqVel p.val h.val p.xs p.vs h.xs h.vs h4 (m + 1)
        (Nat.succ_pos m) p.init h.init h.zero
      have e1 : p.sub = segSub p.mc p.val := by unfold SegRun.sub; rw [hd]; rfl
      have e2 : p.add = seg3Add p.mc.buf p.mc.dom p.mc.cells := by
        funext b g; unfold SegRun.add; rw [hd]; rfl
      rw [e1, e2]
      exact this
    | true =>
      obtain ⟨h1, h2, h3⟩ := h.direct hd
      rw [← h.hdom] at h1 h2
      rw [← h.hcells] at h3
      have := C94_domain_partial p.mc p.pick h.mc hc' h1 h2 reqVel p.val h.val p.xs p.vs h.xs h.vs h3 (hoff hd) (m + 1)
        (Nat.succ_pos m) p.init h.init h.zero
      have e1 : p.sub = domSub p.mc p.val := by unfold SegRun.sub; rw [hd]; rfl
      have e2 : p.add = domAdd := by
        funext b g; unfold SegRun.add; rw [hd]; rfl
      rw [e1, e2]
      exact this
  obtain ⟨s', G, U, hU, hrun, hsum⟩ := key
  rw [h.hdom, h.hcells] at hsum
  rw [h.hdom] at hrun
  refine ⟨fun i => s' i.val, fun i => G i.val, U, hU, fun i => ?_, fun i => (hrun i.val i.isLt).2, fun x y z hcell => ?_⟩
  · have := (hrun i.val i.isLt).1
    rw [mcInterpolate_visits] at this
    unfold runOps SegRun.job
    rw [List.foldlM_map]
    rw [← this]
    push_cast
    rfl
  · rw [← hsum x y z hcell, Finset.sum_range]

/-- The passes one after the other. -/
theorem image_of_draws (reqVel : Bool) (m : ℕ) (cells : ℤ) (dom : CellBounds) (ps : List (SegRun M))
    (I : SegRun M → (ℤ × ℤ × ℤ × Fin 6 → List Vec) → ℤ → ℤ → ℤ → M) (hps : ∀ p ∈ ps, p.Draws reqVel m cells dom (I p)) :
    ∃ U : List (ℤ × ℤ × ℤ × Fin 6 → List Vec), List.Forall₂ (fun p u => ∀ t, u t ∈ p.mc.unitBufs) ps U ∧
      ∀ grid : List M, (grid.length : ℤ) = boxLen3 dom →
        (∃ out, Rendered reqVel m ps grid out) ∧
        ∀ out, Rendered reqVel m ps grid out →
          Grew3 dom.width grid out (fun x y z => if x < cells ∧ y < cells ∧ z < cells then
            (List.zipWith (fun p u => I p u x y z) ps U).sum else 0) := by
  induction ps with
  | nil =>
    refine ⟨[], .nil, fun grid hg => ⟨⟨grid, .nil grid⟩, ?_⟩⟩
    intro out h
    cases h
    refine ⟨rfl, fun x y z hcell => ?_⟩
    have hr := flat_range hcell
    obtain ⟨v, hv⟩ := rd_isSome (xs := grid) hr.1 (by rw [hg]; exact hr.2)
    exact ⟨v, hv, by simpa using hv⟩
  | cons p ps ih =>
    obtain ⟨fin, G, U, hU, hfin, hadd, hsum⟩ := hps p (by simp)
    obtain ⟨Us, hUs, hall⟩ := ih (fun q hq => hps q (by simp [hq]))
    refine ⟨U :: Us, .cons hU hUs, fun grid hg => ?_⟩
    have hgc : Cells (boxLen3 dom) grid (fun i => grid.getD i.toNat 0) := by
      have := cells_self grid
      rwa [hg] at this
    have hfinal : ∀ n fs, Sched.Steps (p.job reqVel m) n (Sched.start (fun i => p.init i.val) grid) fs → fs.final →
        Cells (boxLen3 dom) fs.grid (fun c => grid.getD c.toNat 0 + ∑ i, G i c) := by
      intro n fs hs hf
      exact ((C46_schedule (p.job reqVel m) (fun i => p.init i.val) fin (boxLen3 dom) G hfin hadd grid _ hgc n fs hs).2.2
        hf).2.1
    constructor
    · obtain ⟨k, fs, hs, hf⟩ := C46_terminates (p.job reqVel m) (fun i => p.init i.val) fin (boxLen3 dom) G hfin hadd
        grid _ hgc 0 _ (.refl _)
      obtain ⟨out, hout⟩ := (hall fs.grid (hfinal _ _ hs hf).1).1
      exact ⟨out, .cons hs hf hout⟩
    · intro out h
      cases h with
      | cons h1 h2 h3 =>
        have hc1 := hfinal _ _ h1 h2
        have hg3 := (hall _ hc1.1).2 out h3
        refine ⟨by rw [hg3.1]; have := hc1.1; omega, fun x y z hcell => ?_⟩
        have hr := flat_range hcell
        obtain ⟨v, hv, hv'⟩ := hg3.2 x y z hcell
        refine ⟨_, hgc.2 _ hr.1 hr.2, ?_⟩
        rw [hc1.2 _ hr.1 hr.2] at hv
        rw [hv', ← Option.some.inj hv]
        beta_reduce
        rw [hsum x y z hcell, List.zipWith_cons_cons, List.sum_cons, add_assoc]
        congr 2
        split_ifs
        · rfl
        · exact add_zero 0

/-- **C107**: whatever the schedules, the passes run to the end, and the finished image is the image at the start plus,
for every segment, every tetrahedron of it and every sample of that, the value of the sample at its place of the
periodic box. Of an image wider than the box only the first period is filled. -/
theorem C107_image_partial (reqVel : Bool) (m : ℕ) (cells : ℤ) (hc : 0 < cells) (dom : CellBounds)
    (ps : List (SegRun M)) (hps : ∀ p ∈ ps, p.Ok reqVel cells dom) (hoff : ∀ p ∈ ps, p.OffFaces) :
    ∃ U : List (ℤ × ℤ × ℤ × Fin 6 → List Vec), List.Forall₂ (fun p u => ∀ t, u t ∈ p.mc.unitBufs) ps U ∧
      ∀ grid : List M, (grid.length : ℤ) = boxLen3 dom →
        (∃ out, Rendered reqVel m ps grid out) ∧
        ∀ out, Rendered reqVel m ps grid out →
          Grew3 dom.width grid out (fun x y z => if x < cells ∧ y < cells ∧ z < cells then
            (List.zipWith (fun p u => SegRun.image p u x y z) ps U).sum else 0) := by
  exact image_of_draws reqVel m cells dom ps SegRun.image fun p hp => SegRun.runs (hps p hp) (hoff p hp) hc m

/-! ## Mean density -/

theorem Grew3.sum {w : IVec} (hw : ∀ j, 0 ≤ w j) {old new : List M} {G : ℤ → ℤ → ℤ → M} (h : Grew3 w old new G)
    (hl : (old.length : ℤ) = w 0 * w 1 * w 2) : new.sum = old.sum + ∑ b ∈ boxCells w, G b.1 b.2.1 b.2.2 := by
  have h1 := cells_self old
  have h2 := cells_self new
  rw [hl] at h1
  rw [h.1, hl] at h2
  rw [sum_cells h1, sum_cells h2, sum_boxCells hw, sum_boxCells hw, ← Finset.sum_add_distrib]
  refine Finset.sum_congr rfl fun b hb => ?_
  simp only [boxCells, Finset.mem_product, Finset.mem_Ico] at hb
  have hr := flat_range (w := w) (x := b.1) (y := b.2.1) (z := b.2.2) hb
  obtain ⟨v, hv, hv'⟩ := h.2 b.1 b.2.1 b.2.2 hb
  rw [h1.2 _ hr.1 hr.2] at hv
  rw [h2.2 _ hr.1 hr.2] at hv'
  have e1 := Option.some.inj hv
  have e2 := Option.some.inj hv'
  beta_reduce at e1 e2
  rw [e2, ← e1]

/-- The density rendered from one segment: `ptVal` for every cube of the segment. -/
theorem density_sum (p : SegRun ℚ) (cells countWidth : ℤ) (hs : 0 < p.mc.skip)
    (hdvd : p.mc.skip ∣ p.mc.segWidth) (hseg : 0 ≤ p.mc.segWidth) (hpts : 0 < p.mc.points)
    (hval : ∀ w, p.val w = mcPtVal false p.mc.points p.mc.skip (rendererPtVal false cells countWidth))
    (U : ℤ × ℤ × ℤ × Fin 6 → List Vec) :
    ∑ t ∈ tetras (p.mc.segWidth / p.mc.skip), ∑ i ∈ Finset.range p.mc.points.toNat,
      p.val (mix (segCorners p.mc p.vs t) ((U t).getD i 0)) =
    ((cells : ℚ) / countWidth) ^ 3 * (p.mc.segWidth : ℚ) ^ 3 := by
  simp only [hval]
  obtain ⟨n, hn⟩ := hdvd
  have hn' : p.mc.segWidth / p.mc.skip = n := by rw [hn]; exact Int.mul_ediv_cancel_left _ hs.ne'
  have hn0 : 0 ≤ n := by rw [← hn']; exact Int.ediv_nonneg hseg hs.le
  have hcard : ((tetras n).card : ℚ) = 6 * (n : ℚ) ^ 3 := by
    unfold tetras
    rw [Finset.card_product, Finset.card_product, Finset.card_product, Int.card_Ico, Finset.card_univ, Fintype.card_fin]
    obtain ⟨k, rfl⟩ := Int.eq_ofNat_of_zero_le hn0
    simp only [sub_zero, Int.toNat_natCast]
    push_cast
    ring
  rw [hn', Finset.sum_const, Finset.sum_const, Finset.card_range, nsmul_eq_mul, nsmul_eq_mul, hcard, hn]
  obtain ⟨k, hk⟩ := Int.eq_ofNat_of_zero_le hpts.le
  have hk0 : (k : ℚ) ≠ 0 := by
    have : k ≠ 0 := by rintro rfl; omega
    exact_mod_cast this
  unfold mcPtVal rendererPtVal
  rw [hk]
  simp only [Int.toNat_natCast]
  push_cast
  field_simp

theorem SegRun.runs_total {p : SegRun M} {reqVel : Bool} {cells : ℤ} {dom : CellBounds} (h : p.Ok reqVel cells dom)
    (hc : 0 < cells) (hwide : ∀ j, cells ≤ dom.width j) (m : ℕ) :
    p.Gives reqVel m dom p.total := by
  have key : ∃ (s' : ℕ → MCState M) (G : ℕ → ℤ → M) (U : ℤ × ℤ × ℤ × Fin 6 → List Vec), (∀ t, U t ∈ p.mc.unitBufs) ∧
      (∀ id < m + 1,
        mcInterpolate p.mc reqVel p.sub (p.pick id) p.xs p.vs id (segLen p.mc.segWidth p.mc.skip) ((m + 1 : ℕ) : ℤ)
          (p.init id) = some (s' id) ∧
        Adds (boxLen3 p.mc.dom) (p.add (s' id).cells) (G id)) ∧
      ∑ c ∈ Finset.Ico 0 (boxLen3 p.mc.dom), ∑ id ∈ Finset.range (m + 1), G id c = p.total U := by
    have hc' : 0 < p.mc.cells := by rw [h.hcells]; exact hc
    have hwide' : ∀ j, p.mc.cells ≤ p.mc.dom.width j := by rw [h.hcells, h.hdom]; exact hwide
    cases hd : p.direct with
    | false =>
      obtain ⟨h1, h2, h3, h4⟩ := h.seg hd
      rw [← h.hcells, ← h.hdom] at h1 h2
      rw [← h.hcells] at h4
      have := C94_segment_total p.mc p.pick h.mc hc' h1 hwide' h2 h3 reqVel p.val h.val p.xs p.vs h.xs h.vs h4 (m + 1)
        (Nat.succ_pos m) p.init h.init h.zero
      have e1 : p.sub = segSub p.mc p.val := by unfold SegRun.sub; rw [hd]; rfl
      have e2 : p.add = seg3Add p.mc.buf p.mc.dom p.mc.cells := by
        funext b g; unfold SegRun.add; rw [hd]; rfl
      rw [e1, e2]
      exact this
    | true =>
      obtain ⟨h1, -, h3⟩ := h.direct hd
      rw [← h.hdom] at h1
      rw [← h.hcells] at h3
      have := C94_domain_total p.mc p.pick h.mc hc' h1 hwide' reqVel p.val h.val p.xs p.vs h.xs h.vs h3 (m + 1)
        (Nat.succ_pos m) p.init h.init h.zero
      have e1 : p.sub = domSub p.mc p.val := by unfold SegRun.sub; rw [hd]; rfl
      have e2 : p.add = domAdd := by
        funext b g; unfold SegRun.add; rw [hd]; rfl
      rw [e1, e2]
      exact this
  obtain ⟨s', G, U, hU, hrun, hsum⟩ := key
  rw [h.hdom] at hrun hsum
  refine ⟨fun i => s' i.val, fun i => G i.val, U, hU, fun i => ?_, fun i => (hrun i.val i.isLt).2, ?_⟩
  · have := (hrun i.val i.isLt).1
    rw [mcInterpolate_visits] at this
    unfold runOps SegRun.job
    rw [List.foldlM_map]
    rw [← this]
    push_cast
    rfl
  · rw [← hsum]
    exact Finset.sum_congr rfl fun c _ => (Finset.sum_range (fun id => G id c)).symm

/-- The passes one after the other. -/
theorem total_of_gives (reqVel : Bool) (m : ℕ) (dom : CellBounds) (ps : List (SegRun M))
    (T : SegRun M → (ℤ × ℤ × ℤ × Fin 6 → List Vec) → M) (hps : ∀ p ∈ ps, p.Gives reqVel m dom (T p)) :
    ∃ U : List (ℤ × ℤ × ℤ × Fin 6 → List Vec), List.Forall₂ (fun p u => ∀ t, u t ∈ p.mc.unitBufs) ps U ∧
      ∀ grid : List M, (grid.length : ℤ) = boxLen3 dom →
        (∃ out, Rendered reqVel m ps grid out) ∧
        ∀ out, Rendered reqVel m ps grid out →
          out.length = grid.length ∧ out.sum = grid.sum + (List.zipWith T ps U).sum := by
  induction ps with
  | nil =>
    refine ⟨[], .nil, fun grid hg => ⟨⟨grid, .nil grid⟩, ?_⟩⟩
    intro out h
    cases h
    exact ⟨rfl, by simp⟩
  | cons p ps ih =>
    obtain ⟨fin, G, U, hU, hfin, hadd, hsum⟩ := hps p (by simp)
    obtain ⟨Us, hUs, hall⟩ := ih (fun q hq => hps q (by simp [hq]))
    refine ⟨U :: Us, .cons hU hUs, fun grid hg => ?_⟩
    have hgc : Cells (boxLen3 dom) grid (fun i => grid.getD i.toNat 0) := by
      have := cells_self grid
      rwa [hg] at this
    have hfinal : ∀ n fs, Sched.Steps (p.job reqVel m) n (Sched.start (fun i => p.init i.val) grid) fs → fs.final →
        Cells (boxLen3 dom) fs.grid (fun c => grid.getD c.toNat 0 + ∑ i, G i c) := by
      intro n fs hs hf
      exact ((C46_schedule (p.job reqVel m) (fun i => p.init i.val) fin (boxLen3 dom) G hfin hadd grid _ hgc n fs hs).2.2
        hf).2.1
    constructor
    · obtain ⟨k, fs, hs, hf⟩ := C46_terminates (p.job reqVel m) (fun i => p.init i.val) fin (boxLen3 dom) G hfin hadd
        grid _ hgc 0 _ (.refl _)
      obtain ⟨out, hout⟩ := (hall fs.grid (hfinal _ _ hs hf).1).1
      exact ⟨out, .cons hs hf hout⟩
    · intro out h
      cases h with
      | cons h1 h2 h3 =>
        have hc1 := hfinal _ _ h1 h2
        obtain ⟨hl, he⟩ := (hall _ hc1.1).2 out h3
        refine ⟨by rw [hl]; have := hc1.1; omega, ?_⟩
        rw [he, sum_cells hc1, Finset.sum_add_distrib, hsum, ← sum_cells hgc, List.zipWith_cons_cons, List.sum_cons,
          add_assoc]

/-- **C107**: nothing is lost from an image at least as wide as the box. Whatever the positions, the draws and the
schedules, the passes run to the end, and the sum over the image grows by the values of all samples of all tetrahedra of
all segments. -/
theorem C107_total (reqVel : Bool) (m : ℕ) (cells : ℤ) (hc : 0 < cells) (dom : CellBounds)
    (hwide : ∀ j, cells ≤ dom.width j) (ps : List (SegRun M)) (hps : ∀ p ∈ ps, p.Ok reqVel cells dom) :
    ∃ U : List (ℤ × ℤ × ℤ × Fin 6 → List Vec), List.Forall₂ (fun p u => ∀ t, u t ∈ p.mc.unitBufs) ps U ∧
      ∀ grid : List M, (grid.length : ℤ) = boxLen3 dom →
        (∃ out, Rendered reqVel m ps grid out) ∧
        ∀ out, Rendered reqVel m ps grid out →
          out.length = grid.length ∧ out.sum = grid.sum + (List.zipWith SegRun.total ps U).sum := by
  exact total_of_gives reqVel m dom ps SegRun.total fun p hp => SegRun.runs_total (hps p hp) hc hwide m

/-- **C107**: when the segments are the whole periodic box, an image at least as wide as the box, `cells` cells per side,
gains `cells ^ 3`, one per cell of the box. If it is exactly as wide, the mean of the rendered density is the mean density
of the box; `NewBox` makes it one pixel wider (C51), and then it is less. -/
theorem C107_mean (m : ℕ) (cells countWidth : ℤ) (hc : 0 < cells) (hN : 0 < countWidth) (dom : CellBounds)
    (hd : ∀ j, cells ≤ dom.width j) (ps : List (SegRun ℚ)) (hps : ∀ p ∈ ps, p.Ok false cells dom)
    (hpts : ∀ p ∈ ps, 0 < p.mc.points) (hdvd : ∀ p ∈ ps, p.mc.skip ∣ p.mc.segWidth)
    (hval : ∀ p ∈ ps, ∀ w, p.val w = mcPtVal false p.mc.points p.mc.skip (rendererPtVal false cells countWidth))
    (hall : (ps.map fun p => p.mc.segWidth ^ 3).sum = countWidth ^ 3) (grid out : List ℚ)
    (hg : (grid.length : ℤ) = boxLen3 dom) (h : Rendered false m ps grid out) :
    out.sum = grid.sum + cells ^ 3 ∧ out.length = grid.length ∧
      ((∀ j, dom.width j = cells) → (out.length : ℤ) = cells ^ 3) := by
  obtain ⟨U, hU, hrun⟩ := C107_total false m cells hc dom hd ps hps
  obtain ⟨hl, hs⟩ := (hrun grid hg).2 out h
  refine ⟨?_, hl, fun he => by rw [hl, hg]; unfold boxLen3; rw [he, he, he]; ring⟩
  rw [hs]
  congr 1
  have key : ∀ (qs : List (SegRun ℚ)) (V : List (ℤ × ℤ × ℤ × Fin 6 → List Vec)),
      List.Forall₂ (fun p u => ∀ t, u t ∈ p.mc.unitBufs) qs V → (∀ q ∈ qs, q ∈ ps) →
      (List.zipWith SegRun.total qs V).sum =
        ((cells : ℚ) / countWidth) ^ 3 * (((qs.map fun p => p.mc.segWidth ^ 3).sum : ℤ) : ℚ) := by
    intro qs V hV
    induction hV with
    | nil => intro _; simp
    | cons hu hrest ih =>
      rename_i p u qs V
      intro hq
      have hp := hq p (by simp)
      have hok := hps p hp
      simp only [List.zipWith_cons_cons, List.sum_cons, List.map_cons]
      rw [ih (fun q hq' => hq q (by simp [hq']))]
      unfold SegRun.total sampleTotal
      rw [density_sum p cells countWidth (hok.mc 0).skip (hdvd p hp) (hok.mc 0).seg (hpts p hp) (hval p hp) u]
      push_cast
      ring
  rw [key ps U hU (fun q hq => hq), hall]
  have : (countWidth : ℚ) ≠ 0 := by exact_mod_cast hN.ne'
  push_cast
  field_simp

/-! ## An example -/

/-- The eight particles of a segment of one cube. -/
def exXs : List Vec :=
  [![1/4, 1/4, 1/4], ![7/4, 1/4, 1/4], ![1/4, 7/4, 1/4], ![7/4, 7/4, 1/4],
   ![1/4, 1/4, 7/4], ![7/4, 1/4, 7/4], ![1/4, 7/4, 7/4], ![7/4, 7/4, 7/4]]

/-- Two unit buffers of two points; segment and image are the whole box of 2 cells. -/
def exMC : MC :=
  ⟨1, 2, 2, 1, [[![1/4, 1/4, 1/4], ![1/2, 1/4, 1/8]], [![1/8, 1/8, 1/8], ![0, 0, 1]]], ⟨![0, 0, 0], ![2, 2, 2]⟩,
    ⟨![0, 0, 0], ![2, 2, 2]⟩, .exact⟩

/-- One pass over that segment, through a segment or a domain buffer. -/
def exRunOf {M : Type} [Zero M] (direct : Bool) (val : Vec → M) : SegRun M :=
  ⟨exMC, direct, exXs, exXs, fun id n => ((id + n) % 2 : ℕ),
    fun _ => ⟨newTetra 0 0 0 0, newTetra 0 0 0 0, [0, 0], [0, 0], 0, List.replicate 8 0⟩, val⟩

/-- The same for densities. -/
def exRun (direct : Bool) : SegRun ℚ := exRunOf direct fun _ => mcPtVal false 2 1 (rendererPtVal false 2 1)

theorem exXs_bounds : ∀ x ∈ exXs, ∀ j, (1/4 : ℚ) ≤ x j ∧ x j < 2 := by decide +kernel

theorem exMC_unit : ∀ u ∈ exMC.unitBufs, ∀ p ∈ u, UnitPoint p := by
  intro u hu p hp
  simp only [exMC, List.mem_cons, List.not_mem_nil, or_false] at hu
  unfold UnitPoint
  rcases hu with rfl | rfl <;> simp only [List.mem_cons, List.not_mem_nil, or_false] at hp <;>
    rcases hp with rfl | rfl <;> decide +kernel

theorem exRun_ok {M : Type} [Zero M] (direct reqVel : Bool) (val : Vec → M) (hval : reqVel = false → ∀ w w', val w = val w') :
    (exRunOf direct val).Ok reqVel 2 ⟨![0, 0, 0], ![2, 2, 2]⟩ := by
  have hx := exXs_bounds
  have hunit := exMC_unit
  have hm1 : 0 ≤ exMC.segWidth := by decide
  have hm2 : 0 < exMC.skip := by decide
  have hm3 : Near 2 exMC.buf exMC.dom := by intro j; fin_cases j <;> decide
  have hm4 : ∀ j, -2 < exMC.dom.origin j - exMC.buf.origin j ∧ exMC.dom.origin j - exMC.buf.origin j < 2 := by
    intro j; fin_cases j <;> decide
  have hm5 : ∀ j, 0 ≤ exMC.buf.width j := by intro j; fin_cases j <;> decide
  cases direct
  all_goals
    refine ⟨fun id => ⟨hm1, hm2, fun u hu => ⟨?_, hunit u hu⟩, fun n => ?_, rfl⟩, rfl, rfl, hval,
      rfl, fun _ => rfl, fun _ => ⟨rfl, fun _ => le_refl (2 : ℤ)⟩, fun _ => rfl, fun _ => ⟨hm3, hm4, hm5, ?_⟩, fun _ => ⟨rfl, ?_, ?_⟩⟩
    · simp only [exRunOf, exMC, List.mem_cons, List.not_mem_nil, or_false] at hu
      rcases hu with rfl | rfl <;> rfl
    · show (0 : ℤ) ≤ ((id + n) % 2 : ℕ) ∧ (((id + n) % 2 : ℕ) : ℤ) < 2
      omega
    · intro x h j
      have := hx x h j
      refine ⟨by linarith, ?_, by push_cast; linarith⟩
      fin_cases j <;> (show x _ < ((2 : ℤ) : ℚ)) <;> (push_cast; exact this.2)
    · intro j; fin_cases j <;> decide
    · intro x h j
      have := hx x h j
      push_cast
      constructor <;> linarith

/-- All samples are off the faces, also with a segment buffer. -/
theorem exRun_faces : ∀ t ∈ tetras (exMC.segWidth / exMC.skip), ∀ u ∈ exMC.unitBufs, ∀ q ∈ u, ∀ j, ∀ k : ℤ, k ≤ 0 →
    mix (segCorners exMC exXs t) q j ≠ k := by
  intro t ht u hu q hq j k hk e
  have hb := inSimplex_bounds (mix_inSimplex (c := segCorners exMC exXs t) (exMC_unit u hu q hq)) (j := j)
    (a := 1/4) (b := 2) (fun i => exXs_bounds _ (corner_mem (mc := exMC) (by decide) (by decide) (mem_tetras.mp ht) _ i) j)
  have : (k : ℚ) ≤ 0 := by exact_mod_cast hk
  linarith [hb.1]

/-- The total density in the image is 8, one for each of its cells, whatever the schedule of three workers. -/
example (direct : Bool) (out : List ℚ) (h : Rendered false 2 [exRun direct] (List.replicate 8 0) out) :
    out.sum = 8 := by
  have := (C107_mean 2 2 1 (by norm_num) (by norm_num) ⟨![0, 0, 0], ![2, 2, 2]⟩ (fun j => by fin_cases j <;> rfl)
    [exRun direct] (fun r hr => by
      rw [List.mem_singleton.mp hr]
      exact exRun_ok direct false _ (fun _ _ _ => rfl)) (by simp [exRun, exRunOf, exMC]) (by simp [exRun, exRunOf, exMC])
    (by simp [exRun, exRunOf, exMC]) (by simp [exRun, exRunOf, exMC]) (List.replicate 8 0) out (by decide) h).1
  rw [this]
  norm_num

/-- Such an execution exists. -/
example (direct : Bool) : ∃ out, Rendered false 2 [exRun direct] (List.replicate 8 0) out := by
  obtain ⟨U, _, h⟩ := C107_image_partial false 2 2 (by norm_num) ⟨![0, 0, 0], ![2, 2, 2]⟩ [exRun direct]
    (fun r hr => by
      rw [List.mem_singleton.mp hr]
      exact exRun_ok direct false _ (fun _ _ _ => rfl))
    (fun r hr => by
      rw [List.mem_singleton.mp hr]
      exact fun _ => exRun_faces)
  exact (h (List.replicate 8 0) (by decide)).1

/-- The same for velocities: momentum and number of samples in each cell. -/
example (direct : Bool) : (exRunOf direct fun v => ((v, 1) : Vec × ℤ)).Ok true 2 ⟨![0, 0, 0], ![2, 2, 2]⟩ :=
  exRun_ok direct true _ (fun h => absurd h (by decide))

/-- A tetrahedron is skipped when the image is elsewhere, and drawn otherwise. -/
example : exMC.drawn (segCorners exMC exXs (0, 0, 0, 3)) = true ∧
    ({ exMC with cells := 8, dom := ⟨![4, 4, 4], ![2, 2, 2]⟩ } : MC).drawn (segCorners exMC exXs (0, 0, 0, 3)) = false := by
  decide +kernel

end Verif.Render
