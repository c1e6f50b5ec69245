import Verif.Render.Whole
import Verif.Render.McProject

/-!
# The projected image of a list of segments: C111
-/

set_option autoImplicit false

namespace Verif.Render

open Verif.Go Verif.Geom

variable {M : Type} [AddCommMonoid M] {m : ℕ}

/-! ## Passes over one projected image -/

/-- `r.over.Interpolate` of a projected image as called by `mcarlo.Interpolate`. render/box.go 491-534 and 588-636. -/
def SegRun.sub2 {M : Type} [Add M] (proj : ℤ) (p : SegRun M) : List Vec → List Vec → List M → Option (List M) :=
  if p.direct then dom2Sub p.mc proj p.val else seg2Sub p.mc proj p.val

/-- `r.over.Add` of a projected image. render/box.go 253-274 and 313-388. -/
def SegRun.add2 {M : Type} [Add M] (proj : ℤ) (p : SegRun M) (buf grid : List M) : Option (List M) :=
  if p.direct then domAdd buf grid else seg2Add p.mc.buf p.mc.dom p.mc.cells proj buf grid

/-- The pass as a concurrent program: one operation of a worker is the visit of one tetrahedron. render/render.go
267-278 and 305-323. -/
def SegRun.job2 {M : Type} [Add M] (proj : ℤ) (p : SegRun M) (reqVel : Bool) (m : ℕ) : Job M (MCState M) m where
  ops i := (workerVisits p.mc.segWidth p.mc.skip (m + 1) i.val).map
    fun v => mcVisit p.mc reqVel (p.sub2 proj) (p.pick i.val) p.xs p.vs v
  add s := p.add2 proj s.cells

/-- The passes one after the other, each under some schedule, with the contents of the image before and after.
render/render.go 230-237 and 257-278. -/
inductive Rendered2 {M : Type} [Add M] (proj : ℤ) (reqVel : Bool) (m : ℕ) : List (SegRun M) → List M → List M → Prop
  | nil (grid : List M) : Rendered2 proj reqVel m [] grid grid
  | cons {p : SegRun M} {ps : List (SegRun M)} {grid out : List M} {n : ℕ} {fs : Sched M (MCState M) m}
      (h : Sched.Steps (p.job2 proj reqVel m) n (Sched.start (fun i => p.init i.val) grid) fs) (hf : fs.final)
      (hs : Rendered2 proj reqVel m ps fs.grid out) : Rendered2 proj reqVel m (p :: ps) grid out

/-! ## Conditions -/

/-- What is assumed about a pass for an image `dom`, projected along axis `proj`, in a box of `cells` cells. -/
structure SegRun.Ok2 {M : Type} [Zero M] (proj : ℤ) (p : SegRun M) (reqVel : Bool) (cells : ℤ) (dom : CellBounds) :
    Prop where
  mc : ∀ id, p.mc.Ok (p.pick id)
  hcells : p.mc.cells = cells
  hdom : p.mc.dom = dom
  val : reqVel = false → ∀ w w', p.val w = p.val w'
  xs : (p.xs.length : ℤ) = (p.mc.segWidth + 1) * (p.mc.segWidth + 1) * (p.mc.segWidth + 1)
  vs : reqVel = true → (p.vs.length : ℤ) = (p.mc.segWidth + 1) * (p.mc.segWidth + 1) * (p.mc.segWidth + 1)
  init : ∀ id, (p.init id).Ok p.mc reqVel
  zero : ∀ id, (p.init id).cells = List.replicate (bufferSize2 p.mc.buf proj).toNat 0
  seg : p.direct = false → Near cells p.mc.buf dom ∧
    (∀ j, -cells < dom.origin j - p.mc.buf.origin j ∧ dom.origin j - p.mc.buf.origin j < cells) ∧
    (∀ j, 0 ≤ p.mc.buf.width j) ∧ ∀ x ∈ p.xs, ∀ j, 0 ≤ x j ∧ x j < p.mc.buf.width j ∧ x j < cells
  direct : p.direct = true → p.mc.buf = dom ∧ (∀ j, 0 ≤ dom.width j) ∧
    ∀ x ∈ p.xs, ∀ j, ((-cells + 1 : ℤ) : ℚ) ≤ x j ∧ x j < ((2 * cells : ℤ) : ℚ)

/-- With a segment overlap, no sample lies at depth zero of the segment, the plane at its low end along the axis of
projection. -/
def SegRun.OffDepth {M : Type} (proj : ℤ) (p : SegRun M) : Prop := p.direct = false →
  ∀ t ∈ tetras (p.mc.segWidth / p.mc.skip), ∀ u ∈ p.mc.unitBufs, ∀ q ∈ u,
    mix (segCorners p.mc p.xs t) q (projDims proj).2.2 ≠ 0

/-- What the pass adds to a pixel when the unit buffers `U` are drawn. -/
def SegRun.image2 (proj : ℤ) (p : SegRun M) (U : ℤ × ℤ × ℤ × Fin 6 → List Vec) (i j : ℤ) : M :=
  sampleColumn p.mc.cells p.mc.buf p.mc.dom proj p.mc.points.toNat (p.mc.segWidth / p.mc.skip) (segCorners p.mc p.xs)
    (segCorners p.mc p.vs) p.val U i j

/-- The pass runs to the end, and adds `I U` to the pixels when the unit buffers `U` are drawn. -/
def SegRun.Draws2 (proj : ℤ) (p : SegRun M) (reqVel : Bool) (m : ℕ) (cells : ℤ) (dom : CellBounds)
    (I : (ℤ × ℤ × ℤ × Fin 6 → List Vec) → ℤ → ℤ → M) : Prop :=
  ∃ (fin : Fin (m + 1) → MCState M) (G : Fin (m + 1) → ℤ → M) (U : ℤ × ℤ × ℤ × Fin 6 → List Vec),
    (∀ t, U t ∈ p.mc.unitBufs) ∧ (∀ i, runOps ((p.job2 proj reqVel m).ops i) (p.init i.val) = some (fin i)) ∧
    (∀ i, Adds (boxLen2 dom proj) ((p.job2 proj reqVel m).add (fin i)) (G i)) ∧
    ∀ i j, (0 ≤ i ∧ i < dom.width (projDims proj).1) → (0 ≤ j ∧ j < dom.width (projDims proj).2.1) →
      ∑ a, G a (i + j * dom.width (projDims proj).1) = if i < cells ∧ j < cells then I U i j else 0

theorem SegRun.runs2 {proj : ℤ} (hproj : 0 ≤ proj ∧ proj < 3) {p : SegRun M} {reqVel : Bool} {cells : ℤ}
    {dom : CellBounds} (h : p.Ok2 proj reqVel cells dom) (hoff : p.OffFaces) (hdep : p.OffDepth proj)
    (hc : 0 < cells) (m : ℕ) : p.Draws2 proj reqVel m cells dom (p.image2 proj) := by
  have key : ∃ (s' : ℕ → MCState M) (G : ℕ → ℤ → M) (U : ℤ × ℤ × ℤ × Fin 6 → List Vec), (∀ t, U t ∈ p.mc.unitBufs) ∧
      (∀ id < m + 1,
        mcInterpolate p.mc reqVel (p.sub2 proj) (p.pick id) p.xs p.vs id (segLen p.mc.segWidth p.mc.skip)
          ((m + 1 : ℕ) : ℤ) (p.init id) = some (s' id) ∧
        Adds (boxLen2 p.mc.dom proj) (p.add2 proj (s' id).cells) (G id)) ∧
      ∀ i j, (0 ≤ i ∧ i < p.mc.dom.width (projDims proj).1) → (0 ≤ j ∧ j < p.mc.dom.width (projDims proj).2.1) →
        ∑ id ∈ Finset.range (m + 1), G id (i + j * p.mc.dom.width (projDims proj).1) =
          if i < p.mc.cells ∧ j < p.mc.cells then p.image2 proj U i j else 0 := by
    have hc' : 0 < p.mc.cells := by rw [h.hcells]; exact hc
    cases hd : p.direct with
    | false =>
      obtain ⟨h1, h2, h3, h4⟩ := h.seg hd
      rw [← h.hcells, ← h.hdom] at h1 h2
      rw [← h.hcells] at h4
      have := C111_segment_partial p.mc proj hproj p.pick h.mc hc' h1 h2 h3 reqVel p.val h.val p.xs p.vs h.xs h.vs h4
        (hdep hd) (m + 1) (Nat.succ_pos m) p.init h.init h.zero
      have e1 : p.sub2 proj = seg2Sub p.mc proj p.val := by unfold SegRun.sub2; rw [hd]; rfl
      have e2 : p.add2 proj = seg2Add p.mc.buf p.mc.dom p.mc.cells proj := by
        funext b g; unfold SegRun.add2; rw [hd]; rfl
      rw [e1, e2]
      exact this
    | true =>
      obtain ⟨h1, h2, h3⟩ := h.direct hd
      rw [← h.hdom] at h1 h2
      rw [← h.hcells] at h3
      have := C111_domain_partial p.mc proj hproj p.pick h.mc hc' h1 h2 reqVel p.val h.val p.xs p.vs h.xs h.vs h3
        (hoff hd) (m + 1) (Nat.succ_pos m) p.init h.init h.zero
      have e1 : p.sub2 proj = dom2Sub p.mc proj p.val := by unfold SegRun.sub2; rw [hd]; rfl
      have e2 : p.add2 proj = domAdd := by
        funext b g; unfold SegRun.add2; rw [hd]; rfl
      rw [e1, e2]
      exact this
  obtain ⟨s', G, U, hU, hrun, hsum⟩ := key
  rw [h.hdom] at hrun
  rw [h.hdom, h.hcells] at hsum
  refine ⟨fun i => s' i.val, fun i => G i.val, U, hU, fun i => ?_, fun i => (hrun i.val i.isLt).2,
    fun i j hi hj => ?_⟩
  · have := (hrun i.val i.isLt).1
    rw [mcInterpolate_visits] at this
    unfold runOps SegRun.job2
    rw [List.foldlM_map]
    rw [← this]
    push_cast
    rfl
  · rw [← hsum i j hi hj, Finset.sum_range]

/-- The passes one after the other. -/
theorem image_of_draws2 (proj : ℤ) (reqVel : Bool) (m : ℕ) (cells : ℤ) (dom : CellBounds) (ps : List (SegRun M))
    (I : SegRun M → (ℤ × ℤ × ℤ × Fin 6 → List Vec) → ℤ → ℤ → M)
    (hps : ∀ p ∈ ps, p.Draws2 proj reqVel m cells dom (I p)) :
    ∃ U : List (ℤ × ℤ × ℤ × Fin 6 → List Vec), List.Forall₂ (fun p u => ∀ t, u t ∈ p.mc.unitBufs) ps U ∧
      ∀ grid : List M, (grid.length : ℤ) = boxLen2 dom proj →
        (∃ out, Rendered2 proj reqVel m ps grid out) ∧
        ∀ out, Rendered2 proj reqVel m ps grid out →
          Grew2 (dom.width (projDims proj).1) (dom.width (projDims proj).2.1) grid out
            (fun i j => if i < cells ∧ j < cells then (List.zipWith (fun p u => I p u i j) ps U).sum else 0) := by
  induction ps with
  | nil =>
    refine ⟨[], .nil, fun grid hg => ⟨⟨grid, .nil grid⟩, ?_⟩⟩
    intro out h
    cases h
    refine ⟨rfl, fun i j hi hj => ?_⟩
    have hr := flat2_range hi hj
    obtain ⟨v, hv⟩ := rd_isSome (xs := grid) hr.1 (by rw [hg]; exact hr.2)
    exact ⟨v, hv, by simpa using hv⟩
  | cons p ps ih =>
    obtain ⟨fin, G, U, hU, hfin, hadd, hsum⟩ := hps p (by simp)
    obtain ⟨Us, hUs, hall⟩ := ih (fun q hq => hps q (by simp [hq]))
    refine ⟨U :: Us, .cons hU hUs, fun grid hg => ?_⟩
    have hgc : Cells (boxLen2 dom proj) grid (fun i => grid.getD i.toNat 0) := by
      have := cells_self grid
      rwa [hg] at this
    have hfinal : ∀ n fs, Sched.Steps (p.job2 proj reqVel m) n (Sched.start (fun i => p.init i.val) grid) fs →
        fs.final → Cells (boxLen2 dom proj) fs.grid (fun c => grid.getD c.toNat 0 + ∑ i, G i c) := by
      intro n fs hs hf
      exact ((C46_schedule (p.job2 proj reqVel m) (fun i => p.init i.val) fin (boxLen2 dom proj) G hfin hadd grid _ hgc
        n fs hs).2.2 hf).2.1
    constructor
    · obtain ⟨k, fs, hs, hf⟩ := C46_terminates (p.job2 proj reqVel m) (fun i => p.init i.val) fin (boxLen2 dom proj) G
        hfin hadd grid _ hgc 0 _ (.refl _)
      obtain ⟨out, hout⟩ := (hall fs.grid (hfinal _ _ hs hf).1).1
      exact ⟨out, .cons hs hf hout⟩
    · intro out h
      cases h with
      | cons h1 h2 h3 =>
        have hc1 := hfinal _ _ h1 h2
        have hg3 := (hall _ hc1.1).2 out h3
        refine ⟨by rw [hg3.1]; have := hc1.1; omega, fun i j hi hj => ?_⟩
        have hr := flat2_range hi hj
        obtain ⟨v, hv, hv'⟩ := hg3.2 i j hi hj
        refine ⟨_, hgc.2 _ hr.1 hr.2, ?_⟩
        rw [hc1.2 _ hr.1 hr.2] at hv
        rw [hv', ← Option.some.inj hv]
        beta_reduce
        rw [hsum i j hi hj, List.zipWith_cons_cons, List.sum_cons, add_assoc]
        congr 2
        split_ifs
        · rfl
        · exact zero_add 0

/-- **C111**: whatever the schedules, the passes run to the end, and each pixel of the finished image has gained, for
every segment, every tetrahedron of it and every sample of that in the voxels behind the pixel, the value of the
sample. Pixels beyond the first period of the box gain nothing. -/
theorem C111_image_partial (proj : ℤ) (hproj : 0 ≤ proj ∧ proj < 3) (reqVel : Bool) (m : ℕ) (cells : ℤ)
    (hc : 0 < cells) (dom : CellBounds) (ps : List (SegRun M)) (hps : ∀ p ∈ ps, p.Ok2 proj reqVel cells dom)
    (hoff : ∀ p ∈ ps, p.OffFaces) (hdep : ∀ p ∈ ps, p.OffDepth proj) :
    ∃ U : List (ℤ × ℤ × ℤ × Fin 6 → List Vec), List.Forall₂ (fun p u => ∀ t, u t ∈ p.mc.unitBufs) ps U ∧
      ∀ grid : List M, (grid.length : ℤ) = boxLen2 dom proj →
        (∃ out, Rendered2 proj reqVel m ps grid out) ∧
        ∀ out, Rendered2 proj reqVel m ps grid out →
          Grew2 (dom.width (projDims proj).1) (dom.width (projDims proj).2.1) grid out
            (fun i j => if i < cells ∧ j < cells then
              (List.zipWith (fun p u => SegRun.image2 proj p u i j) ps U).sum else 0) := by
  exact image_of_draws2 proj reqVel m cells dom ps (SegRun.image2 proj) fun p hp =>
    SegRun.runs2 hproj (hps p hp) (hoff p hp) (hdep p hp) hc m

/-! ## Mean density -/

/-- The pass runs to the end, and the sum over the image grows by `T U` when the unit buffers `U` are drawn. -/
def SegRun.Gives2 (proj : ℤ) (p : SegRun M) (reqVel : Bool) (m : ℕ) (dom : CellBounds)
    (T : (ℤ × ℤ × ℤ × Fin 6 → List Vec) → M) : Prop :=
  ∃ (fin : Fin (m + 1) → MCState M) (G : Fin (m + 1) → ℤ → M) (U : ℤ × ℤ × ℤ × Fin 6 → List Vec),
    (∀ t, U t ∈ p.mc.unitBufs) ∧ (∀ i, runOps ((p.job2 proj reqVel m).ops i) (p.init i.val) = some (fin i)) ∧
    (∀ i, Adds (boxLen2 dom proj) ((p.job2 proj reqVel m).add (fin i)) (G i)) ∧
    ∑ c ∈ Finset.Ico 0 (boxLen2 dom proj), ∑ i, G i c = T U

theorem SegRun.runs2_total {proj : ℤ} (hproj : 0 ≤ proj ∧ proj < 3) {p : SegRun M} {reqVel : Bool} {cells : ℤ}
    {dom : CellBounds} (h : p.Ok2 proj reqVel cells dom) (hc : 0 < cells) (hwide : ∀ j, cells ≤ dom.width j) (m : ℕ) :
    p.Gives2 proj reqVel m dom p.total := by
  have key : ∃ (s' : ℕ → MCState M) (G : ℕ → ℤ → M) (U : ℤ × ℤ × ℤ × Fin 6 → List Vec), (∀ t, U t ∈ p.mc.unitBufs) ∧
      (∀ id < m + 1,
        mcInterpolate p.mc reqVel (p.sub2 proj) (p.pick id) p.xs p.vs id (segLen p.mc.segWidth p.mc.skip)
          ((m + 1 : ℕ) : ℤ) (p.init id) = some (s' id) ∧
        Adds (boxLen2 p.mc.dom proj) (p.add2 proj (s' id).cells) (G id)) ∧
      ∑ c ∈ Finset.Ico 0 (boxLen2 p.mc.dom proj), ∑ id ∈ Finset.range (m + 1), G id c = p.total U := by
    have hc' : 0 < p.mc.cells := by rw [h.hcells]; exact hc
    have hwide' : ∀ j, p.mc.cells ≤ p.mc.dom.width j := by rw [h.hcells, h.hdom]; exact hwide
    cases hd : p.direct with
    | false =>
      obtain ⟨h1, h2, h3, h4⟩ := h.seg hd
      rw [← h.hcells, ← h.hdom] at h1 h2
      rw [← h.hcells] at h4
      have := C111_segment_total p.mc proj hproj p.pick h.mc hc' h1 hwide' h2 h3 reqVel p.val h.val p.xs p.vs h.xs h.vs
        h4 (m + 1) (Nat.succ_pos m) p.init h.init h.zero
      have e1 : p.sub2 proj = seg2Sub p.mc proj p.val := by unfold SegRun.sub2; rw [hd]; rfl
      have e2 : p.add2 proj = seg2Add p.mc.buf p.mc.dom p.mc.cells proj := by
        funext b g; unfold SegRun.add2; rw [hd]; rfl
      rw [e1, e2]
      exact this
    | true =>
      obtain ⟨h1, -, h3⟩ := h.direct hd
      rw [← h.hdom] at h1
      rw [← h.hcells] at h3
      have := C111_domain_total p.mc proj hproj p.pick h.mc hc' h1 hwide' reqVel p.val h.val p.xs p.vs h.xs h.vs h3
        (m + 1) (Nat.succ_pos m) p.init h.init h.zero
      have e1 : p.sub2 proj = dom2Sub p.mc proj p.val := by unfold SegRun.sub2; rw [hd]; rfl
      have e2 : p.add2 proj = domAdd := by
        funext b g; unfold SegRun.add2; rw [hd]; rfl
      rw [e1, e2]
      exact this
  obtain ⟨s', G, U, hU, hrun, hsum⟩ := key
  rw [h.hdom] at hrun hsum
  refine ⟨fun i => s' i.val, fun i => G i.val, U, hU, fun i => ?_, fun i => (hrun i.val i.isLt).2, ?_⟩
  · have := (hrun i.val i.isLt).1
    rw [mcInterpolate_visits] at this
    unfold runOps SegRun.job2
    rw [List.foldlM_map]
    rw [← this]
    push_cast
    rfl
  · rw [← hsum]
    exact Finset.sum_congr rfl fun c _ => (Finset.sum_range (fun id => G id c)).symm

/-- The passes one after the other. -/
theorem total_of_gives2 (proj : ℤ) (reqVel : Bool) (m : ℕ) (dom : CellBounds) (ps : List (SegRun M))
    (T : SegRun M → (ℤ × ℤ × ℤ × Fin 6 → List Vec) → M) (hps : ∀ p ∈ ps, p.Gives2 proj reqVel m dom (T p)) :
    ∃ U : List (ℤ × ℤ × ℤ × Fin 6 → List Vec), List.Forall₂ (fun p u => ∀ t, u t ∈ p.mc.unitBufs) ps U ∧
      ∀ grid : List M, (grid.length : ℤ) = boxLen2 dom proj →
        (∃ out, Rendered2 proj reqVel m ps grid out) ∧
        ∀ out, Rendered2 proj reqVel m ps grid out →
          out.length = grid.length ∧ out.sum = grid.sum + (List.zipWith T ps U).sum := by
  induction ps with
  | nil =>
    refine ⟨[], .nil, fun grid hg => ⟨⟨grid, .nil grid⟩, ?_⟩⟩
    intro out h
    cases h
    exact ⟨rfl, by simp⟩
  | cons p ps ih =>
    obtain ⟨fin, G, U, hU, hfin, hadd, hsum⟩ := hps p (by simp)
    obtain ⟨Us, hUs, hall⟩ := ih (fun q hq => hps q (by simp [hq]))
    refine ⟨U :: Us, .cons hU hUs, fun grid hg => ?_⟩
    have hgc : Cells (boxLen2 dom proj) grid (fun i => grid.getD i.toNat 0) := by
      have := cells_self grid
      rwa [hg] at this
    have hfinal : ∀ n fs, Sched.Steps (p.job2 proj reqVel m) n (Sched.start (fun i => p.init i.val) grid) fs →
        fs.final → Cells (boxLen2 dom proj) fs.grid (fun c => grid.getD c.toNat 0 + ∑ i, G i c) := by
      intro n fs hs hf
      exact ((C46_schedule (p.job2 proj reqVel m) (fun i => p.init i.val) fin (boxLen2 dom proj) G hfin hadd grid _ hgc
        n fs hs).2.2 hf).2.1
    constructor
    · obtain ⟨k, fs, hs, hf⟩ := C46_terminates (p.job2 proj reqVel m) (fun i => p.init i.val) fin (boxLen2 dom proj) G
        hfin hadd grid _ hgc 0 _ (.refl _)
      obtain ⟨out, hout⟩ := (hall fs.grid (hfinal _ _ hs hf).1).1
      exact ⟨out, .cons hs hf hout⟩
    · intro out h
      cases h with
      | cons h1 h2 h3 =>
        have hc1 := hfinal _ _ h1 h2
        obtain ⟨hl, he⟩ := (hall _ hc1.1).2 out h3
        refine ⟨by rw [hl]; have := hc1.1; omega, ?_⟩
        rw [he, sum_cells hc1, Finset.sum_add_distrib, hsum, ← sum_cells hgc, List.zipWith_cons_cons, List.sum_cons,
          add_assoc]

/-- **C111**: nothing is lost from a projected image at least as wide and as deep as the box. Whatever the positions, the
draws and the schedules, the passes run to the end, and the sum over the image grows by the values of all samples of all
tetrahedra of all segments. -/
theorem C111_total (proj : ℤ) (hproj : 0 ≤ proj ∧ proj < 3) (reqVel : Bool) (m : ℕ) (cells : ℤ) (hc : 0 < cells)
    (dom : CellBounds) (hwide : ∀ j, cells ≤ dom.width j) (ps : List (SegRun M))
    (hps : ∀ p ∈ ps, p.Ok2 proj reqVel cells dom) :
    ∃ U : List (ℤ × ℤ × ℤ × Fin 6 → List Vec), List.Forall₂ (fun p u => ∀ t, u t ∈ p.mc.unitBufs) ps U ∧
      ∀ grid : List M, (grid.length : ℤ) = boxLen2 dom proj →
        (∃ out, Rendered2 proj reqVel m ps grid out) ∧
        ∀ out, Rendered2 proj reqVel m ps grid out →
          out.length = grid.length ∧ out.sum = grid.sum + (List.zipWith SegRun.total ps U).sum := by
  exact total_of_gives2 proj reqVel m dom ps SegRun.total fun p hp => SegRun.runs2_total hproj (hps p hp) hc hwide m

/-- **C111**: when the segments are the whole periodic box, a projected image of at least the whole box gains
`cells ^ 3` divided by its depth. If it has `cells` pixels per side and that depth, this is one per pixel: the mean of
the projected density is the mean density of the box. -/
theorem C111_mean (proj : ℤ) (hproj : 0 ≤ proj ∧ proj < 3) (m : ℕ) (cells countWidth : ℤ) (hc : 0 < cells)
    (hN : 0 < countWidth) (dom : CellBounds)
    (hd : ∀ j, cells ≤ dom.width j) (ps : List (SegRun ℚ)) (hps : ∀ p ∈ ps, p.Ok2 proj false cells dom)
    (hpts : ∀ p ∈ ps, 0 < p.mc.points) (hdvd : ∀ p ∈ ps, p.mc.skip ∣ p.mc.segWidth)
    (hval : ∀ p ∈ ps, ∀ w, p.val w =
      projPtVal dom proj (mcPtVal false p.mc.points p.mc.skip (rendererPtVal false cells countWidth)))
    (hall : (ps.map fun p => p.mc.segWidth ^ 3).sum = countWidth ^ 3) (grid out : List ℚ)
    (hg : (grid.length : ℤ) = boxLen2 dom proj) (h : Rendered2 proj false m ps grid out) :
    out.sum = grid.sum + cells ^ 3 / dom.width (projDims proj).2.2 ∧ out.length = grid.length ∧
      ((∀ j, dom.width j = cells) → out.sum = grid.sum + cells ^ 2 ∧ (out.length : ℤ) = cells ^ 2) := by
  obtain ⟨U, hU, hrun⟩ := C111_total proj hproj false m cells hc dom hd ps hps
  obtain ⟨hl, hs⟩ := (hrun grid hg).2 out h
  have hcq : (cells : ℚ) ≠ 0 := by exact_mod_cast hc.ne'
  suffices hsum : out.sum = grid.sum + cells ^ 3 / dom.width (projDims proj).2.2 by
    refine ⟨hsum, hl, fun hd' => ⟨?_, by rw [hl, hg]; unfold boxLen2; rw [hd', hd']; ring⟩⟩
    rw [hsum, hd']
    field_simp
  rw [hs]
  congr 1
  have key : ∀ (qs : List (SegRun ℚ)) (V : List (ℤ × ℤ × ℤ × Fin 6 → List Vec)),
      List.Forall₂ (fun p u => ∀ t, u t ∈ p.mc.unitBufs) qs V → (∀ q ∈ qs, q ∈ ps) →
      (List.zipWith SegRun.total qs V).sum =
        (((cells : ℚ) / countWidth) ^ 3 * (((qs.map fun p => p.mc.segWidth ^ 3).sum : ℤ) : ℚ)) /
          dom.width (projDims proj).2.2 := by
    intro qs V hV
    induction hV with
    | nil => intro _; simp
    | cons hu hrest ih =>
      rename_i p u qs V
      intro hq
      have hp := hq p (by simp)
      have hok := hps p hp
      simp only [List.zipWith_cons_cons, List.sum_cons, List.map_cons]
      rw [ih (fun q hq' => hq q (by simp [hq']))]
      have hs := density_sum ⟨p.mc, p.direct, p.xs, p.vs, p.pick, p.init,
        fun _ => mcPtVal false p.mc.points p.mc.skip (rendererPtVal false cells countWidth)⟩ cells countWidth
        (hok.mc 0).skip (hdvd p hp) (hok.mc 0).seg (hpts p hp) (fun _ => rfl) u
      dsimp only at hs
      unfold SegRun.total sampleTotal
      simp only [hval p hp, projPtVal]
      simp only [Finset.sum_const, nsmul_eq_mul] at hs ⊢
      push_cast
      rw [← mul_div_assoc, ← mul_div_assoc, hs]
      ring
  rw [key ps U hU (fun q hq => hq), hall]
  have : (countWidth : ℚ) ≠ 0 := by exact_mod_cast hN.ne'
  push_cast
  field_simp

/-! ## An example -/

/-- The eight particles of `exXs`, projected along an axis: one pass through a segment or a domain
buffer. -/
def exRun2 {M : Type} [Zero M] (proj : ℤ) (direct : Bool) (val : Vec → M) : SegRun M :=
  { exRunOf direct val with
    init := fun _ => ⟨newTetra 0 0 0 0, newTetra 0 0 0 0, [0, 0], [0, 0], 0,
      List.replicate (bufferSize2 exMC.buf proj).toNat 0⟩ }

theorem exRun2_ok {M : Type} [Zero M] (proj : ℤ) (direct reqVel : Bool) (val : Vec → M) (hval : reqVel = false → ∀ w w', val w = val w') :
    (exRun2 proj direct val).Ok2 proj reqVel 2 ⟨![0, 0, 0], ![2, 2, 2]⟩ := by
  have h := exRun_ok direct reqVel val hval
  refine ⟨h.mc, h.hcells, h.hdom, h.val, h.xs, h.vs, fun _ => ⟨rfl, fun _ => le_refl (2 : ℤ)⟩, fun _ => rfl, fun hd => ?_,
    h.direct⟩
  exact h.seg hd

/-- The total projected density is 4, one for each pixel, along every axis and whatever the schedule of three
workers. -/
example (proj : ℤ) (hproj : 0 ≤ proj ∧ proj < 3) (direct : Bool) (out : List ℚ)
    (h : Rendered2 proj false 2 [exRun2 proj direct fun _ =>
      projPtVal ⟨![0, 0, 0], ![2, 2, 2]⟩ proj (mcPtVal false 2 1 (rendererPtVal false 2 1))] (List.replicate 4 0) out) :
    out.sum = 4 := by
  have hw : ∀ j, (⟨![0, 0, 0], ![2, 2, 2]⟩ : CellBounds).width j = 2 := fun j => by fin_cases j <;> rfl
  have := (C111_mean proj hproj 2 2 1 (by norm_num) (by norm_num) ⟨![0, 0, 0], ![2, 2, 2]⟩ (fun j => (hw j).ge)
    [exRun2 proj direct _] (fun r hr => by
      rw [List.mem_singleton.mp hr]
      exact exRun2_ok proj direct false _ (fun _ _ _ => rfl)) (by simp [exRun2, exRunOf, exMC])
    (by simp [exRun2, exRunOf, exMC]) (by simp [exRun2, exRunOf, exMC]) (by simp [exRun2, exRunOf, exMC])
    (List.replicate 4 0) out (by rw [boxLen2, hw, hw]; rfl) h).2.2 hw
  rw [this.1]
  norm_num

/-- Such an execution exists. -/
example (proj : ℤ) (hproj : 0 ≤ proj ∧ proj < 3) (direct : Bool) :
    ∃ out, Rendered2 proj true 2 [exRun2 proj direct fun v => ((v, 1) : Vec × ℤ)] (List.replicate 4 0) out := by
  have hw : ∀ j, (⟨![0, 0, 0], ![2, 2, 2]⟩ : CellBounds).width j = 2 := fun j => by fin_cases j <;> rfl
  obtain ⟨U, _, h⟩ := C111_image_partial proj hproj true 2 2 (by norm_num) ⟨![0, 0, 0], ![2, 2, 2]⟩
    [exRun2 proj direct fun v => ((v, 1) : Vec × ℤ)] (fun r hr => by
      rw [List.mem_singleton.mp hr]
      exact exRun2_ok proj direct true _ (fun h => absurd h (by decide)))
    (fun r hr => by
      rw [List.mem_singleton.mp hr]
      exact fun _ => exRun_faces)
    (fun r hr => by
      rw [List.mem_singleton.mp hr]
      exact fun _ t ht u hu q hq => by exact_mod_cast exRun_faces t ht u hu q hq (projDims proj).2.2 0 le_rfl)
  exact (h (List.replicate 4 0) (by rw [boxLen2, hw, hw]; rfl)).1

/-- A segment of one cube whose low particles lie at depth exactly zero of the segment, in an image one cell deep. -/
def flatXs : List Vec :=
  [![1/4, 1/4, 0], ![7/4, 1/4, 0], ![1/4, 7/4, 0], ![7/4, 7/4, 0],
   ![1/4, 1/4, 1/2], ![7/4, 1/4, 1/2], ![1/4, 7/4, 1/2], ![7/4, 7/4, 1/2]]

/-- One sample per tetrahedron, at a corner. -/
def flatMC : MC :=
  ⟨1, 1, 4, 1, [[![0, 0, 0]]], ⟨![0, 0, 0], ![2, 2, 1]⟩, ⟨![0, 0, 0], ![2, 2, 1]⟩, .exact⟩

/-- Without the condition on the depth the claim is false: each of the six tetrahedra of the segment has a sample in
the first pixel of the image, but the projected image stays empty. -/
theorem C111_counterexample :
    flatMC.Ok (fun _ => 0) ∧ Placed flatMC.cells flatMC.buf flatMC.dom ∧
    (∀ p ∈ flatXs, ∀ j, 0 ≤ p j ∧ p j < flatMC.buf.width j ∧ p j < flatMC.cells) ∧
    (∀ s : MCState ℚ, s = ⟨newTetra 0 0 0 0, newTetra 0 0 0 0, [0], [], 0, [0, 0, 0, 0]⟩ →
      ∃ s', mcInterpolate flatMC false (seg2Sub flatMC 2 fun _ => 1) (fun _ => 0) flatXs [] 0 (segLen 1 1) 1 s = some s' ∧
        seg2Add flatMC.buf flatMC.dom flatMC.cells 2 s'.cells [0, 0, 0, 0] = some [0, 0, 0, 0]) ∧
    sampleColumn (M := ℚ) flatMC.cells flatMC.buf flatMC.dom 2 1 1 (segCorners flatMC flatXs) (segCorners flatMC [])
      (fun _ => 1) (fun _ => [![0, 0, 0]]) 0 0 = 6 := by
  refine ⟨⟨by decide, by decide, ?_, fun _ => by decide, rfl⟩, fun j => by fin_cases j <;> decide, by decide +kernel, ?_, ?_⟩
  · intro u hu
    simp only [flatMC, List.mem_singleton] at hu
    subst hu
    refine ⟨rfl, fun p hp => ?_⟩
    rw [List.mem_singleton.mp hp]
    unfold UnitPoint
    decide +kernel
  · rintro s rfl
    refine ⟨_, Option.some_get (by decide +kernel) |>.symm, ?_⟩
    decide +kernel
  · decide +kernel

/-- With a buffer of the extent of the image the same happens in three dimensions: the samples lie in the image, in the
plane at its low end, and the image stays empty. -/
theorem C94_counterexample :
    flatMC.Ok (fun _ => 0) ∧ flatMC.buf = flatMC.dom ∧
    (∀ p ∈ flatXs, ∀ j, 0 ≤ p j ∧ p j < flatMC.dom.width j) ∧
    (∀ s : MCState ℚ, s = ⟨newTetra 0 0 0 0, newTetra 0 0 0 0, [0], [], 0, [0, 0, 0, 0]⟩ →
      ∃ s', mcInterpolate flatMC false (domSub flatMC fun _ => 1) (fun _ => 0) flatXs [] 0 (segLen 1 1) 1 s = some s' ∧
        domAdd s'.cells [0, 0, 0, 0] = some [0, 0, 0, 0]) ∧
    sampleImage (M := ℚ) flatMC.cells flatMC.buf flatMC.dom 1 1 (segCorners flatMC flatXs) (segCorners flatMC [])
      (fun _ => 1) (fun _ => [![0, 0, 0]]) 0 0 0 = 6 := by
  refine ⟨C111_counterexample.1, rfl, fun p hp j => ?_, ?_, ?_⟩
  · have := C111_counterexample.2.2.1 p hp j
    exact ⟨this.1, this.2.1⟩
  · rintro s rfl
    refine ⟨_, Option.some_get (by decide +kernel) |>.symm, ?_⟩
    decide +kernel
  · decide +kernel

/-! ## Samples on faces -/

/-- All corners of the cube lie on faces of cells. -/
def faceXs : List Vec :=
  [![0, 0, 0], ![1, 0, 0], ![0, 1, 0], ![1, 1, 0], ![0, 0, 1], ![1, 0, 1], ![0, 1, 1], ![1, 1, 1]]

/-- A box of 2 cells, all of it in the image, and one sample per tetrahedron, at a corner. -/
def faceMC : MC :=
  ⟨1, 1, 2, 1, [[![0, 0, 0]]], ⟨![0, 0, 0], ![2, 2, 2]⟩, ⟨![0, 0, 0], ![2, 2, 2]⟩, .exact⟩

/-- One pass with these samples, of value one each. -/
def faceRun (size : ℕ) (direct : Bool) : SegRun ℤ :=
  ⟨faceMC, direct, faceXs, [], fun _ _ => 0, fun _ => ⟨newTetra 0 0 0 0, newTetra 0 0 0 0, [0], [], 0,
    List.replicate size 0⟩, fun _ => 1⟩

theorem faceMC_ok : faceMC.Ok (fun _ => 0) := by
  refine ⟨by decide, by decide, fun u hu => ?_, fun _ => by decide, rfl⟩
  simp only [faceMC, List.mem_singleton] at hu
  subst hu
  refine ⟨rfl, fun p hp => ?_⟩
  rw [List.mem_singleton.mp hp]
  unfold UnitPoint
  decide +kernel

theorem faceRun_ok (direct : Bool) : (faceRun 8 direct).Ok false 2 ⟨![0, 0, 0], ![2, 2, 2]⟩ := by
  refine ⟨fun _ => faceMC_ok, rfl, rfl, fun _ _ _ => rfl, rfl, fun h => absurd h (by decide),
    fun _ => ⟨rfl, fun h => absurd h (by decide)⟩, fun _ => rfl, fun _ => ⟨?_, ?_, ?_, ?_⟩, fun _ => ⟨rfl, ?_, ?_⟩⟩
  · show Near 2 faceMC.buf faceMC.dom
    intro j; fin_cases j <;> decide
  · show ∀ j, -2 < faceMC.dom.origin j - faceMC.buf.origin j ∧ faceMC.dom.origin j - faceMC.buf.origin j < 2
    decide
  · show ∀ j, 0 ≤ faceMC.buf.width j
    decide
  · show ∀ x ∈ faceXs, ∀ j, 0 ≤ x j ∧ x j < faceMC.buf.width j ∧ x j < (2 : ℤ)
    decide +kernel
  · decide
  · show ∀ x ∈ faceXs, ∀ j, ((-2 + 1 : ℤ) : ℚ) ≤ x j ∧ x j < ((2 * 2 : ℤ) : ℚ)
    decide +kernel

theorem faceRun_ok2 (proj : ℤ) (hproj : 0 ≤ proj ∧ proj < 3) (direct : Bool) :
    (faceRun 4 direct).Ok2 proj false 2 ⟨![0, 0, 0], ![2, 2, 2]⟩ := by
  have h := faceRun_ok direct
  refine ⟨h.mc, h.hcells, h.hdom, h.val, h.xs, h.vs,
    fun _ => ⟨rfl, fun h => absurd h (by decide)⟩, fun _ => ?_, h.seg, h.direct⟩
  show List.replicate 4 (0 : ℤ) = List.replicate (bufferSize2 faceMC.buf proj).toNat 0
  have : proj = 0 ∨ proj = 1 ∨ proj = 2 := by omega
  rcases this with rfl | rfl | rfl <;> rfl

theorem faceRun_total (size : ℕ) (direct : Bool) (U : ℤ × ℤ × ℤ × Fin 6 → List Vec) :
    (faceRun size direct).total U = 6 := by
  unfold SegRun.total sampleTotal faceRun
  simp only [Finset.sum_const]
  decide

/-- The six samples are all in the image, though some are misplaced. -/
example (direct : Bool) (out : List ℤ)
    (h : Rendered false 2 [faceRun 8 direct] (List.replicate 8 0) out) : out.sum = 6 := by
  obtain ⟨U, hU, hall⟩ := C107_total false 2 2 (by norm_num) ⟨![0, 0, 0], ![2, 2, 2]⟩ (by decide) [faceRun 8 direct]
    (fun r hr => by rw [List.mem_singleton.mp hr]; exact faceRun_ok direct)
  rw [((hall _ (by decide)).2 out h).2]
  cases hU with
  | cons _ h2 =>
    cases h2
    rw [List.zipWith_cons_cons, faceRun_total]
    rfl

/-- The same in a projected image, also with segment buffers and samples at depth zero. -/
example (proj : ℤ) (hproj : 0 ≤ proj ∧ proj < 3) (direct : Bool) (out : List ℤ)
    (h : Rendered2 proj false 2 [faceRun 4 direct] (List.replicate 4 0) out) : out.sum = 6 := by
  have hw : ∀ j, (⟨![0, 0, 0], ![2, 2, 2]⟩ : CellBounds).width j = 2 := fun j => by fin_cases j <;> rfl
  obtain ⟨U, hU, hall⟩ := C111_total proj hproj false 2 2 (by norm_num) ⟨![0, 0, 0], ![2, 2, 2]⟩ (by decide)
    [faceRun 4 direct] (fun r hr => by rw [List.mem_singleton.mp hr]; exact faceRun_ok2 proj hproj direct)
  rw [((hall _ (by rw [boxLen2, hw, hw]; rfl)).2 out h).2]
  cases hU with
  | cons _ h2 =>
    cases h2
    rw [List.zipWith_cons_cons, faceRun_total]
    rfl

end Verif.Render
