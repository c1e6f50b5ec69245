import Verif.Fp.Pipeline

/-! # C146: the image of a list of files in machine arithmetic -/

set_option autoImplicit false

namespace Verif.Fp

open Verif.Go Verif.Geom Verif.Render Verif.Main

/-! ## Specification -/

/-- Sum of the values `val` of the samples of a file in image cell `(x, y, z)`: each tetrahedron `t` of its cubes (`skip`
particles on a side) is sampled at the first `points` points `U t` of the unit tetrahedron; `G t q` is the cell of the box in
which the sample at `q` is counted, and `w` gives its velocity. -/
def fileCells {M : Type} [AddCommMonoid M] (G : ℤ × ℤ × ℤ × Fin 6 → Vec → IVec) (w : (Fin 4 → Vec) → Vec → Vec) (cells : ℤ)
    (dom : CellBounds) (points : ℕ) (skip : ℤ) (val : Vec → M) (f : SheetFile) (U : ℤ × ℤ × ℤ × Fin 6 → List Vec)
    (x y z : ℤ) : M :=
  ∑ t ∈ tetras (f.header.segmentWidth / skip), ∑ i ∈ Finset.range points,
    if (∀ j, cells ∣ G t ((U t).getD i 0) j - ((![x, y, z] : IVec) j + dom.origin j)) then
      val (w (tetCorners f.header.segmentWidth skip f.vs t.1 t.2.1 t.2.2.1 t.2.2.2) ((U t).getD i 0))
    else 0

/-- The same for all files of a list. -/
def filesSum {M : Type} [AddCommMonoid M] (G : Pass → ℤ × ℤ × ℤ × Fin 6 → Vec → IVec) (w : (Fin 4 → Vec) → Vec → Vec) (b : RBox)
    (skip : ℤ) (val : SheetFile → Vec → M) (ps : List Pass) (U : List (ℤ × ℤ × ℤ × Fin 6 → List Vec)) (x y z : ℤ) : M :=
  (List.zipWith (fun p u => fileCells (G p) w b.cells b.cb b.pts skip (val p.file) p.file u x y z) ps U).sum

/-- The sum over the voxels behind a pixel. -/
def filesSum2 {M : Type} [AddCommMonoid M] (G : Pass → ℤ × ℤ × ℤ × Fin 6 → Vec → IVec) (w : (Fin 4 → Vec) → Vec → Vec) (b : RBox)
    (proj : ℤ) (skip : ℤ) (val : SheetFile → Vec → M) (ps : List Pass) (U : List (ℤ × ℤ × ℤ × Fin 6 → List Vec)) (i j : ℤ) : M :=
  ∑ k ∈ Finset.Ico 0 (min (b.cb.width (projDims proj).2.2) b.cells),
    filesSum G w b skip val ps U (voxel proj i j k 0) (voxel proj i j k 1) (voxel proj i j k 2)

/-- The exact place of a sample, in cells. -/
def exactPlace (L : ℚ) (b : RBox) (skip : ℤ) (f : SheetFile) (t : ℤ × ℤ × ℤ × Fin 6) (q : Vec) : Vec :=
  mix (tetCorners f.header.segmentWidth skip (exactCells L b.cells f) t.1 t.2.1 t.2.2.1 t.2.2.2) q

/-- Every sample is counted close to its exact place. -/
def CountsNear (L : ℚ) (b : RBox) (skip : ℤ) (unitBufs : List (List Vec)) (ps : List Pass)
    (G : Pass → ℤ × ℤ × ℤ × Fin 6 → Vec → IVec) : Prop :=
  ∀ p ∈ ps, ∀ t ∈ tetras (p.file.header.segmentWidth / skip), ∀ u ∈ unitBufs, ∀ q ∈ u.take b.pts,
    CellNear b.cells (G p t q) (exactPlace L b skip p.file t q)

/-- The cell of the exact place of a sample. -/
def exactBoxCell (L : ℚ) (b : RBox) (skip : ℤ) (p : Pass) (t : ℤ × ℤ × ℤ × Fin 6) (q : Vec) : IVec := fun j =>
  ⌊exactPlace L b skip p.file t q j⌋

/-- No exact sample is within `46 / 2 ^ 24` of the box of a face of a cell. -/
def SamplesOff (L : ℚ) (b : RBox) (skip : ℤ) (unitBufs : List (List Vec)) (ps : List Pass) : Prop :=
  ∀ p ∈ ps, ∀ t ∈ tetras (p.file.header.segmentWidth / skip), ∀ u ∈ unitBufs, ∀ q ∈ u.take b.pts, ∀ j, ∀ z : ℤ,
    46 * ((b.cells : ℚ) / 2 ^ 24) < |exactPlace L b skip p.file t q j - z|

/-- What is asked of the particles of one file: along every axis they span a little less than half of the box, and they keep a
small distance from the faces of the cells. -/
structure Spread (L : ℚ) (C : ℤ) (f : SheetFile) : Prop where
  span : ∀ j, ∃ b S : ℚ, (∀ x ∈ f.xs, ∃ k : ℤ, b ≤ x j + k * L ∧ x j + k * L ≤ b + S) ∧
    S + 2 * ((growth f j + 3) * (L / 2 ^ 22)) ≤ L / 2
  off : ∀ x ∈ f.xs, ∀ j, ∀ z : ℤ, (4 * (growth f j + 3) + 158) * ((C : ℚ) / 2 ^ 24) < |x j * C / L - z|

/-! ## Points close to the unit tetrahedron -/

theorem mix_between {c : Fin 4 → Vec} {p : Vec} {j : Fin 3} {lo hi : ℚ} (hp : NearUnit (10 / 2 ^ 24) p)
    (h : ∀ k, lo ≤ c k j ∧ c k j ≤ hi) :
    lo - 40 * ((hi - lo) / 2 ^ 24) ≤ mix c p j ∧ mix c p j ≤ hi + 40 * ((hi - lo) / 2 ^ 24) := by
  obtain ⟨h0, h1, h2, h3⟩ := hp
  have key : ∀ b v d : ℚ, -(10 / 2 ^ 24) ≤ b → 0 ≤ v → v ≤ d → -(10 * (d / 2 ^ 24)) ≤ b * v := by
    intro b v d hb hv hd
    have h4 := mul_le_mul_of_nonneg_right hb hv
    have h5 : v / 2 ^ 24 ≤ d / 2 ^ 24 := by gcongr
    linarith
  have lo' := fun (k : Fin 4) (b : ℚ) (hb : -(10 / 2 ^ 24) ≤ b) =>
    key b (c k j - lo) (hi - lo) hb (by linarith [(h k).1]) (by linarith [(h k).2])
  have hi' := fun (k : Fin 4) (b : ℚ) (hb : -(10 / 2 ^ 24) ≤ b) =>
    key b (hi - c k j) (hi - lo) hb (by linarith [(h k).2]) (by linarith [(h k).1])
  have b3 : -(10 / 2 ^ 24) ≤ 1 - p 0 - p 1 - p 2 := by linarith
  have a0 := lo' 0 _ h0
  have a1 := lo' 1 _ h1
  have a2 := lo' 2 _ h2
  have a3 := lo' 3 _ b3
  have c0 := hi' 0 _ h0
  have c1 := hi' 1 _ h1
  have c2 := hi' 2 _ h2
  have c3 := hi' 3 _ b3
  simp only [mix, bary, Fin.sum_univ_four, Matrix.cons_val_zero, Matrix.cons_val_one, Matrix.cons_val]
  generalize (hi - lo) / 2 ^ 24 = d at *
  constructor <;> linarith

theorem mix_small {c : Fin 4 → Vec} {p : Vec} {j : Fin 3} {ε : ℚ} (hp : NearUnit (10 / 2 ^ 24) p) (h : ∀ k, |c k j| ≤ 10 * ε) :
    |mix c p j| ≤ 11 * ε := by
  obtain ⟨h1, h2⟩ := mix_between (lo := -(10 * ε)) (hi := 10 * ε) hp (fun k => abs_le.mp (h k))
  have h0 : 0 ≤ ε := by linarith [(abs_nonneg _).trans (h 0)]
  rw [abs_le]
  constructor <;> linarith

theorem mix_sub (c d : Fin 4 → Vec) (p : Vec) (j : Fin 3) : mix (fun k i => c k i - d k i) p j = mix c p j - mix d p j := by
  simp only [mix, bary, Fin.sum_univ_four, Matrix.cons_val_zero, Matrix.cons_val_one, Matrix.cons_val]
  ring

/-! ## The cells of samples -/

section Cells
variable {L : ℚ} {b : RBox} {skip : ℤ} {unitBufs : List (List Vec)} {f : SheetFile}

theorem corners_mem (h : GoodSheet L b.cells f) (hs : 0 < skip) {t : ℤ × ℤ × ℤ × Fin 6}
    (ht : t ∈ tetras (f.header.segmentWidth / skip)) (k : Fin 4) :
    tetCorners f.header.segmentWidth skip f.xs t.1 t.2.1 t.2.2.1 t.2.2.2 k ∈ f.xs :=
  corner_mem (mc := mc32 b skip [] f) hs h.xlen (mem_tetras.mp ht) t.2.2.2 k

theorem scaled_corners (h : GoodSheet L b.cells f) (hs : 0 < skip) {t : ℤ × ℤ × ℤ × Fin 6}
    (ht : t ∈ tetras (f.header.segmentWidth / skip)) :
    segCorners (mc32 b skip unitBufs f) (scaleXs32 b f) t = fun k =>
      scaled32 b f (tetCorners f.header.segmentWidth skip f.xs t.1 t.2.1 t.2.2.1 t.2.2.2 k) := by
  rw [scaleXs32_eq]
  exact tetCorners_map hs h.xlen _ (mem_tetras.mp ht) _

/-- A cell close to a sample of the scaled particles is close to the exact place, and in the cells of the segment. -/
theorem sample_cell (h : GoodSheet L b.cells f) (hb : Setup32 L b skip unitBufs) {t : ℤ × ℤ × ℤ × Fin 6}
    (ht : t ∈ tetras (f.header.segmentWidth / skip)) {q : Vec} (hq : NearUnit (10 / 2 ^ 24) q) {g : IVec}
    (hg : CountedNear b.cells g (mix (segCorners (mc32 b skip unitBufs f) (scaleXs32 b f) t) q)) :
    CellNear b.cells (fun j => g j + (mc32 b skip unitBufs f).buf.origin j) (exactPlace L b skip f t q) ∧
    ∀ j, ∃ i : ℤ, ((sheetBounds32 f b.cells).origin j ≤ i ∧
      i < (sheetBounds32 f b.cells).origin j + (sheetBounds32 f b.cells).width j) ∧
      b.cells ∣ g j + (mc32 b skip unitBufs f).buf.origin j - i := by
  have hC0 : 0 < b.cells := by have := hb.cells.1; omega
  have hc : (0 : ℚ) < b.cells := by exact_mod_cast hC0
  obtain ⟨e, κ, he, -, -, hsc⟩ := h.scaled hb
  have hax := fun j => (h.axis hb j).2.1
  have hmem := corners_mem h hb.skip ht
  rw [scaled_corners h hb.skip ht] at hg
  have hex : exactPlace L b skip f t q = mix (fun k j => nearImage L (f.xs.headD 0 j)
      (tetCorners f.header.segmentWidth skip f.xs t.1 t.2.1 t.2.2.1 t.2.2.2 k j) * b.cells / L) q := by
    unfold exactPlace exactCells
    rw [tetCorners_map hb.skip h.xlen _ (mem_tetras.mp ht)]
  generalize tetCorners f.header.segmentWidth skip f.xs t.1 t.2.1 t.2.2.1 t.2.2.2 = c at *
  rw [hex]
  have hγ : 0 < (b.cells : ℚ) / 2 ^ 24 := by positivity
  constructor
  · intro j
    obtain ⟨y, y1, y2⟩ := hg j
    obtain ⟨m, em⟩ := y2
    have hs := mix_small (c := fun k j => scaled32 b f (c k) j - (nearImage L (f.xs.headD 0 j) (c k j) * b.cells / L +
      ((κ j * b.cells - (mc32 b skip unitBufs f).buf.origin j : ℤ) : ℚ))) (j := j) (ε := (b.cells : ℚ) / 2 ^ 24) hq (by
        intro k
        have := (hsc (c k) (hmem k) j).2.2.2.1
        push_cast
        rw [← add_sub_assoc]
        exact this)
    rw [mix_sub (fun k => scaled32 b f (c k)), mix_add _ (fun j => ((κ j * b.cells - (mc32 b skip unitBufs f).buf.origin j : ℤ) : ℚ))] at hs
    generalize mix (fun k j => nearImage L (f.xs.headD 0 j) (c k j) * b.cells / L) q j = E at *
    refine ⟨y - ((κ j * b.cells - (mc32 b skip unitBufs f).buf.origin j : ℤ) : ℚ), ?_, ?_⟩
    · obtain ⟨s1, s2⟩ := abs_le.mp hs
      obtain ⟨r1, r2⟩ := abs_le.mp y1
      rw [abs_le]
      constructor <;> linarith
    · rw [Int.floor_sub_intCast]
      refine ⟨m + κ j, ?_⟩
      rw [mul_add, ← em]
      ring
  · intro j
    obtain ⟨y, y1, y2⟩ := hg j
    obtain ⟨m, em⟩ := y2
    obtain ⟨k', ek⟩ := he j
    have hw : ((sheetBounds32 f b.cells).width j : ℚ) ≤ b.cells := by exact_mod_cast hax j
    have hmx := mix_between (c := fun k => scaled32 b f (c k)) (j := j) (lo := e j + 160 * ((b.cells : ℚ) / 2 ^ 24))
      (hi := e j + (sheetBounds32 f b.cells).width j - 160 * ((b.cells : ℚ) / 2 ^ 24)) hq (fun k => by
        obtain ⟨-, a1, a2, -⟩ := hsc (c k) (hmem k) j
        constructor <;> linarith)
    have hd : (e j + (sheetBounds32 f b.cells).width j - 160 * ((b.cells : ℚ) / 2 ^ 24) -
        (e j + 160 * ((b.cells : ℚ) / 2 ^ 24))) / 2 ^ 24 ≤ (b.cells : ℚ) / 2 ^ 24 := by
      gcongr
      linarith
    obtain ⟨r1, r2⟩ := abs_le.mp y1
    generalize (b.cells : ℚ) / 2 ^ 24 = γ at *
    have f1 : e j ≤ ⌊y⌋ := by
      rw [Int.le_floor]
      linarith
    have f2 : ⌊y⌋ < e j + (sheetBounds32 f b.cells).width j := by
      rw [Int.floor_lt]
      push_cast
      linarith
    refine ⟨⌊y⌋ - e j + (sheetBounds32 f b.cells).origin j, ⟨by omega, by omega⟩, m + k', ?_⟩
    rw [mul_add, ← em, ← ek]
    ring

end Cells

/-! ## The passes together -/

section Sums
variable {L : ℚ} {b : RBox} {skip : ℤ} {unitBufs : List (List Vec)}

/-- The cell of the box in which a sample is counted, when `F` gives the cells of the buffers. -/
def boxCell (b : RBox) (skip : ℤ) (unitBufs : List (List Vec)) (val : SheetFile → Vec → R64)
    (F : SegRun R64 → (Fin 4 → Vec) → Vec → IVec) (p : Pass) (t : ℤ × ℤ × ℤ × Fin 6) (q : Vec) : IVec := fun j =>
  (if requires32 b p.file then F else fun r => counted r)
    (pass32 b skip unitBufs (val p.file) p.file p.pick p.wbuf)
    (segCorners (mc32 b skip unitBufs p.file) (scaleXs32 b p.file) t) q j + (mc32 b skip unitBufs p.file).buf.origin j

/-- What is counted in passes over a list of files. -/
theorem boxCell_near (hb : Setup32 L b skip unitBufs) {reqVel : Bool} (val : SheetFile → Vec → R64)
    (hval : reqVel = false → ∀ f w w', val f w = val f w') {ps : List Pass} (hps : ∀ p ∈ ps, PassOk32 p L b unitBufs reqVel)
    {F : SegRun R64 → (Fin 4 → Vec) → Vec → IVec}
    (hF : ∀ p ∈ passes32 b skip unitBufs val ps, ∀ t ∈ tetras (p.mc.segWidth / p.mc.skip), ∀ u ∈ p.mc.unitBufs, ∀ q ∈ u,
        CountedNear b.cells (F p (segCorners p.mc p.xs t) q) (mix (segCorners p.mc p.xs t) q)) :
    ∀ p ∈ ps, ∀ t ∈ tetras (p.file.header.segmentWidth / skip), ∀ u ∈ unitBufs, ∀ q ∈ u.take b.pts,
      CellNear b.cells (boxCell b skip unitBufs val F p t q) (exactPlace L b skip p.file t q) ∧
      ∀ j, ∃ i : ℤ, ((sheetBounds32 p.file b.cells).origin j ≤ i ∧
        i < (sheetBounds32 p.file b.cells).origin j + (sheetBounds32 p.file b.cells).width j) ∧
        b.cells ∣ boxCell b skip unitBufs val F p t q j - i := by
  intro p hp t ht u hu q hq
  have hC0 : 0 < b.cells := by have := hb.cells.1; omega
  have hum : u.take b.pts ∈ unitBufs.map (·.take b.pts) := List.mem_map_of_mem hu
  refine sample_cell (hps p hp).file hb ht ((hb.unit u hu).2 q (List.mem_of_mem_take hq)) ?_
  cases hr : requires32 b p.file with
  | true =>
    rw [if_pos rfl]
    refine hF (pass32 b skip unitBufs (val p.file) p.file p.pick p.wbuf) ?_ t ht (u.take b.pts) hum q hq
    exact List.mem_map.mpr ⟨p, List.mem_filter.mpr ⟨hp, hr⟩, rfl⟩
  | false =>
    rw [if_neg (by simp)]
    exact (pass32_any hb (hps p hp) (val p.file) fun h => hval h p.file).near hC0 t ht (u.take b.pts) hum q hq

/-- A file that is passed over has no sample in the image. -/
theorem skipped_cells {M : Type} [AddCommMonoid M] (hb : Setup32 L b skip unitBufs) {f : SheetFile}
    (hf : GoodSheet L b.cells f) (hr : requires32 b f = false) {G : ℤ × ℤ × ℤ × Fin 6 → Vec → IVec}
    {U : ℤ × ℤ × ℤ × Fin 6 → List Vec} (hU : ∀ t, b.pts ≤ (U t).length)
    (hG : ∀ t ∈ tetras (f.header.segmentWidth / skip), ∀ q ∈ U t, ∀ j, ∃ i : ℤ, ((sheetBounds32 f b.cells).origin j ≤ i ∧
        i < (sheetBounds32 f b.cells).origin j + (sheetBounds32 f b.cells).width j) ∧ b.cells ∣ G t q j - i)
    (w : (Fin 4 → Vec) → Vec → Vec) (val : Vec → M) (x y z : ℤ) (hcell : IsCell b.cb.width x y z) :
    fileCells G w b.cells b.cb b.pts skip val f U x y z = 0 := by
  unfold fileCells
  refine Finset.sum_eq_zero fun t ht => Finset.sum_eq_zero fun i hi => ?_
  rw [if_neg]
  intro hpl
  rw [Finset.mem_range] at hi
  have hl : i < (U t).length := lt_of_lt_of_le hi (hU t)
  have hm : (U t).getD i 0 ∈ U t := by
    rw [List.getD_eq_getElem _ _ hl]
    exact List.getElem_mem hl
  have hin : ∀ j, 0 ≤ (![x, y, z] : IVec) j ∧ (![x, y, z] : IVec) j < b.cb.width j := by
    obtain ⟨c0, c1, c2⟩ := hcell
    intro j; fin_cases j
    · exact c0
    · exact c1
    · exact c2
  have hax := fun j => (hf.axis hb j).1
  choose a ha1 ha2 using hG t ht _ hm
  have hC0 : 0 < b.cells := by have := hb.cells.1; omega
  have : requires32 b f = true := by
    refine C34_intersect_complete _ _ _ hC0 (fun j => ?_) a (fun j => (![x, y, z] : IVec) j + b.cb.origin j) ha1 ?_ ?_
    · have := hax j
      have := hb.origin j
      omega
    · intro j
      have := hin j
      dsimp only
      omega
    · intro j
      obtain ⟨k, ek⟩ := hpl j
      obtain ⟨k', ek'⟩ := ha2 j
      refine ⟨k' - k, ?_⟩
      rw [sub_mul, mul_comm k', mul_comm k, ← ek, ← ek']
      ring
  rw [hr] at this
  exact Bool.false_ne_true this

/-- What the passes add together, with the files that are passed over. -/
theorem passes32_sums (hb : Setup32 L b skip unitBufs) {reqVel : Bool} (val : SheetFile → Vec → R64)
    (F : SegRun R64 → (Fin 4 → Vec) → Vec → IVec) (w : (Fin 4 → Vec) → Vec → Vec) {ps : List Pass}
    (hps : ∀ p ∈ ps, PassOk32 p L b unitBufs reqVel)
    (hF : ∀ p ∈ ps, ∀ t ∈ tetras (p.file.header.segmentWidth / skip), ∀ u ∈ unitBufs, ∀ q ∈ u.take b.pts,
      ∀ j, ∃ i : ℤ, ((sheetBounds32 p.file b.cells).origin j ≤ i ∧
        i < (sheetBounds32 p.file b.cells).origin j + (sheetBounds32 p.file b.cells).width j) ∧
        b.cells ∣ boxCell b skip unitBufs val F p t q j - i) :
    ∀ V : List (ℤ × ℤ × ℤ × Fin 6 → List Vec),
      List.Forall₂ (fun (r : SegRun R64) u => ∀ t, u t ∈ r.mc.unitBufs) (passes32 b skip unitBufs val ps) V →
      ∃ U : List (ℤ × ℤ × ℤ × Fin 6 → List Vec),
        List.Forall₂ (fun _ u => ∀ t, ∃ v ∈ unitBufs, u t = v.take b.pts) ps U ∧
        ∀ {N : Type} [AddCommMonoid N] (g : R64 → N), ∀ x y z, IsCell b.cb.width x y z →
          cellSum F w (passes32 b skip unitBufs val ps) (fun p v => g (p.val v)) V x y z =
            filesSum (boxCell b skip unitBufs val F) w b skip (fun f v => g (val f v)) ps U x y z := by
  induction ps with
  | nil =>
    intro V hV
    have : V = [] := by
      cases hV
      rfl
    exact ⟨[], .nil, fun g x y z _ => by rw [this]; rfl⟩
  | cons p ps ih =>
    intro V hV
    have hp := hps p (by simp)
    have ih := ih (fun q hq => hps q (by simp [hq])) fun q hq => hF q (by simp [hq])
    cases hr : requires32 b p.file with
    | true =>
      have e : passes32 b skip unitBufs val (p :: ps) =
          pass32 b skip unitBufs (val p.file) p.file p.pick p.wbuf :: passes32 b skip unitBufs val ps := by
        unfold passes32
        rw [List.filter_cons_of_pos (by simpa using hr), List.map_cons]
      rw [e] at hV ⊢
      cases hV with
      | cons h1 h2 =>
        rename_i u V
        obtain ⟨U, hU, hsum⟩ := ih V h2
        refine ⟨u :: U, .cons (fun t => ?_) hU, fun g x y z hcell => ?_⟩
        · obtain ⟨v, hv, ev⟩ := List.mem_map.mp (h1 t)
          exact ⟨v, hv, ev.symm⟩
        · have hs := hsum g x y z hcell
          unfold cellSum filesSum at hs ⊢
          rw [List.zipWith_cons_cons, List.sum_cons, List.zipWith_cons_cons, List.sum_cons, hs]
          congr 1
          unfold cellImage fileCells boxCell
          simp only [hr, if_true]
          rfl
    | false =>
      have e : passes32 b skip unitBufs val (p :: ps) = passes32 b skip unitBufs val ps := by
        unfold passes32
        rw [List.filter_cons_of_neg (by simp [hr])]
      rw [e] at hV ⊢
      obtain ⟨U, hU, hsum⟩ := ih V hV
      obtain ⟨v, hv⟩ := List.exists_mem_of_length_pos hb.some
      refine ⟨(fun _ => v.take b.pts) :: U, .cons (fun t => ⟨v, hv, rfl⟩) hU, fun g x y z hcell => ?_⟩
      have hs := hsum g x y z hcell
      unfold filesSum at hs ⊢
      rw [hs, List.zipWith_cons_cons, List.sum_cons, skipped_cells hb hp.file hr (fun t => ?_)
        (fun t ht q hq => hF p (by simp) t ht v hv q hq) w _ x y z hcell, zero_add]
      rw [List.length_take, min_eq_left (hb.unit v hv).1]

end Sums

/-! ## Images -/

/-- **C146** (partial): the image of a list of files that were written in machine arithmetic, rendered in machine arithmetic.
Under every schedule and for all random draws the passes run to the end without a panic; every sample of every tetrahedron of
every file in the list, also of those that are passed over, is counted in the cell of a point `46 / 2 ^ 24` of the box or less
away from its exact place; and the value of an image cell differs from the exact sum of the values of the samples counted
there by at most the error of the sum. Missing: files that span half of the box, and particles that are very close to the
faces of the cells (`GoodSheet`). -/
theorem C146_image_partial {L : ℚ} {b : RBox} {skip : ℤ} {unitBufs : List (List Vec)} (hb : Setup32 L b skip unitBufs)
    (h3 : b.proj = none) (reqVel : Bool) (m : ℕ) (val : SheetFile → Vec → R64)
    (hval : reqVel = false → ∀ f w w', val f w = val f w') (hv : ∀ f w, F64 (val f w).val)
    (ps : List Pass) (hps : ∀ p ∈ ps, PassOk32 p L b unitBufs reqVel) :
    ∃ (G : Pass → ℤ × ℤ × ℤ × Fin 6 → Vec → IVec) (w : (Fin 4 → Vec) → Vec → Vec) (U : List (ℤ × ℤ × ℤ × Fin 6 → List Vec)),
      CountsNear L b skip unitBufs ps G ∧ Places w ∧
      List.Forall₂ (fun _ u => ∀ t, ∃ v ∈ unitBufs, u t = v.take b.pts) ps U ∧
      ∀ grid : List R64, (grid.length : ℤ) = boxLen3 b.cb → (∀ v ∈ grid, v = 0) →
        (∃ out, Rendered reqVel m (passes32 b skip unitBufs val ps) grid out) ∧
        ∀ out, Rendered reqVel m (passes32 b skip unitBufs val ps) grid out → out.length = grid.length ∧
          ∀ x y z, IsCell b.cb.width x y z →
            ∃ v, rd out (x + y * b.cb.width 0 + z * (b.cb.width 0 * b.cb.width 1)) = some v ∧
              if x < b.cells ∧ y < b.cells ∧ z < b.cells then
                |v.val - filesSum G w b skip (fun f w => (val f w).val) ps U x y z| ≤
                  filesSum G w b skip (fun f w => |(val f w).val|) ps U x y z *
                    sumErr (filesSum G w b skip (fun _ _ => 1) ps U x y z)
              else v.val = 0 := by
  have hC0 : 0 < b.cells := by have := hb.cells.1; omega
  have hany : ∀ r ∈ passes32 b skip unitBufs val ps, AnyPass r reqVel b.cells b.cb := by
    intro r hr
    obtain ⟨p, hp, rfl⟩ := List.mem_map.mp hr
    exact pass32_any hb (hps p (List.mem_filter.mp hp).1) (val p.file) fun h => hval h p.file
  obtain ⟨F, w, V, hF, hw, hV, hall⟩ := C144_image_partial reqVel m b.cells hC0 b.cb (passes32 b skip unitBufs val ps) hany
    (fun r hr id => by
      obtain ⟨p, hp, rfl⟩ := List.mem_map.mp hr
      show List.replicate (b.bufferSize _).toNat 0 = _
      simp only [RBox.bufferSize, h3]
      rfl)
    (fun r hr v => by
      obtain ⟨p, hp, rfl⟩ := List.mem_map.mp hr
      exact hv p.file v)
  have hnear := boxCell_near hb val hval hps hF
  obtain ⟨U, hU, hsum⟩ := passes32_sums hb val F w hps (fun p hp t ht u hu q hq => (hnear p hp t ht u hu q hq).2) V hV
  refine ⟨boxCell b skip unitBufs val F, w, U, fun p hp t ht u hu q hq => (hnear p hp t ht u hu q hq).1, hw, hU,
    fun grid hg hz => ⟨(hall grid hg hz).1, fun out ho => ?_⟩⟩
  obtain ⟨hl, hcells⟩ := (hall grid hg hz).2 out ho
  refine ⟨hl, fun x y z hcell => ?_⟩
  obtain ⟨v, h1, h2⟩ := hcells x y z hcell
  refine ⟨v, h1, ?_⟩
  rw [hsum (fun r => r.val) x y z hcell, hsum (fun r => |r.val|) x y z hcell, hsum (fun _ => 1) x y z hcell] at h2
  exact h2

theorem sum_zipWith {α β N : Type} [AddCommMonoid N] (K : Finset ℤ) (h : ℤ → α → β → N) (l : List α) (l' : List β) :
    (List.zipWith (fun a b => ∑ k ∈ K, h k a b) l l').sum = ∑ k ∈ K, (List.zipWith (h k) l l').sum := by
  induction l generalizing l' with
  | nil => simp
  | cons a l ih =>
    cases l' with
    | nil => simp
    | cons b l' => simp only [List.zipWith_cons_cons, List.sum_cons, ih, Finset.sum_add_distrib]

/-- **C146** (partial): the same for projected images, pixel by pixel. -/
theorem C146_pixel_partial {L : ℚ} {b : RBox} {skip : ℤ} {unitBufs : List (List Vec)} (hb : Setup32 L b skip unitBufs)
    (proj : ℤ) (h2 : b.proj = some proj) (hproj : 0 ≤ proj ∧ proj < 3) (reqVel : Bool) (m : ℕ) (val : SheetFile → Vec → R64)
    (hval : reqVel = false → ∀ f w w', val f w = val f w') (hv : ∀ f w, F64 (val f w).val)
    (ps : List Pass) (hps : ∀ p ∈ ps, PassOk32 p L b unitBufs reqVel) :
    ∃ (G : Pass → ℤ × ℤ × ℤ × Fin 6 → Vec → IVec) (w : (Fin 4 → Vec) → Vec → Vec) (U : List (ℤ × ℤ × ℤ × Fin 6 → List Vec)),
      CountsNear L b skip unitBufs ps G ∧ Places w ∧
      List.Forall₂ (fun _ u => ∀ t, ∃ v ∈ unitBufs, u t = v.take b.pts) ps U ∧
      ∀ grid : List R64, (grid.length : ℤ) = boxLen2 b.cb proj → (∀ v ∈ grid, v = 0) →
        (∃ out, Rendered2 proj reqVel m (passes32 b skip unitBufs val ps) grid out) ∧
        ∀ out, Rendered2 proj reqVel m (passes32 b skip unitBufs val ps) grid out → out.length = grid.length ∧
          ∀ i j, (0 ≤ i ∧ i < b.cb.width (projDims proj).1) → (0 ≤ j ∧ j < b.cb.width (projDims proj).2.1) →
            ∃ v, rd out (i + j * b.cb.width (projDims proj).1) = some v ∧
              if i < b.cells ∧ j < b.cells then
                |v.val - filesSum2 G w b proj skip (fun f w => (val f w).val) ps U i j| ≤
                  filesSum2 G w b proj skip (fun f w => |(val f w).val|) ps U i j *
                    sumErr (filesSum2 G w b proj skip (fun _ _ => 1) ps U i j)
              else v.val = 0 := by
  have hC0 : 0 < b.cells := by have := hb.cells.1; omega
  have hany : ∀ r ∈ passes32 b skip unitBufs val ps, AnyPass r reqVel b.cells b.cb := by
    intro r hr
    obtain ⟨p, hp, rfl⟩ := List.mem_map.mp hr
    exact pass32_any hb (hps p (List.mem_filter.mp hp).1) (val p.file) fun h => hval h p.file
  obtain ⟨F, w, V, hF, hw, hV, hall⟩ := C145_pixel_partial proj hproj reqVel m b.cells hC0 b.cb
    (passes32 b skip unitBufs val ps) hany
    (fun r hr id => by
      obtain ⟨p, hp, rfl⟩ := List.mem_map.mp hr
      show List.replicate (b.bufferSize _).toNat 0 = _
      simp only [RBox.bufferSize, h2]
      rfl)
    (fun r hr v => by
      obtain ⟨p, hp, rfl⟩ := List.mem_map.mp hr
      exact hv p.file v)
  have hnear := boxCell_near hb val hval hps hF
  obtain ⟨U, hU, hsum⟩ := passes32_sums hb val F w hps (fun p hp t ht u hu q hq => (hnear p hp t ht u hu q hq).2) V hV
  refine ⟨boxCell b skip unitBufs val F, w, U, fun p hp t ht u hu q hq => (hnear p hp t ht u hu q hq).1, hw, hU,
    fun grid hg hz => ⟨(hall grid hg hz).1, fun out ho => ?_⟩⟩
  obtain ⟨hl, hcells⟩ := (hall grid hg hz).2 out ho
  refine ⟨hl, fun i j hi hj => ?_⟩
  obtain ⟨v, h1, h4⟩ := hcells i j hi hj
  refine ⟨v, h1, ?_⟩
  have key : ∀ {N : Type} [AddCommMonoid N] (g : R64 → N),
      cellSum2 F w proj (passes32 b skip unitBufs val ps) (fun p v => g (p.val v)) V i j =
        filesSum2 (boxCell b skip unitBufs val F) w b proj skip (fun f v => g (val f v)) ps U i j := by
    intro N _ g
    unfold cellSum2 filesSum2
    have e : List.zipWith (fun (p : SegRun R64) u => cellColumn (F p) w p.mc.cells p.mc.buf p.mc.dom proj p.mc.points.toNat
        (p.mc.segWidth / p.mc.skip) (segCorners p.mc p.xs) (segCorners p.mc p.vs) (fun v => g (p.val v)) u i j)
          (passes32 b skip unitBufs val ps) V =
        List.zipWith (fun (p : SegRun R64) u => ∑ k ∈ Finset.Ico 0 (min (b.cb.width (projDims proj).2.2) b.cells),
          cellImage (F p) w p.mc.cells p.mc.buf p.mc.dom p.mc.points.toNat (p.mc.segWidth / p.mc.skip)
            (segCorners p.mc p.xs) (segCorners p.mc p.vs) (fun v => g (p.val v)) u (voxel proj i j k 0) (voxel proj i j k 1)
            (voxel proj i j k 2)) (passes32 b skip unitBufs val ps) V := by
      unfold passes32
      rw [List.zipWith_map_left, List.zipWith_map_left]
      rfl
    rw [e, sum_zipWith]
    refine Finset.sum_congr rfl fun k hk => ?_
    rw [Finset.mem_Ico] at hk
    exact hsum g _ _ _ (voxel_cell hi hj ⟨hk.1, hk.2.trans_le (min_le_left _ _)⟩)
  rw [key (fun r => r.val), key (fun r => |r.val|), key (fun _ => 1)] at h4
  exact h4

/-! ## Densities in their exact cells -/

theorem fileCells_exact {M : Type} [AddCommMonoid M] {G G' : ℤ × ℤ × ℤ × Fin 6 → Vec → IVec}
    {w w' : (Fin 4 → Vec) → Vec → Vec} {cells : ℤ} {dom : CellBounds} {points : ℕ} {skip : ℤ} {val : Vec → M} {f : SheetFile}
    {U : ℤ × ℤ × ℤ × Fin 6 → List Vec} (hval : ∀ v v', val v = val v') (hU : ∀ t, points ≤ (U t).length)
    (h : ∀ t ∈ tetras (f.header.segmentWidth / skip), ∀ q ∈ U t, ∀ j, cells ∣ G t q j - G' t q j) (x y z : ℤ) :
    fileCells G w cells dom points skip val f U x y z = fileCells G' w' cells dom points skip val f U x y z := by
  unfold fileCells
  refine Finset.sum_congr rfl fun t ht => Finset.sum_congr rfl fun i hi => ?_
  rw [Finset.mem_range] at hi
  have hl : i < (U t).length := lt_of_lt_of_le hi (hU t)
  have hm : (U t).getD i 0 ∈ U t := by
    rw [List.getD_eq_getElem _ _ hl]
    exact List.getElem_mem hl
  have hd := h t ht _ hm
  refine if_congr (forall_congr' fun j => ?_) (hval _ _) rfl
  have e : G t ((U t).getD i 0) j - ((![x, y, z] : IVec) j + dom.origin j) = (G t ((U t).getD i 0) j - G' t ((U t).getD i 0) j) +
    (G' t ((U t).getD i 0) j - ((![x, y, z] : IVec) j + dom.origin j)) := by ring
  rw [e]
  exact (dvd_add_right (hd j))

theorem filesSum_exact {M : Type} [AddCommMonoid M] {L : ℚ} {b : RBox} {skip : ℤ} {unitBufs : List (List Vec)}
    (hb : Setup32 L b skip unitBufs) {w : (Fin 4 → Vec) → Vec → Vec} {G : Pass → ℤ × ℤ × ℤ × Fin 6 → Vec → IVec}
    {ps : List Pass} (hG : CountsNear L b skip unitBufs ps G) (hoff : SamplesOff L b skip unitBufs ps)
    (val : SheetFile → Vec → M) (hval : ∀ f v v', val f v = val f v') {U : List (ℤ × ℤ × ℤ × Fin 6 → List Vec)}
    (hU : List.Forall₂ (fun _ u => ∀ t, ∃ v ∈ unitBufs, u t = v.take b.pts) ps U) (x y z : ℤ) :
    filesSum G w b skip val ps U x y z = filesSum (exactBoxCell L b skip) mix b skip val ps U x y z := by
  unfold filesSum
  induction hU with
  | nil => rfl
  | @cons p u ps U h1 _ ih =>
    rw [List.zipWith_cons_cons, List.zipWith_cons_cons, List.sum_cons, List.sum_cons,
      ih (fun p hp => hG p (by simp [hp])) (fun p hp => hoff p (by simp [hp]))]
    congr 1
    refine fileCells_exact (hval _) (fun t => ?_) (fun t ht q hq j => ?_) x y z
    · obtain ⟨v, hv, e⟩ := h1 t
      rw [e, List.length_take, min_eq_left (hb.unit v hv).1]
    · obtain ⟨v, hv, e⟩ := h1 t
      rw [e] at hq
      obtain ⟨y, y1, y2⟩ := hG p (by simp) t ht v hv q hq j
      rw [floor_same y1 (hoff p (by simp) t ht v hv q hq j)] at y2
      exact y2

/-- **C146** (partial): a density image from files written in machine arithmetic, rendered in machine arithmetic, is that of
the exact samples up to the error of the sums, when no exact sample is within `46 / 2 ^ 24` of the box of a face. -/
theorem C146_density_partial {L : ℚ} {b : RBox} {skip : ℤ} {unitBufs : List (List Vec)} (hb : Setup32 L b skip unitBufs)
    (h3 : b.proj = none) (m : ℕ) (val : SheetFile → Vec → R64) (hval : ∀ f w w', val f w = val f w')
    (hv : ∀ f w, F64 (val f w).val) (ps : List Pass) (hps : ∀ p ∈ ps, PassOk32 p L b unitBufs false)
    (hoff : SamplesOff L b skip unitBufs ps) :
    ∃ U : List (ℤ × ℤ × ℤ × Fin 6 → List Vec),
      List.Forall₂ (fun _ u => ∀ t, ∃ v ∈ unitBufs, u t = v.take b.pts) ps U ∧
      ∀ grid : List R64, (grid.length : ℤ) = boxLen3 b.cb → (∀ v ∈ grid, v = 0) →
        (∃ out, Rendered false m (passes32 b skip unitBufs val ps) grid out) ∧
        ∀ out, Rendered false m (passes32 b skip unitBufs val ps) grid out → out.length = grid.length ∧
          ∀ x y z, IsCell b.cb.width x y z →
            ∃ v, rd out (x + y * b.cb.width 0 + z * (b.cb.width 0 * b.cb.width 1)) = some v ∧
              if x < b.cells ∧ y < b.cells ∧ z < b.cells then
                |v.val - filesSum (exactBoxCell L b skip) mix b skip (fun f w => (val f w).val) ps U x y z| ≤
                  filesSum (exactBoxCell L b skip) mix b skip (fun f w => |(val f w).val|) ps U x y z *
                    sumErr (filesSum (exactBoxCell L b skip) mix b skip (fun _ _ => 1) ps U x y z)
              else v.val = 0 := by
  obtain ⟨G, w, U, hG, -, hU, h⟩ := C146_image_partial hb h3 false m val (fun _ => hval) hv ps hps
  refine ⟨U, hU, fun grid hg hz => ⟨(h grid hg hz).1, fun out ho => ?_⟩⟩
  obtain ⟨hl, hcells⟩ := (h grid hg hz).2 out ho
  refine ⟨hl, fun x y z hcell => ?_⟩
  obtain ⟨v, h1, h2⟩ := hcells x y z hcell
  rw [filesSum_exact hb hG hoff _ (fun f v v' => by rw [hval f v v']) hU,
    filesSum_exact hb hG hoff _ (fun f v v' => by rw [hval f v v']) hU,
    filesSum_exact hb hG hoff _ (fun f v v' => rfl) hU] at h2
  exact ⟨v, h1, h2⟩

/-- **C146** (partial): the same for projected density images. -/
theorem C146_projected_density_partial {L : ℚ} {b : RBox} {skip : ℤ} {unitBufs : List (List Vec)}
    (hb : Setup32 L b skip unitBufs) (proj : ℤ) (h2 : b.proj = some proj) (hproj : 0 ≤ proj ∧ proj < 3) (m : ℕ)
    (val : SheetFile → Vec → R64) (hval : ∀ f w w', val f w = val f w') (hv : ∀ f w, F64 (val f w).val) (ps : List Pass)
    (hps : ∀ p ∈ ps, PassOk32 p L b unitBufs false) (hoff : SamplesOff L b skip unitBufs ps) :
    ∃ U : List (ℤ × ℤ × ℤ × Fin 6 → List Vec),
      List.Forall₂ (fun _ u => ∀ t, ∃ v ∈ unitBufs, u t = v.take b.pts) ps U ∧
      ∀ grid : List R64, (grid.length : ℤ) = boxLen2 b.cb proj → (∀ v ∈ grid, v = 0) →
        (∃ out, Rendered2 proj false m (passes32 b skip unitBufs val ps) grid out) ∧
        ∀ out, Rendered2 proj false m (passes32 b skip unitBufs val ps) grid out → out.length = grid.length ∧
          ∀ i j, (0 ≤ i ∧ i < b.cb.width (projDims proj).1) → (0 ≤ j ∧ j < b.cb.width (projDims proj).2.1) →
            ∃ v, rd out (i + j * b.cb.width (projDims proj).1) = some v ∧
              if i < b.cells ∧ j < b.cells then
                |v.val - filesSum2 (exactBoxCell L b skip) mix b proj skip (fun f w => (val f w).val) ps U i j| ≤
                  filesSum2 (exactBoxCell L b skip) mix b proj skip (fun f w => |(val f w).val|) ps U i j *
                    sumErr (filesSum2 (exactBoxCell L b skip) mix b proj skip (fun _ _ => 1) ps U i j)
              else v.val = 0 := by
  obtain ⟨G, w, U, hG, -, hU, h⟩ := C146_pixel_partial hb proj h2 hproj false m val (fun _ => hval) hv ps hps
  refine ⟨U, hU, fun grid hg hz => ⟨(h grid hg hz).1, fun out ho => ?_⟩⟩
  obtain ⟨hl, hcells⟩ := (h grid hg hz).2 out ho
  refine ⟨hl, fun i j hi hj => ?_⟩
  obtain ⟨v, h1, h4⟩ := hcells i j hi hj
  have key : ∀ {M : Type} [AddCommMonoid M] (val' : SheetFile → Vec → M), (∀ f v v', val' f v = val' f v') →
      filesSum2 G w b proj skip val' ps U i j = filesSum2 (exactBoxCell L b skip) mix b proj skip val' ps U i j :=
    fun val' hval' => Finset.sum_congr rfl fun k _ => filesSum_exact hb hG hoff val' hval' hU _ _ _
  rw [key _ (fun f v v' => by rw [hval f v v']), key _ (fun f v v' => by rw [hval f v v']), key _ (fun f v v' => rfl)] at h4
  exact ⟨v, h1, h4⟩

/-! ## The mean density -/

section Mean
variable {L : ℚ} {b : RBox} {skip : ℤ} {unitBufs : List (List Vec)}

/-- The cells of every file meet an image at least as wide as the box. -/
theorem required32_of_wide (hb : Setup32 L b skip unitBufs) (hwide : ∀ j, b.cells ≤ b.cb.width j) {f : SheetFile}
    (hf : GoodSheet L b.cells f) : requires32 b f = true := by
  have hC0 : 0 < b.cells := by have := hb.cells.1; omega
  refine C34_intersect_complete _ _ _ hC0 (fun j => ?_) (sheetBounds32 f b.cells).origin
    (fun j => ((sheetBounds32 f b.cells).origin j - b.cb.origin j) % b.cells + b.cb.origin j) ?_ ?_ ?_
  · have := (hf.axis hb j).1
    have := hb.origin j
    omega
  · intro j
    obtain ⟨-, -, κ, h⟩ := hf.axis hb j
    obtain ⟨h1, h2, -⟩ := h _ (List.mem_map_of_mem (f := (· j)) hf.nonempty)
    have h3 : 0 ≤ (b.cells : ℚ) / 2 ^ 24 := by
      have : (0 : ℚ) < b.cells := by exact_mod_cast hC0
      positivity
    have : (0 : ℚ) < (sheetBounds32 f b.cells).width j := by linarith
    have : 0 < (sheetBounds32 f b.cells).width j := by exact_mod_cast this
    omega
  · intro j
    have h1 := Int.emod_nonneg ((sheetBounds32 f b.cells).origin j - b.cb.origin j) hC0.ne'
    have h2 := Int.emod_lt_of_pos ((sheetBounds32 f b.cells).origin j - b.cb.origin j) hC0
    have h3 := hwide j
    dsimp only
    omega
  · intro j
    have h1 := Int.emod_add_mul_ediv ((sheetBounds32 f b.cells).origin j - b.cb.origin j) b.cells
    refine ⟨-(((sheetBounds32 f b.cells).origin j - b.cb.origin j) / b.cells), ?_⟩
    linarith

theorem passes32_of_wide (hb : Setup32 L b skip unitBufs) (hwide : ∀ j, b.cells ≤ b.cb.width j) (val : SheetFile → Vec → R64)
    {ps : List Pass} (hps : ∀ p ∈ ps, GoodSheet L b.cells p.file) :
    passes32 b skip unitBufs val ps = ps.map fun p => pass32 b skip unitBufs (val p.file) p.file p.pick p.wbuf := by
  unfold passes32
  rw [List.filter_eq_self.mpr fun p hp => required32_of_wide hb hwide (hps p hp)]

end Mean

theorem FileOk32.good {hd : Catalog} {N c m : ℕ} {xs vs : List Vec} {f : SheetFile} {C : ℤ}
    (h : FileOk32 hd N c (N / c) m xs vs f) (hs : ∀ x ∈ xs, ∀ j, F32 (x j))
    (hin : ∀ x ∈ xs, ∀ j, 0 ≤ x j ∧ x j ≤ hd.totalWidth) (hf : Spread hd.totalWidth C f) :
    GoodSheet hd.totalWidth C f where
  total := h.totalWidth
  seg := by rw [h.segmentWidth]; exact Int.natCast_nonneg _
  xlen := by
    rw [h.xblock.1, h.segmentWidth]
    push_cast
    rfl
  vlen := by
    rw [h.vblock.1, h.segmentWidth]
    push_cast
    rfl
  box := h.box
  single := fun x hx => hs x (h.mem x hx)
  inside := fun x hx => hin x (h.mem x hx)
  span := hf.span
  off := hf.off

/-- Passes over the files of a snapshot are passes over all segments. -/
theorem passes32_full {hd : Catalog} {N c : ℕ} (hN : 0 < N) (hN' : N ≤ 2 ^ 53) (hcw : hd.countWidth = N) (hdvd : c ∣ N)
    {skip : ℕ} (hsd : skip ∣ N / c) (hs3 : skip * skip * skip ≤ 2 ^ 53) {b : RBox} {unitBufs : List (List Vec)}
    (hb : Setup32 hd.totalWidth b skip unitBufs) (hpts : 0 < b.pts ∧ b.pts ≤ 2 ^ 53)
    (hwide : ∀ j, b.cells ≤ b.cb.width j) (val : SheetFile → Vec → R64) {ps : List Pass}
    (hps : ∀ p ∈ ps, GoodSheet hd.totalWidth b.cells p.file) (hlen : ps.length = c * c * c)
    (hsw : ∀ p ∈ ps, p.file.header.segmentWidth = ((N / c : ℕ) : ℤ)) :
    Full b.cells hd.countWidth (passes32 b skip unitBufs val ps) ∧
      ((passes32 b skip unitBufs val ps).map samples).sum = 6 * (N / skip) ^ 3 * b.pts := by
  rw [passes32_of_wide hb hwide val hps]
  have hs : 0 < skip := by exact_mod_cast hb.skip
  have hNc : N / c * c = N := Nat.div_mul_cancel hdvd
  refine ⟨⟨⟨by have := hb.cells.1; omega, hb.cells.2.trans (by norm_num)⟩, ?_, ?_, ?_, ?_, ?_, ?_⟩, ?_⟩
  · rw [hcw]
    exact ⟨by exact_mod_cast hN, by exact_mod_cast hN'⟩
  · intro r hr
    obtain ⟨p, hp, rfl⟩ := List.mem_map.mp hr
    show (0 : ℤ) < b.pts ∧ (b.pts : ℤ) ≤ 2 ^ 53
    exact ⟨by exact_mod_cast hpts.1, by exact_mod_cast hpts.2⟩
  · intro r hr
    obtain ⟨p, hp, rfl⟩ := List.mem_map.mp hr
    show (0 : ℤ) < skip ∧ (skip : ℤ) * skip * skip ≤ 2 ^ 53
    exact ⟨by exact_mod_cast hs, by exact_mod_cast hs3⟩
  · intro r hr
    obtain ⟨p, hp, rfl⟩ := List.mem_map.mp hr
    exact (hps p hp).seg
  · intro r hr
    obtain ⟨p, hp, rfl⟩ := List.mem_map.mp hr
    show (skip : ℤ) ∣ p.file.header.segmentWidth
    rw [hsw p hp]
    exact_mod_cast hsd
  · rw [List.map_map, List.map_congr_left (g := fun _ => ((N / c : ℕ) : ℤ) ^ 3) (fun p hp => by
      show p.file.header.segmentWidth ^ 3 = _
      rw [hsw p hp]), List.map_const', List.sum_replicate, hlen, hcw, nsmul_eq_mul]
    conv_rhs => rw [← hNc]
    push_cast
    ring
  · rw [List.map_map, List.map_congr_left (g := fun _ => 6 * (N / c / skip) ^ 3 * b.pts) (fun p hp => by
      show 6 * (p.file.header.segmentWidth / (skip : ℤ)).toNat ^ 3 * b.pts = _
      rw [hsw p hp, ← Int.natCast_ediv, Int.toNat_natCast]), List.map_const', List.sum_replicate, hlen, smul_eq_mul]
    obtain ⟨k, hk⟩ := hsd
    have h1 : N / c / skip = k := by rw [hk, Nat.mul_div_cancel_left _ hs]
    have h2 : N / skip = k * c := by
      rw [← hNc, hk, mul_assoc, Nat.mul_div_cancel_left _ hs]
    rw [h1, h2]
    ring

/-- **C146** (partial): a snapshot of `N³` particles, all numbers in `float32`, is converted into `c³` files and these are
rendered, with subsampling, into an image at least as wide as the box, everything in machine arithmetic. For all draws and
all schedules no step panics, and the densities in the image add up to the number of cells of the box with a relative error
below `(1 + 2 ^ -53) ^ (n + 8) - 1`, where `n` is the number of samples. Missing: see `Spread`. -/
theorem C146_mean_partial (hd : Catalog) (N c : ℕ) (hN : 0 < N) (hN' : N ≤ 2 ^ 53) (hc : 0 < c) (hcw : hd.countWidth = N)
    (hdvd : c ∣ N) (xs vs : List Vec) (hx : xs.length = N * N * N) (hv : vs.length = N * N * N)
    (hxs : ∀ x ∈ xs, ∀ j, F32 (x j)) (hin : ∀ x ∈ xs, ∀ j, 0 ≤ x j ∧ x j ≤ hd.totalWidth)
    (skip : ℕ) (hsd : skip ∣ N / c) (hs3 : skip * skip * skip ≤ 2 ^ 53) (b : RBox) (unitBufs : List (List Vec))
    (hb : Setup32 hd.totalWidth b skip unitBufs) (hpts : 0 < b.pts ∧ b.pts ≤ 2 ^ 53) (h3 : b.proj = none)
    (hwide : ∀ j, b.cells ≤ b.cb.width j) (m : ℕ) :
    ∃ files, writeGrids32 hd c xs vs = some files ∧
      ∀ ps : List Pass, ps.map Pass.file = files → (∀ p ∈ ps, Spread hd.totalWidth b.cells p.file) →
        (∀ p ∈ ps, ∀ id n, 0 ≤ p.pick id n ∧ p.pick id n < unitBufs.length) →
        ∀ grid : List R64, (grid.length : ℤ) = boxLen3 b.cb → (∀ v ∈ grid, v = 0) →
          (∃ out, Rendered false m (passes32 b skip unitBufs (fun _ _ =>
            ⟨mcPtVal64 b.pts skip (rendererPtVal64 b.cells hd.countWidth)⟩) ps) grid out) ∧
          ∀ out, Rendered false m (passes32 b skip unitBufs (fun _ _ =>
            ⟨mcPtVal64 b.pts skip (rendererPtVal64 b.cells hd.countWidth)⟩) ps) grid out →
            |(out.map R64.val).sum - (b.cells : ℚ) ^ 3| ≤
              (b.cells : ℚ) ^ 3 * ((1 + 1 / 2 ^ 53) ^ (6 * (N / skip) ^ 3 * b.pts + 8) - 1) := by
  obtain ⟨files, e, hl, hfile⟩ := writeGrids32_ok hd N c hN hc hcw xs vs hx hv
  have hmem : ∀ f ∈ files, ∃ n, FileOk32 hd N c (N / c) n xs vs f := by
    intro f hf
    obtain ⟨n, hn, rfl⟩ := List.getElem_of_mem hf
    obtain ⟨f', ef, hok⟩ := hfile n (by rw [← hl]; exact hn)
    rw [List.getElem?_eq_getElem hn, Option.some.injEq] at ef
    exact ⟨n, by rw [ef]; exact hok⟩
  refine ⟨files, e, fun ps hpf hsp hpick grid hg hz => ?_⟩
  have hok : ∀ p ∈ ps, ∃ n, FileOk32 hd N c (N / c) n xs vs p.file := fun p hp =>
    hmem p.file (by rw [← hpf]; exact List.mem_map_of_mem hp)
  have hps : ∀ p ∈ ps, PassOk32 p hd.totalWidth b unitBufs false := fun p hp => by
    obtain ⟨n, ho⟩ := hok p hp
    exact ⟨ho.good hxs hin (hsp p hp), hpick p hp, fun h => by cases h⟩
  obtain ⟨hfull, hsam⟩ := passes32_full hN hN' hcw hdvd hsd hs3 hb hpts hwide (fun _ _ =>
    ⟨mcPtVal64 b.pts skip (rendererPtVal64 b.cells hd.countWidth)⟩) (fun p hp => (hps p hp).file)
    (by rw [← hl, ← hpf, List.length_map]) (fun p hp => (hok p hp).choose_spec.segmentWidth)
  rw [← hsam]
  refine C144_mean m b.cells hd.countWidth b.cb hwide _ (fun r hr => ?_) (fun r hr id => ?_) hfull (fun r hr w => ?_) grid hg hz
  · obtain ⟨p, hp, rfl⟩ := List.mem_map.mp hr
    exact pass32_any hb (hps p (List.mem_filter.mp hp).1) _ fun _ _ _ => rfl
  · obtain ⟨p, hp, rfl⟩ := List.mem_map.mp hr
    show List.replicate (b.bufferSize _).toNat 0 = _
    simp only [RBox.bufferSize, h3]
    rfl
  · obtain ⟨p, hp, rfl⟩ := List.mem_map.mp hr
    rfl

/-- **C146** (partial): the same for a projection through an image of the whole box. -/
theorem C146_projected_mean_partial (hd : Catalog) (N c : ℕ) (hN : 0 < N) (hN' : N ≤ 2 ^ 53) (hc : 0 < c)
    (hcw : hd.countWidth = N) (hdvd : c ∣ N) (xs vs : List Vec) (hx : xs.length = N * N * N) (hv : vs.length = N * N * N)
    (hxs : ∀ x ∈ xs, ∀ j, F32 (x j)) (hin : ∀ x ∈ xs, ∀ j, 0 ≤ x j ∧ x j ≤ hd.totalWidth)
    (skip : ℕ) (hsd : skip ∣ N / c) (hs3 : skip * skip * skip ≤ 2 ^ 53) (b : RBox) (unitBufs : List (List Vec))
    (hb : Setup32 hd.totalWidth b skip unitBufs) (hpts : 0 < b.pts ∧ b.pts ≤ 2 ^ 53) (proj : ℤ) (h2 : b.proj = some proj)
    (hproj : 0 ≤ proj ∧ proj < 3) (hwide : ∀ j, b.cells ≤ b.cb.width j) (hdeep : b.cb.width (projDims proj).2.2 ≤ 2 ^ 53)
    (m : ℕ) :
    ∃ files, writeGrids32 hd c xs vs = some files ∧
      ∀ ps : List Pass, ps.map Pass.file = files → (∀ p ∈ ps, Spread hd.totalWidth b.cells p.file) →
        (∀ p ∈ ps, ∀ id n, 0 ≤ p.pick id n ∧ p.pick id n < unitBufs.length) →
        ∀ grid : List R64, (grid.length : ℤ) = boxLen2 b.cb proj → (∀ v ∈ grid, v = 0) →
          (∃ out, Rendered2 proj false m (passes32 b skip unitBufs (fun _ _ =>
            ⟨projPtVal64 b.cb proj (mcPtVal64 b.pts skip (rendererPtVal64 b.cells hd.countWidth))⟩) ps) grid out) ∧
          ∀ out, Rendered2 proj false m (passes32 b skip unitBufs (fun _ _ =>
            ⟨projPtVal64 b.cb proj (mcPtVal64 b.pts skip (rendererPtVal64 b.cells hd.countWidth))⟩) ps) grid out →
            |(out.map R64.val).sum - (b.cells : ℚ) ^ 3 / b.cb.width (projDims proj).2.2| ≤
              (b.cells : ℚ) ^ 3 / b.cb.width (projDims proj).2.2 *
                ((1 + 1 / 2 ^ 53) ^ (6 * (N / skip) ^ 3 * b.pts + 9) - 1) := by
  obtain ⟨files, e, hl, hfile⟩ := writeGrids32_ok hd N c hN hc hcw xs vs hx hv
  have hmem : ∀ f ∈ files, ∃ n, FileOk32 hd N c (N / c) n xs vs f := by
    intro f hf
    obtain ⟨n, hn, rfl⟩ := List.getElem_of_mem hf
    obtain ⟨f', ef, hok⟩ := hfile n (by rw [← hl]; exact hn)
    rw [List.getElem?_eq_getElem hn, Option.some.injEq] at ef
    exact ⟨n, by rw [ef]; exact hok⟩
  refine ⟨files, e, fun ps hpf hsp hpick grid hg hz => ?_⟩
  have hok : ∀ p ∈ ps, ∃ n, FileOk32 hd N c (N / c) n xs vs p.file := fun p hp =>
    hmem p.file (by rw [← hpf]; exact List.mem_map_of_mem hp)
  have hps : ∀ p ∈ ps, PassOk32 p hd.totalWidth b unitBufs false := fun p hp => by
    obtain ⟨n, ho⟩ := hok p hp
    exact ⟨ho.good hxs hin (hsp p hp), hpick p hp, fun h => by cases h⟩
  obtain ⟨hfull, hsam⟩ := passes32_full hN hN' hcw hdvd hsd hs3 hb hpts hwide (fun _ _ =>
    ⟨projPtVal64 b.cb proj (mcPtVal64 b.pts skip (rendererPtVal64 b.cells hd.countWidth))⟩) (fun p hp => (hps p hp).file)
    (by rw [← hl, ← hpf, List.length_map]) (fun p hp => (hok p hp).choose_spec.segmentWidth)
  rw [← hsam]
  refine C145_mean proj hproj m b.cells hd.countWidth b.cb hwide hdeep _ (fun r hr => ?_) (fun r hr id => ?_) hfull
    (fun r hr w => ?_) grid hg hz
  · obtain ⟨p, hp, rfl⟩ := List.mem_map.mp hr
    exact pass32_any hb (hps p (List.mem_filter.mp hp).1) _ fun _ _ _ => rfl
  · obtain ⟨p, hp, rfl⟩ := List.mem_map.mp hr
    show List.replicate (b.bufferSize _).toNat 0 = _
    simp only [RBox.bufferSize, h2]
    rfl
  · obtain ⟨p, hp, rfl⟩ := List.mem_map.mp hr
    rfl

/-- The conditions on the image hold for the whole box as a user asks for it, and it is wide enough for
`C146_mean_partial`. -/
theorem C146_whole {L : ℚ} (hL : F32 L) (hL0 : 0 < L) {C : ℤ} (hC : 8 ≤ C ∧ C ≤ 2 ^ 24) (pts : ℕ) (proj : Option ℤ) {skip : ℤ}
    (hs : 0 < skip) {unitBufs : List (List Vec)} (hu : 0 < unitBufs.length)
    (hunit : ∀ u ∈ unitBufs, pts ≤ u.length ∧ ∀ p ∈ u, NearUnit (10 / 2 ^ 24) p) :
    Setup32 L (newBox64 L pts C (fun _ => 0) (fun _ => L) proj) skip unitBufs ∧
      ∀ j, C ≤ (newBox64 L pts C (fun _ => 0) (fun _ => L) proj).cb.width j := by
  have hw := C130_whole (o := 0) hL0 (by omega) (hC.2.trans (by norm_num) : C ≤ 2 ^ 48)
    (rnd_zero 53 ▸ f64_rep 0) (le_refl _) hL0
  dsimp only at hw
  obtain ⟨-, -, h3, -, h5⟩ := hw
  obtain ⟨h6, -⟩ := h5 rfl
  refine ⟨⟨hL, hL0, hC, rfl, fun j => ?_, fun j => ?_, hs, hu, hunit⟩, fun j => h3⟩
  · show 0 ≤ (boxAxis64 L C 0 L).1 ∧ (boxAxis64 L C 0 L).1 < C
    omega
  · show 0 ≤ (boxAxis64 L C 0 L).2
    omega

/-! ## An example -/

/-- Eight particles in a box of width 8; those of the first axis are on both sides of its edge. -/
def exSnap32 : List Vec :=
  [![113/16, 1/16, 49/16], ![17/16, 1/16, 81/16], ![113/16, 33/16, 49/16], ![17/16, 33/16, 49/16],
   ![17/16, 1/16, 81/16], ![113/16, 1/16, 49/16], ![17/16, 33/16, 49/16], ![113/16, 33/16, 81/16]]

/-- Two unit buffers of two points. -/
def exBufs32 : List (List Vec) :=
  [unitBuf32 [(3/4, 5/8, 1), (1/8, 1/4, 1/8)], unitBuf32 [(1/8, 1/8, 1/4), (1/4, 1/2, 3/8)]]

/-- An image of the whole box in 8 cells, from cell 1 on. -/
def exBox32 (proj : Option ℤ) : RBox := ⟨⟨![1, 1, 1], ![8, 8, 8]⟩, 2, 8, 1, proj⟩

/-- An image of part of the box, 2 by 3 by 8 cells. -/
def exPart32 (proj : Option ℤ) : RBox := ⟨⟨![7, 0, 0], ![2, 3, 8]⟩, 2, 8, 1, proj⟩

theorem exBufs32_unit : ∀ u ∈ exBufs32, 2 ≤ u.length ∧ ∀ p ∈ u, NearUnit (10 / 2 ^ 24) p := by
  intro u hu
  simp only [exBufs32, List.mem_cons, List.not_mem_nil, or_false] at hu
  rcases hu with rfl | rfl
  · obtain ⟨h1, h2⟩ := C133_unitBuf_partial [(3/4, 5/8, 1), (1/8, 1/4, 1/8)] (by decide +kernel)
    exact ⟨by rw [h1]; decide, h2⟩
  · obtain ⟨h1, h2⟩ := C133_unitBuf_partial [(1/8, 1/8, 1/4), (1/4, 1/2, 3/8)] (by decide +kernel)
    exact ⟨by rw [h1]; decide, h2⟩

theorem exSetup32 (proj : Option ℤ) : Setup32 8 (exBox32 proj) (1 : ℕ) exBufs32 ∧ Setup32 8 (exPart32 proj) (1 : ℕ) exBufs32 := by
  have h8 : F32 8 := ⟨1, 3, by norm_num, by norm_num⟩
  have hw : (1 : ℚ) = f64 (8 / f64 ((8 : ℤ) : ℚ)) := by decide +kernel
  refine ⟨⟨h8, by norm_num, ⟨le_refl (8 : ℤ), by show (8 : ℤ) ≤ _; norm_num⟩, hw, ?_, ?_, by norm_num, by decide, exBufs32_unit⟩,
    ⟨h8, by norm_num, ⟨le_refl (8 : ℤ), by show (8 : ℤ) ≤ _; norm_num⟩, hw, ?_, ?_, by norm_num, by decide, exBufs32_unit⟩⟩
  · show ∀ j, 0 ≤ (![1, 1, 1] : IVec) j ∧ (![1, 1, 1] : IVec) j < 8
    decide
  · show ∀ j, 0 ≤ (![8, 8, 8] : IVec) j
    decide
  · show ∀ j, 0 ≤ (![7, 0, 0] : IVec) j ∧ (![7, 0, 0] : IVec) j < 8
    decide
  · show ∀ j, 0 ≤ (![2, 3, 8] : IVec) j
    decide

theorem exSnap32_ok : (∀ x ∈ exSnap32, ∀ j, F32 (x j)) ∧ ∀ x ∈ exSnap32, ∀ j, 0 ≤ x j ∧ x j ≤ 8 := by
  refine ⟨fun x hx j => ?_, by decide +kernel⟩
  have h : ∀ x ∈ exSnap32, ∀ j, f32 (x j) = x j := by decide +kernel
  rw [← h x hx j]
  exact f32_rep _

/-- Every file with these particles is spread as asked. -/
theorem exSpread32 {m : ℕ} {f : SheetFile} (h : FileOk32 ⟨8, 8, 2, 1, 8⟩ 2 2 1 m exSnap32 exSnap32 f) : Spread 8 8 f := by
  have hl : f.xs.length = 8 := h.xblock.1
  have hgr : ∀ j, (growth f j : ℚ) ≤ 8 := fun j => by
    have := moves_le_length f.header.totalWidth (f.xs.map (· j)) ⟨f.xs.headD 0 j, 0, 0⟩
    rw [List.length_map, hl] at this
    unfold growth
    exact_mod_cast this
  constructor
  · intro j
    have h0 : ∀ x ∈ exSnap32, ∀ j, ∃ k ∈ ([0, -1] : List ℤ),
      (![-15/16, 1/16, 49/16] : Vec) j ≤ x j + k * 8 ∧ x j + k * 8 ≤ (![-15/16, 1/16, 49/16] : Vec) j + 2 := by decide +kernel
    refine ⟨(![-15/16, 1/16, 49/16] : Vec) j, 2, fun x hx => ?_, ?_⟩
    · obtain ⟨k, -, hk⟩ := h0 x (h.mem x hx) j
      exact ⟨k, hk⟩
    · have := hgr j
      norm_num
      linarith
  · intro x hx j z
    have h0 : ∀ x ∈ exSnap32, ∀ j, (1 / 32 : ℚ) < x j - ⌊x j⌋ ∧ 1 / 32 < ⌊x j⌋ + 1 - x j := by decide +kernel
    have h1 := off_of_floor (h0 x (h.mem x hx) j).1 (h0 x (h.mem x hx) j).2 z
    have := hgr j
    push_cast
    rw [mul_div_cancel_right₀ _ (by norm_num)]
    refine lt_of_le_of_lt ?_ h1
    norm_num
    linarith

/-- The snapshot is converted into eight files, and the passes over them meet the conditions. -/
theorem exPasses32 : ∃ (files : List SheetFile) (ps : List Pass),
    writeGrids32 ⟨8, 8, 2, 1, 8⟩ (2 : ℕ) exSnap32 exSnap32 = some files ∧ ps.map Pass.file = files ∧
    (∀ p ∈ ps, ∀ id n, 0 ≤ p.pick id n ∧ p.pick id n < exBufs32.length) ∧
    (∀ p ∈ ps, ∀ x ∈ p.file.xs, x ∈ exSnap32) ∧ (∀ p ∈ ps, Spread 8 8 p.file) ∧
    ∀ b : RBox, b.cells = 8 → b.pts = 2 → ∀ p ∈ ps, PassOk32 p 8 b exBufs32 true := by
  obtain ⟨files, e, hl, hfile⟩ := writeGrids32_ok ⟨8, 8, 2, 1, 8⟩ 2 2 (by decide) (by decide) rfl exSnap32 exSnap32 rfl rfl
  have hmem : ∀ f ∈ files, ∃ n, FileOk32 ⟨8, 8, 2, 1, 8⟩ 2 2 1 n exSnap32 exSnap32 f := by
    intro f hf
    obtain ⟨n, hn, rfl⟩ := List.getElem_of_mem hf
    obtain ⟨f', ef, hok⟩ := hfile n (by rw [← hl]; exact hn)
    rw [List.getElem?_eq_getElem hn, Option.some.injEq] at ef
    exact ⟨n, by rw [ef]; exact hok⟩
  have hpick : ∀ id n : ℕ, (0 : ℤ) ≤ ((id + n) % 2 : ℕ) ∧ (((id + n) % 2 : ℕ) : ℤ) < 2 := by
    intro id n
    omega
  refine ⟨files, files.map fun f => ⟨f, fun id n => ((id + n) % 2 : ℕ), fun _ => [0, 0]⟩, e, by
    rw [List.map_map]; exact List.map_id files, fun p hp => ?_, fun p hp => ?_, fun p hp => ?_, fun b hb hp2 p hp => ?_⟩ <;>
    obtain ⟨f, hf, rfl⟩ := List.mem_map.mp hp <;> obtain ⟨n, hok⟩ := hmem f hf
  · exact hpick
  · exact hok.mem
  · exact exSpread32 hok
  · refine ⟨?_, hpick, fun _ _ => by rw [hp2]; exact le_refl 2⟩
    rw [hb]
    exact hok.good exSnap32_ok.1 exSnap32_ok.2 (exSpread32 hok)

/-- No exact sample of them is close to the face of a cell. -/
theorem exOff32 {b : RBox} (hC : b.cells = 8) (hb : Setup32 8 b (1 : ℕ) exBufs32) {ps : List Pass}
    (hps : ∀ p ∈ ps, GoodSheet 8 b.cells p.file) (hsub : ∀ p ∈ ps, ∀ x ∈ p.file.xs, x ∈ exSnap32) :
    SamplesOff 8 b (1 : ℕ) exBufs32 ps := by
  have hpart : ∀ x ∈ exSnap32, ∀ j, x j = (x j).floor + 1 / 16 := by decide +kernel
  have heighth : ∀ u ∈ exBufs32, ∀ q ∈ u, ∀ j, q j = ((8 * q j).num : ℚ) / 8 := by decide +kernel
  intro p hp t ht u hu q hq j z
  have hf := hps p hp
  have hex : exactPlace 8 b (1 : ℕ) p.file t q = mix (fun k j => nearImage 8 (p.file.xs.headD 0 j)
      (tetCorners p.file.header.segmentWidth (1 : ℕ) p.file.xs t.1 t.2.1 t.2.2.1 t.2.2.2 k j) * b.cells / 8) q := by
    unfold exactPlace exactCells
    rw [tetCorners_map hb.skip hf.xlen _ (mem_tetras.mp ht)]
  have hcor : ∀ k, ∃ n : ℤ, nearImage 8 (p.file.xs.headD 0 j)
      (tetCorners p.file.header.segmentWidth (1 : ℕ) p.file.xs t.1 t.2.1 t.2.2.1 t.2.2.2 k j) * b.cells / 8 = n + 1 / 16 := by
    intro k
    have h1 := hpart _ (hsub p hp _ (corners_mem hf hb.skip ht k)) j
    unfold nearImage
    generalize tetCorners p.file.header.segmentWidth (1 : ℕ) p.file.xs t.1 t.2.1 t.2.2.1 t.2.2.2 k j = x at *
    refine ⟨x.floor - 8 * _root_.round ((x - p.file.xs.headD 0 j) / 8), ?_⟩
    generalize _root_.round ((x - p.file.xs.headD 0 j) / 8) = r
    rw [hC]
    push_cast
    linarith
  choose n hn using hcor
  have h8 := heighth u hu q (List.mem_of_mem_take hq)
  have e : exactPlace 8 b (1 : ℕ) p.file t q j - z = 1 / 16 + ((8 * n 3 + (8 * q 0).num * (n 0 - n 3) + (8 * q 1).num * (n 1 - n 3) +
      (8 * q 2).num * (n 2 - n 3) - 8 * z : ℤ) : ℚ) / 8 := by
    rw [hex]
    simp only [mix, bary, Fin.sum_univ_four, Matrix.cons_val_zero, Matrix.cons_val_one, Matrix.cons_val, hn]
    rw [h8 0, h8 1, h8 2]
    have e0 : 8 * (((8 * q 0).num : ℚ) / 8) = (8 * q 0).num := by ring
    have e1 : 8 * (((8 * q 1).num : ℚ) / 8) = (8 * q 1).num := by ring
    have e2 : 8 * (((8 * q 2).num : ℚ) / 8) = (8 * q 2).num := by ring
    rw [e0, e1, e2]
    simp only [Rat.num_intCast]
    push_cast
    ring
  rw [e, hC]
  generalize (8 * n 3 + (8 * q 0).num * (n 0 - n 3) + (8 * q 1).num * (n 1 - n 3) + (8 * q 2).num * (n 2 - n 3) - 8 * z : ℤ) = m
  refine lt_of_lt_of_le (b := 1 / 16) (by norm_num) ?_
  rcases le_or_gt 0 m with h | h
  · have : (0 : ℚ) ≤ m := by exact_mod_cast h
    exact le_trans (by linarith) (le_abs_self _)
  · have : (m : ℚ) ≤ -1 := by exact_mod_cast (by omega : m ≤ -1)
    exact le_trans (by linarith) (neg_le_abs _)

/-- A density image of part of the box, and its projection along the second axis. -/
example : ∃ ps : List Pass, writeGrids32 ⟨8, 8, 2, 1, 8⟩ (2 : ℕ) exSnap32 exSnap32 = some (ps.map Pass.file) ∧
    (∃ out : List R64, Rendered false 2 (passes32 (exPart32 none) (1 : ℕ) exBufs32 (fun _ _ => ⟨f64 (1 / 3)⟩) ps)
      (List.replicate 48 0) out) ∧
    ∃ out : List R64, Rendered2 1 false 2 (passes32 (exPart32 (some 1)) (1 : ℕ) exBufs32 (fun _ _ => ⟨f64 (1 / 3)⟩) ps)
      (List.replicate 16 0) out := by
  obtain ⟨files, ps, e, hpf, hpick, hsub, -, hps⟩ := exPasses32
  have hok : ∀ proj, ∀ p ∈ ps, PassOk32 p 8 (exPart32 proj) exBufs32 false := fun proj p hp =>
    ⟨(hps _ rfl rfl p hp).file, hpick p hp, fun h => by cases h⟩
  obtain ⟨_, -, h⟩ := C146_density_partial (exSetup32 none).2 rfl 2 (fun _ _ => ⟨f64 (1 / 3)⟩) (fun _ _ _ => rfl)
    (fun _ _ => f64_rep _) ps (hok none) (exOff32 rfl (exSetup32 none).2 (fun p hp => (hok none p hp).file) hsub)
  obtain ⟨_, -, h'⟩ := C146_projected_density_partial (exSetup32 (some 1)).2 1 rfl (by norm_num) 2 (fun _ _ => ⟨f64 (1 / 3)⟩)
    (fun _ _ _ => rfl) (fun _ _ => f64_rep _) ps (hok (some 1))
    (exOff32 rfl (exSetup32 (some 1)).2 (fun p hp => (hok (some 1) p hp).file) hsub)
  exact ⟨ps, by rw [hpf]; exact e, (h (List.replicate 48 0) (by decide) (fun v hv => List.eq_of_mem_replicate hv)).1,
    (h' (List.replicate 16 0) (by decide) (fun v hv => List.eq_of_mem_replicate hv)).1⟩

/-- An image of the first velocity component of part of the box. -/
example : ∃ (ps : List Pass) (out : List R64),
    writeGrids32 ⟨8, 8, 2, 1, 8⟩ (2 : ℕ) exSnap32 exSnap32 = some (ps.map Pass.file) ∧
    Rendered true 2 (passes32 (exPart32 none) (1 : ℕ) exBufs32 (fun _ w => ⟨f64 (w 0)⟩) ps) (List.replicate 48 0) out := by
  obtain ⟨files, ps, e, hpf, -, -, -, hps⟩ := exPasses32
  obtain ⟨_, _, _, -, -, -, h⟩ := C146_image_partial (exSetup32 none).2 rfl true 2 (fun _ w => ⟨f64 (w 0)⟩) (fun h => by cases h)
    (fun _ _ => f64_rep _) ps (hps _ rfl rfl)
  obtain ⟨⟨out, ho⟩, -⟩ := h (List.replicate 48 0) (by decide) (fun v hv => List.eq_of_mem_replicate hv)
  exact ⟨ps, out, by rw [hpf]; exact e, ho⟩

/-- The same for a projection along the third axis. -/
example : ∃ (ps : List Pass) (out : List R64),
    writeGrids32 ⟨8, 8, 2, 1, 8⟩ (2 : ℕ) exSnap32 exSnap32 = some (ps.map Pass.file) ∧
    Rendered2 2 true 2 (passes32 (exPart32 (some 2)) (1 : ℕ) exBufs32 (fun _ w => ⟨f64 (w 0)⟩) ps)
      (List.replicate 6 0) out := by
  obtain ⟨files, ps, e, hpf, -, -, -, hps⟩ := exPasses32
  obtain ⟨_, _, _, -, -, -, h⟩ := C146_pixel_partial (exSetup32 (some 2)).2 2 rfl (by norm_num) true 2 (fun _ w => ⟨f64 (w 0)⟩)
    (fun h => by cases h) (fun _ _ => f64_rep _) ps (hps _ rfl rfl)
  obtain ⟨⟨out, ho⟩, -⟩ := h (List.replicate 6 0) (by decide) (fun v hv => List.eq_of_mem_replicate hv)
  exact ⟨ps, out, by rw [hpf]; exact e, ho⟩

/-- The densities in the image of the whole box add up to 512, up to the rounding of 98 operations. -/
example : ∃ (ps : List Pass) (out : List R64),
    writeGrids32 ⟨8, 8, 2, 1, 8⟩ (2 : ℕ) exSnap32 exSnap32 = some (ps.map Pass.file) ∧
    Rendered false 2 (passes32 (exBox32 none) (1 : ℕ) exBufs32 (fun _ _ => ⟨mcPtVal64 (2 : ℕ) (1 : ℕ) (rendererPtVal64 8 2)⟩) ps)
      (List.replicate 512 0) out ∧
    |(out.map R64.val).sum - 512| ≤ 512 * ((1 + 1 / 2 ^ 53) ^ (6 * 2 ^ 3 * 2 + 8) - 1) := by
  obtain ⟨files, ps, e, hpf, hpick, -, hsp, hps⟩ := exPasses32
  obtain ⟨files', e', h⟩ := C146_mean_partial ⟨8, 8, 2, 1, 8⟩ 2 2 (by norm_num) (by norm_num) (by norm_num) rfl (by norm_num)
    exSnap32 exSnap32 rfl rfl exSnap32_ok.1 exSnap32_ok.2 1 (by norm_num) (by norm_num) (exBox32 none) exBufs32
    (exSetup32 none).1 ⟨by decide, by show 2 ≤ _; norm_num⟩ rfl
    (by show ∀ j, 8 ≤ (![8, 8, 8] : IVec) j; decide) 2
  rw [e, Option.some.injEq] at e'
  subst e'
  obtain ⟨⟨out, ho⟩, hall⟩ := h ps hpf hsp hpick (List.replicate 512 0) (by rw [List.length_replicate]; rfl) (fun v hv => List.eq_of_mem_replicate hv)
  refine ⟨ps, out, by rw [hpf]; exact e, ho, ?_⟩
  have := hall out ho
  rw [show ((exBox32 none).cells : ℚ) ^ 3 = 512 by norm_num [exBox32]] at this
  exact this

/-- The same for a projection along the first axis, where they add up to 64. -/
example : ∃ (ps : List Pass) (out : List R64),
    writeGrids32 ⟨8, 8, 2, 1, 8⟩ (2 : ℕ) exSnap32 exSnap32 = some (ps.map Pass.file) ∧
    Rendered2 0 false 2 (passes32 (exBox32 (some 0)) (1 : ℕ) exBufs32 (fun _ _ =>
      ⟨projPtVal64 (exBox32 (some 0)).cb 0 (mcPtVal64 (2 : ℕ) (1 : ℕ) (rendererPtVal64 8 2))⟩) ps) (List.replicate 64 0) out ∧
    |(out.map R64.val).sum - 64| ≤ 64 * ((1 + 1 / 2 ^ 53) ^ (6 * 2 ^ 3 * 2 + 9) - 1) := by
  obtain ⟨files, ps, e, hpf, hpick, -, hsp, hps⟩ := exPasses32
  obtain ⟨files', e', h⟩ := C146_projected_mean_partial ⟨8, 8, 2, 1, 8⟩ 2 2 (by norm_num) (by norm_num) (by norm_num) rfl
    (by norm_num) exSnap32 exSnap32 rfl rfl exSnap32_ok.1 exSnap32_ok.2 1 (by norm_num) (by norm_num) (exBox32 (some 0)) exBufs32
    (exSetup32 (some 0)).1 ⟨by decide, by show 2 ≤ _; norm_num⟩ 0 rfl (by norm_num)
    (by show ∀ j, 8 ≤ (![8, 8, 8] : IVec) j; decide) (by show (8 : ℤ) ≤ _; norm_num) 2
  rw [e, Option.some.injEq] at e'
  subst e'
  obtain ⟨⟨out, ho⟩, hall⟩ := h ps hpf hsp hpick (List.replicate 64 0) (by decide) (fun v hv => List.eq_of_mem_replicate hv)
  refine ⟨ps, out, by rw [hpf]; exact e, ho, ?_⟩
  have := hall out ho
  rw [show ((exBox32 (some 0)).cells : ℚ) ^ 3 / (exBox32 (some 0)).cb.width (projDims 0).2.2 = 64 by
    rw [show (exBox32 (some 0)).cb.width (projDims 0).2.2 = 8 by decide]
    norm_num [exBox32]] at this
  exact this

/-- The whole box in 93 cells. -/
example : Setup32 1 (newBox64 1 2 93 (fun _ => 0) (fun _ => 1) none) (1 : ℕ) exBufs32 :=
  (C146_whole F32.one (by norm_num) (by norm_num) 2 none (by norm_num) (by decide) exBufs32_unit).1

end Verif.Fp
