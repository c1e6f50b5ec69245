import Verif.Main.Pipeline
import Verif.Render.WholeProject

/-!
C112: from the snapshot to a projected image.
-/

set_option autoImplicit false

namespace Verif.Main
open Verif.Go Verif.Geom Verif.Render

variable {M : Type} [AddCommMonoid M]

/-! Specification. -/

/-- The value which a segment adds to pixel `(i, j)` of an image projected along axis `a`: what it adds to the voxels
behind the pixel, each place counted once. -/
def fileColumn (cells : ℤ) (dom : CellBounds) (a : ℤ) (points : ℕ) (skip : ℤ) (val : Vec → M) (f : SheetFile)
    (U : ℤ × ℤ × ℤ × Fin 6 → List Vec) (i j : ℤ) : M :=
  ∑ k ∈ Finset.Ico 0 (min (dom.width (projDims a).2.2) cells),
    fileImage cells dom points skip val f U (voxel a i j k 0) (voxel a i j k 1) (voxel a i j k 2)

/-! Proof. -/

theorem pass_ok2 {L : ℚ} {b : RBox} {a : ℤ} (h2 : b.proj = some a) {skip : ℤ} {unitBufs : List (List Vec)}
    (hb : Setup L b skip unitBufs) {p : Pass} {reqVel : Bool} (hp : p.Ok L b skip unitBufs reqVel) (val : Vec → M)
    (hval : reqVel = false → ∀ w w', val w = val w') :
    (b.pass skip unitBufs val p.file p.pick p.wbuf).Ok2 a reqVel b.cells b.cb := by
  have h := pass_ok_of hb hp val hval (fun id => ⟨newTetra 0 0 0 0, newTetra 0 0 0 0, List.replicate b.pts 0, p.wbuf id, 0,
    List.replicate (bufferSize3 (b.mc skip unitBufs p.file).buf).toNat 0⟩) (fun id => pass_init hp _ id) fun id => rfl
  refine ⟨h.mc, h.hcells, h.hdom, h.val, h.xs, h.vs, fun id => pass_init hp _ id, fun id => ?_, fun hd => ?_, h.direct⟩
  · simp only [RBox.pass, RBox.bufferSize, h2]
  · exact h.seg hd

/-- The condition on the depth, for the scaled positions. -/
theorem pass_depth {L : ℚ} {b : RBox} {a : ℤ} (h2 : b.proj = some a) {skip : ℤ} {unitBufs : List (List Vec)}
    (hb : Setup L b skip unitBufs) {p : Pass} (hf : GoodFile L p.file) (ho : p.OffFaces b skip unitBufs)
    (val : Vec → M) : (b.pass skip unitBufs val p.file p.pick p.wbuf).OffDepth a := by
  intro hd t ht u hu q hq
  have hd' : b.direct p.file = false := hd
  obtain ⟨u', hu', rfl⟩ := List.mem_map.mp hu
  have := ho.depth a h2 hd' t ht u' hu' q (List.mem_of_mem_take hq)
  unfold segCorners
  rw [pass_xs hb hf val hd']
  exact this

theorem sum_zipWith_sum {α β ι : Type} (S : Finset ι) (f : ι → α → β → M) (l : List α) (u : List β) :
    (List.zipWith (fun a b => ∑ k ∈ S, f k a b) l u).sum = ∑ k ∈ S, (List.zipWith (f k) l u).sum := by
  induction l generalizing u with
  | nil => simp
  | cons a l ih =>
    cases u with
    | nil => simp
    | cons b u => simp only [List.zipWith_cons_cons, List.sum_cons, ih, Finset.sum_add_distrib]

theorem zipWith_congr_mem {α β γ : Type} {f g : α → β → γ} {l : List α} (h : ∀ a ∈ l, ∀ b, f a b = g a b) (u : List β) :
    List.zipWith f l u = List.zipWith g l u := by
  induction l generalizing u with
  | nil => rfl
  | cons a l ih =>
    cases u with
    | nil => rfl
    | cons b u =>
      rw [List.zipWith_cons_cons, List.zipWith_cons_cons, h a (by simp), ih fun c hc => h c (by simp [hc])]

theorem voxel_cell {w : IVec} {a i j k : ℤ} (hi : 0 ≤ i ∧ i < w (projDims a).1) (hj : 0 ≤ j ∧ j < w (projDims a).2.1)
    (hk : 0 ≤ k ∧ k < w (projDims a).2.2) : IsCell w (voxel a i j k 0) (voxel a i j k 1) (voxel a i j k 2) := by
  obtain ⟨v1, v2, v3⟩ := voxel_dims a i j k
  have : ∀ c, 0 ≤ voxel a i j k c ∧ voxel a i j k c < w c := by
    rw [forall_dims a, v1, v2, v3]
    exact ⟨hi, hj, hk⟩
  exact ⟨this 0, this 1, this 2⟩

/-- **C112** (partial): for every list of files and every projected box, under every schedule of the workers and all
random draws, `RenderDensity` runs to the end, and each pixel of the finished image has gained, for every file in the
list, also the ones that are passed over, the value of every sample of every tetrahedron in the voxels behind the
pixel; pixels beyond the first period of the box gain nothing. Missing: `Pass.OffFaces`, samples exactly on
certain faces of cells. -/
theorem C112_image_partial {L : ℚ} {b : RBox} {a : ℤ} (ha : 0 ≤ a ∧ a < 3) (h2 : b.proj = some a) {skip : ℤ}
    {unitBufs : List (List Vec)} (hb : Setup L b skip unitBufs)
    (reqVel : Bool) (m : ℕ) (val : SheetFile → Vec → M) (hval : reqVel = false → ∀ f w w', val f w = val f w')
    (ps : List Pass) (hps : ∀ p ∈ ps, p.Ok L b skip unitBufs reqVel) (hoff : ∀ p ∈ ps, p.OffFaces b skip unitBufs) :
    ∃ U : List (ℤ × ℤ × ℤ × Fin 6 → List Vec),
      List.Forall₂ (fun _ u => ∀ t, ∃ v ∈ unitBufs, u t = v.take b.pts) ps U ∧
      ∀ grid : List M, (grid.length : ℤ) = boxLen2 b.cb a →
        (∃ out, Rendered2 a reqVel m (b.passes skip unitBufs val ps) grid out) ∧
        ∀ out, Rendered2 a reqVel m (b.passes skip unitBufs val ps) grid out →
          Grew2 (b.cb.width (projDims a).1) (b.cb.width (projDims a).2.1) grid out (fun i j =>
            if i < b.cells ∧ j < b.cells then
              (List.zipWith (fun p u => fileColumn b.cells b.cb a b.pts skip (val p.file) p.file u i j) ps U).sum
            else 0) := by
  obtain ⟨Us, hUs, hall⟩ := C111_image_partial a ha reqVel m b.cells hb.cells b.cb (b.passes skip unitBufs val ps) (by
    intro r hr
    obtain ⟨p, hp, rfl⟩ := List.mem_map.mp hr
    have := List.mem_filter.mp hp
    exact pass_ok2 h2 hb (hps p this.1) (val p.file) fun h w w' => hval h p.file w w') (by
    intro r hr
    obtain ⟨p, hp, rfl⟩ := List.mem_map.mp hr
    have := List.mem_filter.mp hp
    exact pass_off hb (hps p this.1).file (hoff p this.1) (val p.file)) (by
    intro r hr
    obtain ⟨p, hp, rfl⟩ := List.mem_map.mp hr
    have := List.mem_filter.mp hp
    exact pass_depth h2 hb (hps p this.1).file (hoff p this.1) (val p.file))
  obtain ⟨U, hU, hsum⟩ := passes_images hb val hps Us hUs
  refine ⟨U, hU, fun grid hg => ⟨(hall grid hg).1, fun out hout => ?_⟩⟩
  have hgr := (hall grid hg).2 out hout
  refine ⟨hgr.1, fun i j hi hj => ?_⟩
  obtain ⟨v, hv, hv'⟩ := hgr.2 i j hi hj
  refine ⟨v, hv, ?_⟩
  rw [hv']
  refine congrArg (fun a => some (v + a)) ?_
  beta_reduce
  refine if_congr Iff.rfl ?_ rfl
  unfold fileColumn
  rw [zipWith_congr_mem (g := fun r u => ∑ k ∈ Finset.Ico 0 (min (b.cb.width (projDims a).2.2) b.cells),
    r.image u (voxel a i j k 0) (voxel a i j k 1) (voxel a i j k 2)), sum_zipWith_sum, sum_zipWith_sum]
  swap
  · intro r hr u
    obtain ⟨p, hp, rfl⟩ := List.mem_map.mp hr
    rfl
  refine Finset.sum_congr rfl fun k hk => ?_
  rw [Finset.mem_Ico] at hk
  exact hsum _ _ _ (voxel_cell hi hj ⟨hk.1, hk.2.trans_le (min_le_left _ _)⟩)

/-- **C112**: nothing is lost from a projected image at least as wide and as deep as the box. For every list of files,
under every schedule of the workers and all random draws, `RenderDensity` runs to the end, and the sum over the image
grows by the values of all samples of all tetrahedra of all files. -/
theorem C112_total {L : ℚ} {b : RBox} {a : ℤ} (ha : 0 ≤ a ∧ a < 3) (h2 : b.proj = some a) {skip : ℤ}
    {unitBufs : List (List Vec)} (hb : Setup L b skip unitBufs) (hwide : ∀ j, b.cells ≤ b.cb.width j)
    (reqVel : Bool) (m : ℕ) (val : SheetFile → Vec → M) (hval : reqVel = false → ∀ f w w', val f w = val f w')
    (ps : List Pass) (hps : ∀ p ∈ ps, p.Ok L b skip unitBufs reqVel) :
    ∃ U : List (ℤ × ℤ × ℤ × Fin 6 → List Vec),
      List.Forall₂ (fun _ u => ∀ t, ∃ v ∈ unitBufs, u t = v.take b.pts) ps U ∧
      ∀ grid : List M, (grid.length : ℤ) = boxLen2 b.cb a →
        (∃ out, Rendered2 a reqVel m (b.passes skip unitBufs val ps) grid out) ∧
        ∀ out, Rendered2 a reqVel m (b.passes skip unitBufs val ps) grid out → out.length = grid.length ∧
          out.sum = grid.sum + (List.zipWith (fun p u => fileTotal b.pts skip (val p.file) p.file u) ps U).sum := by
  obtain ⟨U, hU, hall⟩ := C111_total a ha reqVel m b.cells hb.cells b.cb hwide (b.passes skip unitBufs val ps) (by
    intro r hr
    obtain ⟨p, hp, rfl⟩ := List.mem_map.mp hr
    have := List.mem_filter.mp hp
    exact pass_ok2 h2 hb (hps p this.1) (val p.file) fun h w w' => hval h p.file w w')
  obtain ⟨h1, h2⟩ := passes_total hb hwide val (fun p hp => (hps p hp).file) hU
  refine ⟨U, h1, fun grid hg => ?_⟩
  rw [← h2]
  exact hall grid hg

/-! From the snapshot. -/

/-- **C112**: a snapshot of `N³` particles is converted into `c³` files, `c` a divisor of `N`, and all files
are rendered with a subsampling that divides the width of a segment, into a projected image of at least the whole box.
The image gains `cells³` divided by its depth; if it has as many pixels as the box has cells, that is `cells²`, and its
mean density is that of the box, for all positions of the particles, all draws and all schedules. -/
theorem C112_mean (hd : Catalog) (N c : ℕ) (hN : 0 < N) (hc : 0 < c) (hcw : hd.countWidth = N) (hdvd : c ∣ N)
    (xs vs : List Vec) (hx : xs.length = N * N * N) (hv : vs.length = N * N * N) (hL : 0 < hd.totalWidth)
    (hin : ∀ x ∈ xs, ∀ j, 0 ≤ x j ∧ x j < hd.totalWidth) (skip : ℕ) (hsd : skip ∣ N / c) (b : RBox)
    (unitBufs : List (List Vec)) (hb : Setup hd.totalWidth b skip unitBufs) (hpts : 0 < b.pts)
    (a : ℤ) (ha : 0 ≤ a ∧ a < 3) (h2 : b.proj = some a) (hwhole : ∀ j, b.cells ≤ b.cb.width j) (m : ℕ) :
    ∃ files, writeGrids hd c xs vs = some files ∧ (∀ f ∈ files, GoodFile hd.totalWidth f) ∧
      ∀ ps : List Pass, ps.map Pass.file = files → (∀ p ∈ ps, p.Ok hd.totalWidth b skip unitBufs false) →
        ∀ grid : List ℚ, (grid.length : ℤ) = boxLen2 b.cb a →
          (∃ out, Rendered2 a false m (b.passes skip unitBufs (fun _ _ =>
            projPtVal b.cb a (mcPtVal false b.pts skip (rendererPtVal false b.cells hd.countWidth))) ps) grid out) ∧
          ∀ out, Rendered2 a false m (b.passes skip unitBufs (fun _ _ =>
            projPtVal b.cb a (mcPtVal false b.pts skip (rendererPtVal false b.cells hd.countWidth))) ps) grid out →
            out.sum = grid.sum + b.cells ^ 3 / b.cb.width (projDims a).2.2 ∧ out.length = grid.length ∧
            ((∀ j, b.cb.width j = b.cells) →
              out.sum = grid.sum + b.cells ^ 2 ∧ (out.length : ℤ) = b.cells ^ 2) := by
  obtain ⟨files, e, hgood, -⟩ := C108_mean hd N c hN hc hcw hdvd xs vs hx hv hL hin skip hsd
    { b with proj := none } unitBufs ⟨hb.cells, hb.width, hb.origin, hb.extent, hb.skip, hb.some, hb.unit⟩ hpts rfl
    hwhole m
  obtain ⟨files', e', hl, hfile⟩ := writeGrids_ok hd N c hN hc hcw xs vs hx hv
  rw [e, Option.some.injEq] at e'
  subst e'
  have hmem : ∀ f ∈ files, f.header.segmentWidth = ((N / c : ℕ) : ℤ) := by
    intro f hf
    obtain ⟨n, hn, rfl⟩ := List.getElem_of_mem hf
    obtain ⟨f', ef, hok⟩ := hfile n (by rw [← hl]; exact hn)
    rw [List.getElem?_eq_getElem hn, Option.some.injEq] at ef
    rw [ef]
    exact hok.segmentWidth hx hv
  refine ⟨files, e, hgood, fun ps hpf hps grid hg => ?_⟩
  obtain ⟨U, hU, hrun⟩ := C112_total ha h2 hb hwhole false m (fun _ _ =>
    projPtVal b.cb a (mcPtVal false b.pts skip (rendererPtVal false b.cells hd.countWidth))) (fun _ _ _ _ => rfl) ps hps
  refine ⟨(hrun grid hg).1, fun out hout => ?_⟩
  obtain ⟨h4, h5⟩ := (hrun grid hg).2 out hout
  have hcq : (b.cells : ℚ) ≠ 0 := by exact_mod_cast hb.cells.ne'
  suffices hsum : out.sum = grid.sum + b.cells ^ 3 / b.cb.width (projDims a).2.2 by
    refine ⟨hsum, h4, fun hd' => ⟨?_, by rw [h4, hg]; unfold boxLen2; rw [hd', hd']; ring⟩⟩
    rw [hsum, hd']
    field_simp
  have h6 := density_total (b := b) hpts (by exact_mod_cast hb.skip) hN hdvd hsd (ps := ps)
    (by rw [← hl, ← hpf, List.length_map]) (fun p hp => hmem p.file (by rw [← hpf]; exact List.mem_map_of_mem hp))
    hU.length_eq (b.cb.width (projDims a).2.2)
  rw [h5, ← h6, hcw]
  rfl

/-- **C112**: the projected image of the whole box has `cells + 1` pixels per side and is as many cells deep (C51). Its
mean density is `(cells / (cells + 1))³` of that of the box, for every snapshot. -/
theorem C112_whole_box (hd : Catalog) (N c : ℕ) (hN : 0 < N) (hc : 0 < c) (hcw : hd.countWidth = N) (hdvd : c ∣ N)
    (xs vs : List Vec) (hx : xs.length = N * N * N) (hv : vs.length = N * N * N) (hL : 0 < hd.totalWidth)
    (hin : ∀ x ∈ xs, ∀ j, 0 ≤ x j ∧ x j < hd.totalWidth) (skip : ℕ) (hs : 0 < skip) (hsd : skip ∣ N / c)
    (pts : ℕ) (hpts : 0 < pts) (cells : ℤ) (hcells : 0 < cells) (a : ℤ) (ha : 0 ≤ a ∧ a < 3) (b : RBox)
    (hb : b = RBox.new hd.totalWidth pts cells (fun _ => 0) (fun _ => hd.totalWidth) (some a))
    (unitBufs : List (List Vec)) (hu : 0 < unitBufs.length)
    (hunit : ∀ u ∈ unitBufs, pts ≤ u.length ∧ ∀ p ∈ u, UnitPoint p) (m : ℕ) :
    ∃ files, writeGrids hd c xs vs = some files ∧ (∀ f ∈ files, GoodFile hd.totalWidth f) ∧
      ∀ ps : List Pass, ps.map Pass.file = files → (∀ p ∈ ps, p.Ok hd.totalWidth b skip unitBufs false) →
        (∃ out : List ℚ, Rendered2 a false m (b.passes skip unitBufs (fun _ _ =>
            projPtVal b.cb a (mcPtVal false pts skip (rendererPtVal false cells hd.countWidth))) ps)
            (List.replicate (boxLen2 b.cb a).toNat 0) out) ∧
        ∀ out : List ℚ, Rendered2 a false m (b.passes skip unitBufs (fun _ _ =>
            projPtVal b.cb a (mcPtVal false pts skip (rendererPtVal false cells hd.countWidth))) ps)
            (List.replicate (boxLen2 b.cb a).toNat 0) out →
          out.sum = cells ^ 3 / (cells + 1) ∧ (out.length : ℤ) = (cells + 1) ^ 2 ∧
          out.sum / out.length = (cells / (cells + 1)) ^ 3 := by
  have hset : Setup hd.totalWidth b skip unitBufs := by
    rw [hb]
    exact newBox_setup hL pts hcells _ (by exact_mod_cast hs) hu hunit
  have hw : ∀ j, b.cb.width j = cells + 1 := fun j => by
    rw [hb]
    exact (C51_whole_box hd.totalWidth cells hL hcells j).2
  have hbc : b.cells = cells := by rw [hb]; rfl
  have hbp : b.pts = pts := by rw [hb]; rfl
  have hlen : boxLen2 b.cb a = (cells + 1) ^ 2 := by unfold boxLen2; rw [hw, hw]; ring
  have hpos : 0 < (cells + 1) ^ 2 := by positivity
  have hrep : ((List.replicate (boxLen2 b.cb a).toNat (0 : ℚ)).length : ℤ) = boxLen2 b.cb a := by
    rw [List.length_replicate, Int.toNat_of_nonneg (by rw [hlen]; exact hpos.le)]
  obtain ⟨files, e, hgood, hrun⟩ := C112_mean hd N c hN hc hcw hdvd xs vs hx hv hL hin skip hsd b unitBufs hset
    (by rw [hbp]; exact hpts) a ha (by rw [hb]; rfl) (fun j => by rw [hw, hbc]; omega) m
  refine ⟨files, e, hgood, fun ps hpf hps => ⟨?_, fun out hout => ?_⟩⟩
  · rw [← hbc, ← hbp]
    exact (hrun ps hpf hps _ hrep).1
  rw [← hbc, ← hbp] at hout
  obtain ⟨h1, h2, -⟩ := (hrun ps hpf hps _ hrep).2 out hout
  rw [List.sum_replicate, smul_zero, zero_add, hbc, hw] at h1
  have h3 : (out.length : ℤ) = (cells + 1) ^ 2 := by rw [h2, hrep, hlen]
  have h4 : (out.length : ℚ) = ((cells : ℚ) + 1) ^ 2 := by exact_mod_cast h3
  push_cast at h1
  refine ⟨h1, h3, ?_⟩
  have h5 : (cells : ℚ) + 1 ≠ 0 := by
    have : (0 : ℚ) < cells := by exact_mod_cast hcells
    positivity
  rw [h1, h4]
  field_simp

/-- The snapshot of eight particles, converted into eight files and projected along an axis by three workers: the
projected image has total density 16, one for each pixel. -/
example (a : ℤ) (ha : 0 ≤ a ∧ a < 3) :
    ∃ files ps, writeGrids ⟨8, 8, 2, 1, 4⟩ (2 : ℕ) exSnap exSnap = some files ∧ ps.map Pass.file = files ∧
    ∃ out : List ℚ, Rendered2 a false 2 (({ exBox with proj := some a } : RBox).passes (1 : ℕ) exBufs (fun _ _ =>
      projPtVal exBox.cb a (mcPtVal false 2 (1 : ℕ) (rendererPtVal false 4 2))) ps) (List.replicate 16 0) out ∧
      out.sum = 16 := by
  have hw : ∀ j, exBox.cb.width j = 4 := fun j => by fin_cases j <;> rfl
  obtain ⟨files, ps, e, hpf, hps⟩ := exPasses
  obtain ⟨files', e', -, hrun⟩ := C112_mean ⟨8, 8, 2, 1, 4⟩ 2 2 (by decide) (by decide) rfl (by decide)
    exSnap exSnap rfl rfl (by norm_num) (by decide +kernel) 1 (by decide) { exBox with proj := some a } exBufs
    ⟨exSetup.cells, exSetup.width, exSetup.origin, exSetup.extent, exSetup.skip, exSetup.some, exSetup.unit⟩
    (by show 0 < 2; decide) a ha rfl (fun j => (hw j).ge) 2
  rw [e, Option.some.injEq] at e'
  subst e'
  obtain ⟨⟨out, ho⟩, hall⟩ := hrun ps hpf (fun p hp => (hps _ rfl p hp).1) (List.replicate 16 0) (by rw [boxLen2, hw, hw]; rfl)
  refine ⟨files, ps, e, hpf, out, ho, ?_⟩
  rw [((hall out ho).2.2 hw).1]
  norm_num [exBox]

/-- Projected, the whole box as `NewBox` makes it has 25 pixels, and the mean of its image is 64/125 as well. -/
example (a : ℤ) (ha : 0 ≤ a ∧ a < 3) :
    ∃ files ps, writeGrids ⟨8, 8, 2, 1, 4⟩ (2 : ℕ) exSnap exSnap = some files ∧ ps.map Pass.file = files ∧
    ∃ out : List ℚ, Rendered2 a false 2 ((RBox.new 4 2 4 (fun _ => 0) (fun _ => 4) (some a)).passes (1 : ℕ) exBufs
      (fun _ _ => projPtVal (RBox.new 4 2 4 (fun _ => 0) (fun _ => 4) (some a)).cb a
        (mcPtVal false (2 : ℕ) (1 : ℕ) (rendererPtVal false 4 2))) ps) (List.replicate 25 0) out ∧
      out.sum / out.length = 64 / 125 := by
  obtain ⟨files, ps, e, hpf, hps⟩ := exPasses
  obtain ⟨files', e', -, hrun⟩ := C112_whole_box ⟨8, 8, 2, 1, 4⟩ 2 2 (by decide) (by decide) rfl (by decide)
    exSnap exSnap rfl rfl (by norm_num) (by decide +kernel) 1 (by decide) (by decide) 2 (by decide) 4 (by decide) a ha _
    rfl exBufs (by decide) exSetup.unit 2
  rw [e, Option.some.injEq] at e'
  subst e'
  obtain ⟨⟨out, ho⟩, hall⟩ := hrun ps hpf (fun p hp => (hps _ rfl p hp).1)
  have hw := C51_whole_box 4 4 (by norm_num) (by norm_num)
  have hl : (boxLen2 (RBox.new 4 2 4 (fun _ => 0) (fun _ => 4) (some a)).cb a).toNat = 25 := by
    show (boxLen2 (newBoxBounds 4 4 (fun _ => 0) (fun _ => 4)) a).toNat = 25
    unfold boxLen2
    rw [(hw _).2, (hw _).2]
    rfl
  have ho' := ho
  rw [hl] at ho'
  refine ⟨files, ps, e, hpf, out, ho', ?_⟩
  rw [(hall out ho).2.2]
  norm_num

/-- Of a box of 4 x 4 x 1 cells in 4, projected, only segment buffers are used. -/
example : ∀ f : SheetFile, (⟨⟨![0, 0, 0], ![4, 4, 1]⟩, 2, 4, 1, some 2⟩ : RBox).direct f = false := by
  intro f
  simp [RBox.direct, chooseSegment2]

end Verif.Main
