import Verif.Hist.Samples
import Verif.Main.Output

/-!
# C118: the histogram files
-/

set_option autoImplicit false

namespace Verif.Hist

open Verif.Go Verif.Geom Verif.Render Verif.Io Verif.Main

/-! ## Specification -/

/-- A sheet is looked at for a region: they overlap on every axis and have the same extent on none. -/
def Selected (L : ℚ) (s : Sheet) (origin span : Vec) : Prop :=
  ∀ k, Overlap L (s.origin k) (s.width k) (origin k) (span k) ∧ ¬(s.origin k = origin k ∧ s.width k = span k)

/-- A cube of a sheet is looked at: its first corner is strictly inside the extent of the sheet. -/
def CubeUsed (L : ℚ) (s : Sheet) (x y z : ℤ) : Prop :=
  ∀ k, Inside L (s.origin k) (s.width k) (s.corners x y z 0 3 k)

open Classical in
/-- How many samples of a sheet are in a region and have a density of bin `j`, out of the cubes that are looked at: every
cube has six tetrahedra, `unit idx d` are the samples of tetrahedron `d` of the cube with number `idx`. -/
noncomputable def sheetCount (info : HistInfo) (g : DensityGrid) (L : ℚ) (s : Sheet) (origin span : Vec)
    (unit : ℤ → ℤ → List Vec) (j : ℤ) : ℤ :=
  ∑ z ∈ Finset.Ico 0 s.segWidth, ∑ y ∈ Finset.Ico 0 s.segWidth, ∑ x ∈ Finset.Ico 0 s.segWidth,
    if CubeUsed L s x y z then ∑ d : Fin 6, number (fun p => Counted info g L origin span j (mix (s.corners x y z d) p))
      (unit (x + y * s.gridWidth + z * s.gridWidth * s.gridWidth) (d.val : ℤ)) else 0

/-- The unit buffers: points of the unit tetrahedron. -/
def UnitBufs (unitBufs : List (List Vec)) : Prop := ∀ u ∈ unitBufs, ∀ p ∈ u, UnitPoint p

/-- The unit buffer with a number. -/
def unitOf (unitBufs : List (List Vec)) (pick : ℤ → ℤ → ℤ) (idx dir : ℤ) : List Vec := unitBufs.getD (pick idx dir).toNat []

/-- Random numbers in range. -/
def PickOk (unitBufs : List (List Vec)) (pick : ℤ → ℤ → ℤ) : Prop :=
  ∀ idx dir, 0 ≤ pick idx dir ∧ pick idx dir < unitBufs.length

/-- A region inside the box. -/
def RegionOk (L : ℚ) (origin span : Vec) : Prop := ∀ k, (0 ≤ origin k ∧ origin k < L) ∧ 0 < span k ∧ span k ≤ L

/-! ## One box and one sheet -/

theorem rd_unit {unitBufs : List (List Vec)} {pick : ℤ → ℤ → ℤ} (h : PickOk unitBufs pick) (idx dir : ℤ) :
    rd unitBufs (pick idx dir) = some (unitOf unitBufs pick idx dir) ∧ unitOf unitBufs pick idx dir ∈ unitBufs := by
  obtain ⟨v, hv⟩ := rd_isSome (h idx dir).1 (h idx dir).2
  obtain ⟨h1, h2⟩ := rd_some_iff.mp hv
  have : unitOf unitBufs pick idx dir = v := by
    unfold unitOf
    rw [List.getD_eq_getElem?_getD, h2]
    rfl
  rw [this]
  exact ⟨hv, List.mem_of_getElem? h2⟩

theorem cube_used {s : Sheet} {L : ℚ} (hL : 0 < L) (hs : s.Ok L) {x y z : ℤ}
    (hc : (0 ≤ x ∧ x < s.segWidth) ∧ (0 ≤ y ∧ y < s.segWidth) ∧ (0 ≤ z ∧ z < s.segWidth)) :
    ∃ b, cubeIntersects s.xs s.gridWidth 1 L s.origin s.width (x + y * s.gridWidth + z * s.gridWidth * s.gridWidth) = some b ∧
      (b = true ↔ CubeUsed L s x y z) := by
  obtain ⟨idxs, e, hk⟩ := cube_visit hs hc 0
  have e3 : idxs 3 = x + y * s.gridWidth + z * s.gridWidth * s.gridWidth := by
    unfold initIdxs at e
    split_ifs at e
    cases e
    rfl
  have hv := (hk 3).1
  rw [e3] at hv
  exact C95_cube_filter_partial hL (by norm_num) (by rw [hs.grid]; omega) hv hs.origin hs.width (hs.pos _ (hk 3).2)

/-- The answer of the cube filter. -/
def hitsOf (s : Sheet) (idx : ℤ) : Bool :=
  (cubeIntersects s.xs s.gridWidth 1 s.totalWidth s.origin s.width idx).getD false

/-- The samples of a tetrahedron. -/
def drawOf (s : Sheet) (g : DensityGrid) (origin span : Vec) (unitBufs : List (List Vec)) (pick : ℤ → ℤ → ℤ) (idx dir : ℤ) :
    List (ℚ × Bool) := (getDensities s g 1 origin span (unitOf unitBufs pick idx dir) idx dir).getD []

theorem chanHistogram_eq (info : HistInfo) {s : Sheet} {g : DensityGrid} {L : ℚ} (hL : 0 < L) (hs : s.Ok L) (hg : g.Ok L)
    {box : HistBox} (hb : RegionOk L box.origin box.span) {unitBufs : List (List Vec)} (hu : UnitBufs unitBufs)
    {pick : ℤ → ℤ → ℤ} (hp : PickOk unitBufs pick) {workers : ℤ} (hw : 0 < workers) (worker : ℤ) :
    chanHistogram info s g 1 workers unitBufs box pick worker =
      workerHist info (fun idx => some (hitsOf s idx)) (fun idx dir =>
        ((drawOf s g box.origin box.span unitBufs pick idx dir).map fun d => (d.1 : ℝ),
          (drawOf s g box.origin box.span unitBufs pick idx dir).map fun d => d.2))
        (histVisits s.segWidth (s.segWidth + 1) 1 workers worker) := by
  unfold chanHistogram workerHist
  rw [hs.grid]
  refine foldlM_congr (fun idx hidx hist => ?_) _
  rw [← hs.grid] at hidx ⊢
  rw [hs.grid, mem_histVisits (by norm_num) hw hs.seg] at hidx
  obtain ⟨⟨x, y, z, ⟨hc, -⟩, rfl⟩, -⟩ := hidx
  rw [← hs.grid]
  obtain ⟨b, e, -⟩ := cube_used hL hs hc
  have e' : hitsOf s (x + y * s.gridWidth + z * s.gridWidth * s.gridWidth) = b := by
    unfold hitsOf
    rw [hs.total, e]
    rfl
  beta_reduce
  rw [e', hs.total, e]
  simp only [bind, Option.bind_some]
  by_cases hbt : b = false
  · rw [if_pos hbt, if_pos hbt]
  rw [if_neg hbt, if_neg hbt]
  refine forRange_congr 6 (fun dir d0 d1 hist => ?_) hist
  obtain ⟨h1, h2⟩ := rd_unit hp (x + y * s.gridWidth + z * s.gridWidth * s.gridWidth) dir
  obtain ⟨d, rfl⟩ : ∃ d : Fin 6, dir = (d.val : ℤ) := ⟨⟨dir.toNat, by omega⟩, by simp; omega⟩
  obtain ⟨ds, e1, -⟩ := getDensities_spec info hL hs hg (fun k => (hb k).1) (fun k => (hb k).2.2) (hu _ h2) hc d
  rw [h1]
  simp only [Option.bind_some]
  unfold drawOf
  rw [e1]
  rfl

theorem histOneBox_spec {info : HistInfo} (hi : info.Valid) {s : Sheet} {g : DensityGrid} {L : ℚ} (hL : 0 < L) (hs : s.Ok L)
    (hg : g.Ok L) (hneg : info.isLog = true → ∀ v ∈ g.values, 0 ≤ v)
    {box : HistBox} (hb : RegionOk L box.origin box.span) {unitBufs : List (List Vec)} (hu : UnitBufs unitBufs)
    {pick : ℤ → ℤ → ℤ} (hp : PickOk unitBufs pick) {workers : ℕ} (hw : 0 < workers) {order : List ℕ}
    (ho : order.Perm (List.range workers)) {F : ℤ → ℤ} (hF : Cells info.bins box.counts F) :
    ∃ counts, histOneBox info s g 1 workers unitBufs order pick box = some { box with counts := counts } ∧
      (Selected L s box.origin box.span →
        Cells info.bins counts fun j => F j + sheetCount info g L s box.origin box.span (unitOf unitBufs pick) j) ∧
      (¬ Selected L s box.origin box.span → counts = box.counts) := by
  have hsel : histIntersect s.origin s.width box.origin box.span s.totalWidth = true ↔ Selected L s box.origin box.span := by
    rw [hs.total]
    exact C58_sheets hL hs.origin (fun k => (hb k).1) hs.width fun k => (hb k).2
  unfold histOneBox
  by_cases h : histIntersect s.origin s.width box.origin box.span s.totalWidth = false
  · rw [if_pos h]
    have hn : ¬ Selected L s box.origin box.span := by rw [← hsel, h]; simp
    exact ⟨box.counts, rfl, fun h' => absurd h' hn, fun _ => rfl⟩
  rw [if_neg h]
  have hy : Selected L s box.origin box.span := by rw [← hsel]; simpa using h
  have hw' : (0 : ℤ) < workers := by exact_mod_cast hw
  obtain ⟨hists, h1, h2⟩ := C59_merge hi hs.seg hw (hits := hitsOf s) (draw := fun idx dir =>
        ((drawOf s g box.origin box.span unitBufs pick idx dir).map fun d => (d.1 : ℝ),
          (drawOf s g box.origin box.span unitBufs pick idx dir).map fun d => d.2)) (by intro idx dir; simp) (by
    intro hl idx dir i hi' ht
    dsimp only at hi' ht ⊢
    rw [List.length_map] at hi'
    rw [List.getD_eq_getElem?_getD, List.getElem?_map, List.getElem?_eq_getElem hi'] at ht ⊢
    simp only [Option.map_some, Option.getD_some] at ht ⊢
    have hm := List.getElem_mem hi'
    generalize (drawOf s g box.origin box.span unitBufs pick idx dir)[i] = r at *
    unfold drawOf at hm
    cases hd : getDensities s g 1 box.origin box.span (unitOf unitBufs pick idx dir) idx dir with
    | none => rw [hd] at hm; simp at hm
    | some ds =>
      rw [hd] at hm
      exact_mod_cast hneg hl _ (getDensities_value hd hm ht)) (counts := box.counts) (by exact_mod_cast hF.1)
  obtain ⟨out, e, hl, hout⟩ := h2 order ho
  have e1 : (List.range workers).mapM (fun (id : ℕ) => chanHistogram info s g 1 workers unitBufs box pick id) =
      some ((List.range workers).map hists) := by
    refine mapM_exact fun w hw'' => ?_
    rw [chanHistogram_eq info hL hs hg hb hu hp hw']
    exact h1 w (List.mem_range.mp hw'')
  have e2 : mergeHists info.bins (fun id => ((List.range workers).map hists).getD id []) order box.counts = some out := by
    rw [← e]
    unfold mergeHists
    refine foldlM_congr (fun id hid counts => ?_) _
    have : id < workers := List.mem_range.mp (ho.mem_iff.mp hid)
    have : ((List.range workers).map hists).getD id [] = hists id := by
      simp [List.getD_eq_getElem?_getD, this]
    simp only [this]
  refine ⟨out, bind_of e1 (bind_of e2 rfl), fun _ => ⟨by exact_mod_cast hl, ?_⟩, fun h' => absurd hy h'⟩
  intro j j0 j1
  rw [hout j (F j) j0 j1 (hF.2 j j0 j1)]
  congr 2
  unfold sheetCount
  refine Finset.sum_congr rfl fun z hz => Finset.sum_congr rfl fun y hy => Finset.sum_congr rfl fun x hx => ?_
  rw [Finset.mem_Ico] at hz hy hx
  have hc : (0 ≤ x ∧ x < s.segWidth) ∧ (0 ≤ y ∧ y < s.segWidth) ∧ (0 ≤ z ∧ z < s.segWidth) := ⟨hx, hy, hz⟩
  obtain ⟨b, eb, hbu⟩ := cube_used hL hs hc
  rw [← hs.grid]
  have e' : hitsOf s (x + y * s.gridWidth + z * s.gridWidth * s.gridWidth) = b := by
    unfold hitsOf
    rw [hs.total, eb]
    rfl
  unfold cubeCount
  rw [e']
  by_cases hcu : CubeUsed L s x y z
  · rw [if_pos hcu, if_pos (hbu.mpr hcu)]
    have e6 : Finset.Ico (0 : ℤ) 6 = Finset.univ.image fun d : Fin 6 => (d.val : ℤ) := by decide
    rw [e6, Finset.sum_image (by intro a _ b _ h; simpa [Fin.ext_iff] using h)]
    refine Finset.sum_congr rfl fun d _ => ?_
    obtain ⟨-, h4⟩ := rd_unit hp (x + y * s.gridWidth + z * s.gridWidth * s.gridWidth) (d.val : ℤ)
    obtain ⟨ds, e5, hds⟩ := getDensities_spec info hL hs hg (fun k => (hb k).1) (fun k => (hb k).2.2) (hu _ h4) hc d
    rw [← hds j]
    beta_reduce
    unfold drawOf
    rw [e5]
    rfl
  · rw [if_neg hcu, if_neg (fun h => hcu (hbu.mp h))]

/-! ## All boxes and all sheets -/

theorem mapM_zipIdx {β : Type} {α : Type} {R : ℕ → α → β → Prop} {f : α × ℕ → Option β} (l : List α) (n : ℕ)
    (h : ∀ i a, l[i]? = some a → ∃ b, f (a, n + i) = some b ∧ R (n + i) a b) :
    ∃ out, (l.zipIdx n).mapM f = some out ∧ out.length = l.length ∧
      ∀ i a, l[i]? = some a → ∃ b, out[i]? = some b ∧ R (n + i) a b := by
  induction l generalizing n with
  | nil => exact ⟨[], rfl, rfl, by simp⟩
  | cons a l ih =>
    obtain ⟨b, hb, hR⟩ := h 0 a rfl
    obtain ⟨out, e, hl, ho⟩ := ih (n + 1) (fun i a' ha => by
      have := h (i + 1) a' ha
      rwa [show n + (i + 1) = n + 1 + i by omega] at this)
    refine ⟨b :: out, ?_, by simp [hl], ?_⟩
    · rw [List.zipIdx_cons, List.mapM_cons]
      exact bind_of hb (bind_of e rfl)
    · intro i a' ha
      cases i with
      | zero => cases ha; exact ⟨b, rfl, hR⟩
      | succ i =>
        obtain ⟨b', h1, h2⟩ := ho i a' ha
        exact ⟨b', h1, by rwa [show n + (i + 1) = n + 1 + i by omega]⟩

open Classical in
/-- What file number `f` adds to bin `j` of box number `i`. -/
noncomputable def fileCount (info : HistInfo) (g : DensityGrid) (L : ℚ) (unitBufs : List (List Vec))
    (pick : ℕ → ℕ → ℤ → ℤ → ℤ) (origin span : Vec) (i : ℕ) (j : ℤ) (f : Sheet × ℕ) : ℤ :=
  if Selected L f.1 origin span then sheetCount info g L f.1 origin span (unitOf unitBufs (pick f.2 i)) j else 0

theorem hist_files {info : HistInfo} (hi : info.Valid) {g : DensityGrid} {L : ℚ} (hL : 0 < L)
    (hg : g.Ok L) (hneg : info.isLog = true → ∀ v ∈ g.values, 0 ≤ v) {unitBufs : List (List Vec)} (hu : UnitBufs unitBufs)
    {pick : ℕ → ℕ → ℤ → ℤ → ℤ} (hp : ∀ f i, PickOk unitBufs (pick f i)) {workers : ℕ} (hw : 0 < workers)
    {order : ℕ → ℕ → List ℕ} (ho : ∀ f i, (order f i).Perm (List.range workers)) (files : List (Sheet × ℕ))
    (hs : ∀ f ∈ files, f.1.Ok L) (F : ℕ → ℤ → ℤ) (boxes : List HistBox)
    (hb : ∀ i b, boxes[i]? = some b → RegionOk L b.origin b.span ∧ Cells info.bins b.counts (F i)) :
    ∃ out, files.foldlM (fun boxes f => histFromFile info g 1 workers unitBufs (order f.2) (pick f.2) f.1 boxes) boxes =
        some out ∧ out.length = boxes.length ∧
      ∀ i b, boxes[i]? = some b → ∃ b', out[i]? = some b' ∧ b'.origin = b.origin ∧ b'.span = b.span ∧ b'.centers = b.centers ∧
        Cells info.bins b'.counts fun j => F i j + (files.map (fileCount info g L unitBufs pick b.origin b.span i j)).sum := by
  induction files generalizing F boxes with
  | nil =>
    refine ⟨boxes, rfl, rfl, fun i b h => ⟨b, h, rfl, rfl, rfl, ?_⟩⟩
    simpa using (hb i b h).2
  | cons f files ih =>
    obtain ⟨out1, e1, l1, h1⟩ := mapM_zipIdx (f := fun p : HistBox × ℕ =>
        histOneBox info f.1 g 1 workers unitBufs (order f.2 p.2) (pick f.2 p.2) p.1)
      (R := fun i b b' => b'.origin = b.origin ∧ b'.span = b.span ∧ b'.centers = b.centers ∧
        Cells info.bins b'.counts fun j => F i j + fileCount info g L unitBufs pick b.origin b.span i j f) boxes 0 (by
      intro i b hib
      rw [Nat.zero_add]
      obtain ⟨hr, hF⟩ := hb i b hib
      obtain ⟨counts, e, hc1, hc2⟩ := histOneBox_spec hi hL (hs f (by simp)) hg hneg hr hu (hp f.2 i) hw (ho f.2 i) hF
      refine ⟨_, e, rfl, rfl, rfl, ?_⟩
      dsimp only
      unfold fileCount
      by_cases hsel : Selected L f.1 b.origin b.span
      · simp only [if_pos hsel]
        exact hc1 hsel
      · simp only [if_neg hsel, add_zero]
        rw [hc2 hsel]
        exact hF)
    have hlen : ∀ i, i < boxes.length ↔ i < out1.length := fun i => by rw [l1]
    obtain ⟨out, e2, l2, h2⟩ := ih (fun f' hf => hs f' (by simp [hf]))
      (fun i j => F i j + fileCount info g L unitBufs pick ((boxes[i]?.map HistBox.origin).getD 0)
        ((boxes[i]?.map HistBox.span).getD 0) i j f) out1 (by
      intro i b' hib
      have hi' : i < boxes.length := by rw [hlen]; exact (List.getElem?_eq_some_iff.mp hib).1
      obtain ⟨b'', k1, k2, k3, k4, k5⟩ := h1 i _ (List.getElem?_eq_getElem hi')
      rw [k1] at hib
      cases hib
      rw [List.getElem?_eq_getElem hi', Nat.zero_add] at *
      refine ⟨?_, k5⟩
      rw [k2, k3]
      exact (hb i _ (List.getElem?_eq_getElem hi')).1)
    refine ⟨out, ?_, l2.trans l1, ?_⟩
    · rw [List.foldlM_cons]
      exact bind_of e1 e2
    · intro i b hib
      obtain ⟨b1, k1, k2, k3, k4, k5⟩ := h1 i b hib
      obtain ⟨b2, m1, m2, m3, m4, m5⟩ := h2 i b1 k1
      refine ⟨b2, m1, m2.trans k2, m3.trans k3, m4.trans k4, ?_⟩
      rw [hib, k2, k3] at m5
      simp only [Option.map_some, Option.getD_some] at m5
      simp only [List.map_cons, List.sum_cons]
      simpa only [add_assoc] using m5

theorem histRows_eq {info : HistInfo} (hi : info.Valid) {b : HistBox} (hc : b.centers = histCenters info) {F : ℤ → ℤ}
    (hF : Cells info.bins b.counts F) :
    histRows b = some ((List.range info.bins).map fun (j : ℕ) => (edge info (j + 1 / 2), F j)) := by
  obtain ⟨h1, h2⟩ := C59_centers hi
  unfold histRows
  rw [show b.counts.length = info.bins by exact_mod_cast hF.1]
  refine mapM_exact fun j hj => ?_
  rw [List.mem_range] at hj
  have hj' : j < (histCenters info).length := by rw [h1]; exact hj
  have e := List.getElem?_eq_getElem hj'
  rw [hc]
  refine bind_of (rd_of_lt hj') (bind_of (hF.2 j (by omega) (by exact_mod_cast hj)) ?_)
  rw [← (h2 j _ e).1]

/-- The region of a box of a bounds file. -/
def cornerOf (c : BoxConfig) : Vec := ![c.x, c.y, c.z]

/-- The widths of a box of a bounds file. -/
def widthsOf (c : BoxConfig) : Vec := ![c.xWidth, c.yWidth, c.zWidth]

/-- C118: the histogram program writes one file for each entry of the bounds files, in order and with the name of the entry;
the file has one row per bin, with the middle of the bin and the number of samples in the region of the entry with a density
of the bin: every sheet that is selected, every cube of it that is used, all six tetrahedra, each point of the unit buffer
drawn once. This holds for any number of workers and any order in which they finish. The wanted statement has all sheets
and all cubes, and any subsampling length. -/
theorem C118_files_partial {info : HistInfo} (hi : info.Valid) {g : DensityGrid} {L : ℚ} (hL : 0 < L)
    (hg : g.Ok L) (hneg : info.isLog = true → ∀ v ∈ g.values, 0 ≤ v) {unitBufs : List (List Vec)} (hu : UnitBufs unitBufs)
    {pick : ℕ → ℕ → ℤ → ℤ → ℤ} (hp : ∀ f i, PickOk unitBufs (pick f i)) {workers : ℕ} (hw : 0 < workers)
    {order : ℕ → ℕ → List ℕ} (ho : ∀ f i, (order f i).Perm (List.range workers)) {files : List Sheet} (hf : files ≠ [])
    (hs : ∀ s ∈ files, s.Ok L) (pre app : List Char) {bounds : List BoundsFile} {cs : List BoxConfig}
    (hc : readAllBounds L bounds = some cs) (hr : ∀ c ∈ cs, RegionOk L (cornerOf c) (widthsOf c)) :
    ∃ out, tetraHistMain info pre app g 1 workers unitBufs order pick files bounds = some out ∧ out.length = cs.length ∧
      ∀ i c, cs[i]? = some c → ∃ rows, out[i]? = some (pre ++ c.name ++ app ++ ".txt".toList, rows) ∧
        rows.length = info.bins ∧ ∀ j : ℕ, j < info.bins → rows[j]? = some (edge info (j + 1 / 2),
          (files.zipIdx.map (fileCount info g L unitBufs pick (cornerOf c) (widthsOf c) i j)).sum) := by
  obtain ⟨s, files', rfl⟩ := List.exists_cons_of_ne_nil hf
  set boxes : List HistBox := (cs.map fun c => newHistBox c info.bins).map fun b =>
    { b with counts := List.replicate info.bins 0, centers := histCenters info } with hboxes
  have hbox : ∀ (i : ℕ) (b : HistBox), boxes[i]? = some b → ∃ c, cs[i]? = some c ∧ b.origin = cornerOf c ∧ b.span = widthsOf c ∧
      b.counts = List.replicate info.bins 0 ∧ b.centers = histCenters info := by
    intro i b h
    rw [hboxes, List.map_map, List.getElem?_map, Option.map_eq_some_iff] at h
    obtain ⟨c, h1, rfl⟩ := h
    exact ⟨c, h1, rfl, rfl, rfl, rfl⟩
  have hbox' : ∀ (i : ℕ) (c : BoxConfig), cs[i]? = some c → ∃ b, boxes[i]? = some b := by
    intro i c h
    rw [hboxes, List.map_map, List.getElem?_map, h]
    exact ⟨_, rfl⟩
  obtain ⟨out, e, hl, hout⟩ := hist_files hi hL hg hneg hu hp hw ho (s :: files').zipIdx (by
      intro f hf
      exact hs f.1 (List.fst_mem_of_mem_zipIdx hf)) (fun _ _ => 0) boxes (by
      intro i b hb
      obtain ⟨c, h1, h2, h3, h4, h5⟩ := hbox i b hb
      rw [h2, h3, h4]
      exact ⟨hr c (List.mem_of_getElem? h1), cells_zero _⟩)
  have hlen : out.length = cs.length := by rw [hl, hboxes]; simp
  set row : ℕ → BoxConfig → List (ℝ × ℤ) := fun i c => (List.range info.bins).map fun (j : ℕ) => (edge info (j + 1 / 2),
    ((s :: files').zipIdx.map (fileCount info g L unitBufs pick (cornerOf c) (widthsOf c) i j)).sum) with hrow
  have hz : ∀ i p, (cs.zip out)[i]? = some p → histRows p.2 = some (row i p.1) := by
    intro i p hp'
    rw [List.getElem?_zip_eq_some] at hp'
    obtain ⟨b, hb⟩ := hbox' i _ hp'.1
    obtain ⟨b', k1, k2, k3, k4, k5⟩ := hout i b hb
    obtain ⟨c, h1, h2, h3, h4, h5⟩ := hbox i b hb
    rw [hp'.1] at h1
    cases h1
    rw [hp'.2] at k1
    cases k1
    rw [histRows_eq hi (k4.trans h5) k5, hrow, h2, h3]
    simp
  obtain ⟨res, e3, l3, h3⟩ := mapM_zipIdx (l := cs.zip out) (n := 0) (f := fun q : (BoxConfig × HistBox) × ℕ => do
      let rows ← histRows q.1.2
      some (histName pre q.1.1.name app, rows)) (R := fun i p r => r = (histName pre p.1.name app, row i p.1)) (by
    intro i p hp'
    rw [Nat.zero_add]
    exact ⟨_, bind_of (hz i p hp') rfl, rfl⟩)
  refine ⟨res, ?_, ?_, ?_⟩
  · unfold tetraHistMain
    refine bind_of (a := s) rfl ?_
    rw [(hs s (by simp)).total]
    refine bind_of hc ?_
    dsimp only
    refine bind_of e ?_
    rw [← e3]
    have : (cs.zip out) = ((cs.zip out).zipIdx 0).map Prod.fst := by simp
    conv_lhs => rw [this]
    rw [mapM_map]
  · rw [l3, List.length_zip, hlen, min_self]
  · intro i c hic
    have hi' : i < out.length := by rw [hlen]; exact (List.getElem?_eq_some_iff.mp hic).1
    obtain ⟨r, k1, k2⟩ := h3 i (c, out[i]) (by
      rw [List.getElem?_zip_eq_some]
      exact ⟨hic, List.getElem?_eq_getElem hi'⟩)
    rw [Nat.zero_add] at k2
    refine ⟨row i c, by rw [k1, k2]; rfl, by simp [hrow], ?_⟩
    intro j hj
    rw [hrow, List.getElem?_map, List.getElem?_range hj]
    rfl

/-! ## Sheets that are not selected -/

theorem overlap_of_point {L o w ro rs x : ℚ} (hw : 0 < w) (h1 : o ≤ x ∧ x ≤ o + w) (h2 : Inside L ro rs x) :
    Overlap L o w ro rs := by
  obtain ⟨n, a, b⟩ := h2
  obtain ⟨δ, hδ, h3, h4⟩ : ∃ δ : ℚ, 0 < δ ∧ δ ≤ x + n * L - ro ∧ δ ≤ ro + rs - (x + n * L) :=
    ⟨min (x + n * L - ro) (ro + rs - (x + n * L)), lt_min (by linarith) (by linarith), min_le_left _ _, min_le_right _ _⟩
  have hden : 0 < δ + w := by linarith
  have ht0 : 0 < δ / (δ + w) := div_pos hδ hden
  have ht1 : δ / (δ + w) < 1 := by rw [div_lt_one hden]; linarith
  have htw : δ / (δ + w) * w < δ := by
    rw [div_mul_eq_mul_div, div_lt_iff₀ hden]
    nlinarith
  generalize δ / (δ + w) = t at *
  refine ⟨x + t * (o + w / 2 - x), ⟨0, ?_, ?_⟩, ⟨n, ?_, ?_⟩⟩
  · push_cast; nlinarith
  · push_cast; nlinarith
  · nlinarith
  · nlinarith

/-- C118: if a sheet does not cross the periodic boundary and has the extent of the region on no axis, leaving it out loses
nothing. -/
theorem C118_skipped {info : HistInfo} {g : DensityGrid} {L : ℚ} {s : Sheet} (hs : s.Ok L)
    (hx : ∀ p ∈ s.xs, ∀ k, s.origin k ≤ p k ∧ p k ≤ s.origin k + s.width k) {origin span : Vec}
    (hne : ∀ k, ¬(s.origin k = origin k ∧ s.width k = span k)) (hsel : ¬ Selected L s origin span)
    {x y z : ℤ} (hc : (0 ≤ x ∧ x < s.segWidth) ∧ (0 ≤ y ∧ y < s.segWidth) ∧ (0 ≤ z ∧ z < s.segWidth)) (d : Fin 6) {p : Vec}
    (hp : UnitPoint p) (j : ℤ) : ¬ Counted info g L origin span j (mix (s.corners x y z d) p) := by
  rintro ⟨h, -⟩
  refine hsel fun k => ⟨?_, hne k⟩
  obtain ⟨idxs, -, hk⟩ := cube_visit hs hc d
  exact overlap_of_point (hs.width k).1 (mix_between hp fun i => hx _ (hk i).2 k) (h k)

theorem sheetCount_zero {info : HistInfo} {g : DensityGrid} {L : ℚ} {s : Sheet} {origin span : Vec} {unit : ℤ → ℤ → List Vec}
    {j : ℤ} (h : ∀ x y z, ((0 ≤ x ∧ x < s.segWidth) ∧ (0 ≤ y ∧ y < s.segWidth) ∧ (0 ≤ z ∧ z < s.segWidth)) →
      CubeUsed L s x y z → ∀ (d : Fin 6), ∀ p ∈ unit (x + y * s.gridWidth + z * s.gridWidth * s.gridWidth) (d.val : ℤ),
        ¬ Counted info g L origin span j (mix (s.corners x y z d) p)) : sheetCount info g L s origin span unit j = 0 := by
  classical
  unfold sheetCount
  refine Finset.sum_eq_zero fun z hz => Finset.sum_eq_zero fun y hy => Finset.sum_eq_zero fun x hx => ?_
  rw [Finset.mem_Ico] at hz hy hx
  split_ifs with hu
  · refine Finset.sum_eq_zero fun d _ => ?_
    unfold number
    rw [Nat.cast_eq_zero, List.countP_eq_zero]
    intro p hp
    simpa using h x y z ⟨hx, hy, hz⟩ hu d p hp
  · rfl

/-- C118: when no sheet crosses the periodic boundary or has the extent of the region on an axis, a row has the number of all
samples in the region, over all sheets, with a density of the bin, except those of cubes whose first corner is not strictly
inside the extent of its sheet. The wanted statement is without the exception and the conditions. -/
theorem C118_all_partial {info : HistInfo} {g : DensityGrid} {L : ℚ} {unitBufs : List (List Vec)} (hu : UnitBufs unitBufs)
    {pick : ℕ → ℕ → ℤ → ℤ → ℤ} (hp : ∀ f i, PickOk unitBufs (pick f i)) {files : List Sheet} (hs : ∀ s ∈ files, s.Ok L)
    (hx : ∀ s ∈ files, ∀ p ∈ s.xs, ∀ k, s.origin k ≤ p k ∧ p k ≤ s.origin k + s.width k) {origin span : Vec}
    (hne : ∀ s ∈ files, ∀ k, ¬(s.origin k = origin k ∧ s.width k = span k)) (i : ℕ) (j : ℤ) :
    (files.zipIdx.map (fileCount info g L unitBufs pick origin span i j)).sum =
      (files.zipIdx.map fun f => sheetCount info g L f.1 origin span (unitOf unitBufs (pick f.2 i)) j).sum := by
  congr 1
  refine List.map_congr_left fun f hf => ?_
  have hm := List.fst_mem_of_mem_zipIdx hf
  unfold fileCount
  split_ifs with h
  · rfl
  · refine (sheetCount_zero fun x y z hc _ d p hp' => ?_).symm
    refine C118_skipped (hs _ hm) (hx _ hm) (hne _ hm) h hc d ?_ j
    exact hu _ (rd_unit (hp f.2 i) _ _).2 p hp'

/-! ## Examples -/

/-! An example: one cube of matter in the middle of its sheet, one sample per tetrahedron, a grid of one pixel. -/

/-- Two bins from 0 to 10. -/
noncomputable def exLin : HistInfo := ⟨0, 10, 2, false⟩

theorem exLin_valid : exLin.Valid := ⟨by norm_num [exLin], by norm_num [exLin], by simp [exLin]⟩

/-- The corners of a cube from `a` to `b`. -/
def exCube (a b : ℚ) : List Vec := [![a, a, a], ![b, a, a], ![a, b, a], ![b, b, a], ![a, a, b], ![b, a, b], ![a, b, b], ![b, b, b]]

theorem exCube_mem {a b : ℚ} {p : Vec} (h : p ∈ exCube a b) (k : Fin 3) : p k = a ∨ p k = b := by
  simp only [exCube, List.mem_cons, List.not_mem_nil, or_false] at h
  rcases h with rfl | rfl | rfl | rfl | rfl | rfl | rfl | rfl <;> fin_cases k <;> simp

/-- A sheet of one cube from `a` to `b` with the given extent. -/
def exSheet (a b o w : ℚ) : Sheet := ⟨fun _ => o, fun _ => w, 10, 1, 2, exCube a b⟩

theorem exSheet_ok {a b o w : ℚ} (ha : 0 ≤ a ∧ a < 10) (hb : 0 ≤ b ∧ b < 10) (ho : 0 ≤ o ∧ o < 10) (hw : 0 < w ∧ w ≤ 10) :
    (exSheet a b o w).Ok 10 where
  total := rfl
  seg := by simp [exSheet]
  grid := rfl
  len := rfl
  pos p hp k := by rcases exCube_mem hp k with h | h <;> rw [h] <;> assumption
  origin _ := ho
  width _ := hw

/-- One pixel with the density 7. -/
def exDensity : DensityGrid := ⟨10, fun _ => 0, fun _ => 10, fun _ => 1, 10, [7]⟩

theorem exDensity_ok : exDensity.Ok 10 where
  box := rfl
  pixel := by norm_num [exDensity]
  origin _ := by norm_num [exDensity]
  span _ := by norm_num [exDensity]
  fits _ := by norm_num [exDensity]
  len := by simp [exDensity]

/-- One unit buffer with one point. -/
def exUnit : List (List Vec) := [[![1 / 4, 1 / 4, 1 / 4]]]

theorem exUnit_ok : UnitBufs exUnit := by
  intro u hu p hp
  simp only [exUnit, List.mem_singleton] at hu
  subst hu
  simp only [List.mem_singleton] at hp
  subst hp
  refine ⟨?_, ?_, ?_, ?_⟩ <;> simp <;> norm_num

theorem exPick_ok : ∀ _ _ : ℕ, PickOk exUnit fun _ _ => 0 := fun _ _ _ _ => by simp [exUnit]

/-- A bounds file with one box, the lower part of the simulation box on every axis. -/
def exBounds : BoundsFile := ⟨[], [("low".toList, ⟨0, 0, 0, 5, 5, 5, [], []⟩)]⟩

theorem exBounds_read : readAllBounds 10 [exBounds] = some [⟨0, 0, 0, 5, 5, 5, [], "low".toList⟩] := by decide +kernel

theorem ex_counted {a b o w : ℚ} {origin span : Vec} {d : Fin 6}
    (h : ∀ k, origin k < mix ((exSheet a b o w).corners 0 0 0 d) ![1 / 4, 1 / 4, 1 / 4] k ∧
      mix ((exSheet a b o w).corners 0 0 0 d) ![1 / 4, 1 / 4, 1 / 4] k < origin k + span k)
    (h' : ∀ k, 0 ≤ mix ((exSheet a b o w).corners 0 0 0 d) ![1 / 4, 1 / 4, 1 / 4] k ∧
      mix ((exSheet a b o w).corners 0 0 0 d) ![1 / 4, 1 / 4, 1 / 4] k < 10) :
    Counted exLin exDensity 10 origin span 1 (mix ((exSheet a b o w).corners 0 0 0 d) ![1 / 4, 1 / 4, 1 / 4]) := by
  refine ⟨fun k => ⟨0, by simpa using h k⟩, fun _ => 0, 7, fun k => ⟨by simp [exDensity], 0, ?_⟩, by simp [exDensity, rd], ?_⟩
  · simpa [exDensity] using h' k
  · norm_num [InBin, edge, exLin]

theorem ex_inside : ∀ (d : Fin 6) (k : Fin 3), (0 < mix ((exSheet 1 2 (1 / 2) 2).corners 0 0 0 d) ![1 / 4, 1 / 4, 1 / 4] k ∧
    mix ((exSheet 1 2 (1 / 2) 2).corners 0 0 0 d) ![1 / 4, 1 / 4, 1 / 4] k < 5) := by decide +kernel

theorem ex_number : sheetCount exLin exDensity 10 (exSheet 1 2 (1 / 2) 2) ![0, 0, 0] ![5, 5, 5]
    (unitOf exUnit fun _ _ => 0) 1 = 6 := by
  have hu : CubeUsed 10 (exSheet 1 2 (1 / 2) 2) 0 0 0 := by
    intro k
    have : ∀ k, (1 / 2 : ℚ) < (exSheet 1 2 (1 / 2) 2).corners 0 0 0 0 3 k ∧ (exSheet 1 2 (1 / 2) 2).corners 0 0 0 0 3 k < 5 / 2 := by
      decide +kernel
    refine ⟨0, ?_⟩
    have := this k
    constructor
    · simpa [exSheet] using this.1
    · have e : (exSheet 1 2 (1 / 2) 2).origin k + (exSheet 1 2 (1 / 2) 2).width k = 5 / 2 := by norm_num [exSheet]
      rw [e]
      simpa using this.2
  have hseg : Finset.Ico 0 (exSheet 1 2 (1 / 2) 2).segWidth = {0} := by decide
  unfold sheetCount
  rw [hseg, Finset.sum_singleton, Finset.sum_singleton, Finset.sum_singleton, if_pos hu]
  have : ∀ d : Fin 6, number (fun p => Counted exLin exDensity 10 ![0, 0, 0] ![5, 5, 5] 1
      (mix ((exSheet 1 2 (1 / 2) 2).corners 0 0 0 d) p)) (unitOf exUnit (fun _ _ => 0)
        (0 + 0 * (exSheet 1 2 (1 / 2) 2).gridWidth + 0 * (exSheet 1 2 (1 / 2) 2).gridWidth * (exSheet 1 2 (1 / 2) 2).gridWidth)
          (d.val : ℤ)) = 1 := by
    intro d
    have hi := ex_inside d
    have hc := ex_counted (a := 1) (b := 2) (o := 1 / 2) (w := 2) (origin := ![0, 0, 0]) (span := ![5, 5, 5]) (d := d)
      (fun k => by
        have := hi k
        fin_cases k <;> simpa using this) (fun k => ⟨(hi k).1.le, by linarith [(hi k).2]⟩)
    have e : ∀ idx dir, unitOf exUnit (fun _ _ => 0) idx dir = [![1 / 4, 1 / 4, 1 / 4]] := fun _ _ => rfl
    rw [e]
    unfold number
    rw [List.countP_singleton, if_pos (by simpa using hc)]
    rfl
  rw [Finset.sum_congr rfl fun d _ => this d]
  simp

/-- The example meets the conditions, and all six samples are counted. -/
example : ∃ out, tetraHistMain exLin "a".toList "b".toList exDensity 1 3 exUnit (fun _ _ => [2, 0, 1]) (fun _ _ _ _ => 0)
    [exSheet 1 2 (1 / 2) 2] [exBounds] = some out ∧
    ∃ rows, out[0]? = some ("alowb.txt".toList, rows) ∧ rows[1]? = some (15 / 2, 6) := by
  obtain ⟨out, e, -, h⟩ := C118_files_partial exLin_valid (L := 10) (by norm_num) exDensity_ok (by simp [exLin]) exUnit_ok
    exPick_ok (workers := 3) (by norm_num) (order := fun _ _ => [2, 0, 1]) (fun _ _ => by decide)
    (files := [exSheet 1 2 (1 / 2) 2]) (by simp) (by
      intro s hs
      rw [List.mem_singleton] at hs
      subst hs
      exact exSheet_ok (by norm_num) (by norm_num) (by norm_num) (by norm_num)) "a".toList "b".toList exBounds_read (by
      intro c hc k
      rw [List.mem_singleton] at hc
      subst hc
      fin_cases k <;> norm_num [cornerOf, widthsOf])
  refine ⟨out, e, ?_⟩
  obtain ⟨rows, h1, -, h3⟩ := h 0 _ rfl
  refine ⟨rows, h1, ?_⟩
  rw [h3 1 (by norm_num [exLin])]
  have hsel : Selected 10 (exSheet 1 2 (1 / 2) 2) ![0, 0, 0] ![5, 5, 5] := by
    refine (C58_sheets (L := 10) (by norm_num) (fun _ => ?_) (fun k => ?_) (fun _ => ?_) (fun k => ?_)).mp ?_
    · norm_num [exSheet]
    · fin_cases k <;> norm_num
    · norm_num [exSheet]
    · fin_cases k <;> norm_num
    · decide +kernel
  congr 2
  · norm_num [edge, exLin]
  · change [fileCount exLin exDensity 10 exUnit (fun _ _ _ _ => 0) ![0, 0, 0] ![5, 5, 5] 0 1 (exSheet 1 2 (1 / 2) 2, 0)].sum = 6
    rw [List.sum_singleton]
    unfold fileCount
    rw [if_pos hsel]
    exact ex_number

/-- C118: a sheet of one cube with an extent that fits exactly, as the program that makes the sheets writes it: all six
samples are in the region, none is counted. -/
theorem C118_counterexample :
    (∀ d : Fin 6, Counted exLin exDensity 10 ![0, 0, 0] ![5, 5, 5] 1
      (mix ((exSheet 1 2 1 1).corners 0 0 0 d) ![1 / 4, 1 / 4, 1 / 4])) ∧
    ∃ out, tetraHistMain exLin "a".toList "b".toList exDensity 1 3 exUnit (fun _ _ => [2, 0, 1]) (fun _ _ _ _ => 0)
      [exSheet 1 2 1 1] [exBounds] = some out ∧
      ∃ rows, out[0]? = some ("alowb.txt".toList, rows) ∧ rows[1]? = some (15 / 2, 0) := by
  constructor
  · intro d
    have hi : ∀ (d : Fin 6) (k : Fin 3), (0 < mix ((exSheet 1 2 1 1).corners 0 0 0 d) ![1 / 4, 1 / 4, 1 / 4] k ∧
      mix ((exSheet 1 2 1 1).corners 0 0 0 d) ![1 / 4, 1 / 4, 1 / 4] k < 5) := by decide +kernel
    refine ex_counted (fun k => ?_) (fun k => ⟨(hi d k).1.le, by linarith [(hi d k).2]⟩)
    have := hi d k
    fin_cases k <;> simpa using this
  obtain ⟨out, e, -, h⟩ := C118_files_partial exLin_valid (L := 10) (by norm_num) exDensity_ok (by simp [exLin]) exUnit_ok
    exPick_ok (workers := 3) (by norm_num) (order := fun _ _ => [2, 0, 1]) (fun _ _ => by decide)
    (files := [exSheet 1 2 1 1]) (by simp) (by
      intro s hs
      rw [List.mem_singleton] at hs
      subst hs
      exact exSheet_ok (by norm_num) (by norm_num) (by norm_num) (by norm_num)) "a".toList "b".toList exBounds_read (by
      intro c hc k
      rw [List.mem_singleton] at hc
      subst hc
      fin_cases k <;> norm_num [cornerOf, widthsOf])
  refine ⟨out, e, ?_⟩
  obtain ⟨rows, h1, -, h3⟩ := h 0 _ rfl
  refine ⟨rows, h1, ?_⟩
  rw [h3 1 (by norm_num [exLin])]
  congr 2
  · norm_num [edge, exLin]
  · change [fileCount exLin exDensity 10 exUnit (fun _ _ _ _ => 0) ![0, 0, 0] ![5, 5, 5] 0 1 (exSheet 1 2 1 1, 0)].sum = 0
    rw [List.sum_singleton]
    unfold fileCount
    split_ifs
    · refine sheetCount_zero fun x y z hc hu => ?_
      exfalso
      have hx : x = 0 ∧ y = 0 ∧ z = 0 := by
        have : (exSheet 1 2 1 1).segWidth = 1 := rfl
        dsimp only at hc
        rw [this] at hc
        omega
      obtain ⟨rfl, rfl, rfl⟩ := hx
      have e : (exSheet 1 2 1 1).corners 0 0 0 0 3 0 = 1 := by decide +kernel
      obtain ⟨n, h1, h2⟩ := hu 0
      dsimp only at h1 h2
      rw [e] at h1 h2
      norm_num [exSheet] at h1 h2
      have : (1 : ℤ) ≤ n := by exact_mod_cast h1
      have : (1 : ℚ) ≤ n := by exact_mod_cast this
      linarith
    · rfl

/-- Sheets that meet the conditions of `C118_all_partial`. -/
example : ∀ p ∈ (exSheet 1 2 (1 / 2) 2).xs, ∀ k, (exSheet 1 2 (1 / 2) 2).origin k ≤ p k ∧
    p k ≤ (exSheet 1 2 (1 / 2) 2).origin k + (exSheet 1 2 (1 / 2) 2).width k := by
  intro p hp k
  rcases exCube_mem hp k with h | h <;> rw [h] <;> norm_num [exSheet]

/-- A sheet that is not selected for a region it does not meet. -/
example : ¬ Selected 10 (exSheet 1 2 (1 / 2) 2) ![5, 5, 5] ![3, 3, 3] := by
  intro h
  have := (C58_sheets (L := 10) (aO := (exSheet 1 2 (1 / 2) 2).origin) (aW := (exSheet 1 2 (1 / 2) 2).width)
    (bO := ![5, 5, 5]) (bS := ![3, 3, 3]) (by norm_num) (fun _ => by norm_num [exSheet])
    (fun k => by fin_cases k <;> norm_num) (fun _ => by norm_num [exSheet]) (fun k => by fin_cases k <;> norm_num)).mpr h
  revert this
  decide +kernel

end Verif.Hist
