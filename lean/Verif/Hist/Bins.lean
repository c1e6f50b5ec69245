import Verif.Hist.Overlap
import Verif.Render.Accum
import Mathlib.Analysis.SpecialFunctions.Pow.Real
import Mathlib.Algebra.BigOperators.Intervals

/-!
# C59: histogram bins, bin centres, merging of the workers' histograms
-/

set_option autoImplicit false

namespace Verif.Hist

open Verif.Go Verif.Geom Verif.Render

/-- Sensible histogram parameters. -/
structure HistInfo.Valid (info : HistInfo) : Prop where
  lt : info.min < info.max
  bins : 0 < info.bins
  pos : info.isLog = true → 0 < info.min

/-- Position `t` (in bins) on the value axis, divided evenly, or evenly in the ratio for logarithmic scale. -/
noncomputable def edge (info : HistInfo) (t : ℝ) : ℝ :=
  if info.isLog then info.min * (info.max / info.min) ^ (t / info.bins)
  else info.min + (info.max - info.min) * (t / info.bins)

/-- `x` belongs to bin `j`. -/
def InBin (info : HistInfo) (j : ℤ) (x : ℝ) : Prop := edge info j ≤ x ∧ x < edge info (j + 1)

open Classical in
/-- One for a flagged value of bin `j`, else zero. -/
noncomputable def tally (info : HistInfo) (j : ℤ) (x : ℝ) (ok : Bool) : ℤ :=
  if ok = true ∧ InBin info j x then 1 else 0

/-- How many of the flagged values belong to bin `j`. -/
noncomputable def inBinCount (info : HistInfo) (j : ℤ) (xs : List ℝ) (ok : List Bool) : ℤ :=
  ∑ i ∈ Finset.range xs.length, tally info j (xs.getD i 0) (ok.getD i false)

/-- The number the code computes for a value. -/
noncomputable def pos (info : HistInfo) (x : ℝ) : ℝ :=
  if info.isLog then (log10 x - log10 info.min) / ((log10 info.max - log10 info.min) / info.bins)
  else (x - info.min) / ((info.max - info.min) / info.bins)

theorem edge_le_iff {info : HistInfo} (hi : info.Valid) {x t : ℝ} (hx : info.isLog = true → 0 < x) :
    edge info t ≤ x ↔ t ≤ pos info x := by
  have hb : (0 : ℝ) < info.bins := by exact_mod_cast hi.bins
  unfold edge pos
  by_cases h : info.isLog = true
  · rw [if_pos h, if_pos h]
    have hm := hi.pos h
    have hM : 0 < info.max := hm.trans hi.lt
    have hx := hx h
    have hlt : log10 info.min < log10 info.max := Real.logb_lt_logb (by norm_num) hm hi.lt
    have hp : 0 < info.min * (info.max / info.min) ^ (t / info.bins) :=
      mul_pos hm (Real.rpow_pos_of_pos (div_pos hM hm) _)
    have e : Real.logb 10 (info.min * (info.max / info.min) ^ (t / info.bins)) =
        log10 info.min + t / info.bins * (log10 info.max - log10 info.min) := by
      rw [Real.logb_mul hm.ne' (Real.rpow_pos_of_pos (div_pos hM hm) _).ne',
        Real.logb_rpow_eq_mul_logb_of_pos (div_pos hM hm), Real.logb_div hM.ne' hm.ne']
      rfl
    rw [← Real.logb_le_logb (b := 10) (by norm_num) hp hx, e, le_div_iff₀ (div_pos (sub_pos.mpr hlt) hb),
      show t * ((log10 info.max - log10 info.min) / info.bins) =
        t / info.bins * (log10 info.max - log10 info.min) by ring]
    show _ ≤ log10 x ↔ _
    constructor <;> intro h <;> linarith
  · rw [if_neg h, if_neg h, le_div_iff₀ (div_pos (sub_pos.mpr hi.lt) hb),
      show t * ((info.max - info.min) / info.bins) = (info.max - info.min) * (t / info.bins) by ring]
    constructor <;> intro h <;> linarith

theorem edge_zero {info : HistInfo} : edge info 0 = info.min := by
  unfold edge
  split_ifs <;> simp

theorem edge_bins {info : HistInfo} (hi : info.Valid) : edge info info.bins = info.max := by
  have hb : (info.bins : ℝ) ≠ 0 := by exact_mod_cast hi.bins.ne'
  unfold edge
  split_ifs with h
  · have := (hi.pos h).ne'
    rw [div_self hb, Real.rpow_one]
    field_simp
  · rw [div_self hb]; ring

theorem edge_pos {info : HistInfo} (hi : info.Valid) (h : info.isLog = true) (t : ℝ) : 0 < edge info t := by
  unfold edge
  rw [if_pos h]
  have hm := hi.pos h
  exact mul_pos hm (Real.rpow_pos_of_pos (div_pos (hm.trans hi.lt) hm) _)

theorem inBin_iff {info : HistInfo} (hi : info.Valid) {x : ℝ} (hx : info.isLog = true → 0 < x) (j : ℤ) :
    InBin info j x ↔ ⌊pos info x⌋ = j := by
  unfold InBin
  rw [edge_le_iff hi hx, ← not_le, edge_le_iff hi hx, not_le, Int.floor_eq_iff]

/-- The bins cover `[min, max)` without gaps or overlaps. -/
theorem C59_bins {info : HistInfo} (hi : info.Valid) (x : ℝ) :
    (info.min ≤ x ∧ x < info.max → ∃! j : ℤ, (0 ≤ j ∧ j < info.bins) ∧ InBin info j x) ∧
      ((∃ j : ℤ, (0 ≤ j ∧ j < info.bins) ∧ InBin info j x) → info.min ≤ x ∧ x < info.max) := by
  have rng : ∀ (hx : info.isLog = true → 0 < x),
      (info.min ≤ x ↔ 0 ≤ ⌊pos info x⌋) ∧ (x < info.max ↔ ⌊pos info x⌋ < info.bins) := by
    intro hx
    constructor
    · rw [← edge_zero (info := info), edge_le_iff hi hx, Int.floor_nonneg]
    · rw [← edge_bins hi, ← not_le, edge_le_iff hi hx, not_le, Int.floor_lt]
      push_cast
      rfl
  constructor
  · intro h
    have hx : info.isLog = true → 0 < x := fun hl => (hi.pos hl).trans_le h.1
    refine ⟨⌊pos info x⌋, ⟨⟨((rng hx).1).mp h.1, ((rng hx).2).mp h.2⟩, (inBin_iff hi hx _).mpr rfl⟩, ?_⟩
    rintro j ⟨_, hj⟩
    exact ((inBin_iff hi hx j).mp hj).symm
  · rintro ⟨j, hj, hb⟩
    have hx : info.isLog = true → 0 < x := fun hl => (edge_pos hi hl _).trans_le hb.1
    have := (inBin_iff hi hx j).mp hb
    rw [(rng hx).1, (rng hx).2, this]
    exact hj

/-- A parameter set used in the examples: ten logarithmic bins from 1/100 to 1000. -/
noncomputable def exInfo : HistInfo := ⟨1 / 100, 1000, 10, true⟩

theorem exInfo_valid : exInfo.Valid := ⟨by norm_num [exInfo], by norm_num [exInfo], by norm_num [exInfo]⟩

example : ∃! j : ℤ, (0 ≤ j ∧ j < exInfo.bins) ∧ InBin exInfo j 5 :=
  (C59_bins exInfo_valid 5).1 ⟨by norm_num [exInfo], by norm_num [exInfo]⟩

theorem truncR_of_nonneg {x : ℝ} (h : 0 ≤ x) : truncR x = ⌊x⌋ := if_pos h

open Classical in
theorem histogram_adds {info : HistInfo} (hi : info.Valid) {xs : List ℝ} {ok : List Bool}
    (hlen : xs.length ≤ ok.length)
    (hneg : info.isLog = true → ∀ i < xs.length, ok.getD i false = true → 0 ≤ xs.getD i 0) :
    Adds info.bins (histogram info xs ok) (fun j => inBinCount info j xs ok) := by
  have hb : (0 : ℝ) < info.bins := by exact_mod_cast hi.bins
  have rok : ∀ i : ℕ, i < xs.length → rd ok (i : ℤ) = some (ok.getD i false) := by
    intro i h
    rw [rd_natCast, List.getD, List.getElem?_eq_getElem (by omega)]
    rfl
  have rxs : ∀ i : ℕ, i < xs.length → rd xs (i : ℤ) = some (xs.getD i 0) := by
    intro i h
    rw [rd_natCast, List.getD, List.getElem?_eq_getElem h]
    rfl
  have hsum : ∀ j : ℤ, ∑ i ∈ Finset.Ico (0 : ℤ) xs.length,
      tally info j (xs.getD i.toNat 0) (ok.getD i.toNat false) =
      inBinCount info j xs ok := by
    intro j
    unfold inBinCount
    refine Finset.sum_bij (fun i _ => i.toNat) ?_ ?_ ?_ ?_
    · intro a ha
      rw [Finset.mem_Ico] at ha
      rw [Finset.mem_range]; omega
    · intro a ha b hb e
      rw [Finset.mem_Ico] at ha hb
      omega
    · intro a ha
      rw [Finset.mem_range] at ha
      exact ⟨a, by rw [Finset.mem_Ico]; omega, by simp⟩
    · intro a _; rfl
  -- one value that is not skipped for being non-positive
  have one : ∀ x : ℝ, (info.isLog = true → 0 < x) →
      Adds (M := ℤ) info.bins
        (fun counts => if pos info x < 0 ∨ pos info x ≥ info.bins then some counts
          else accum counts (truncR (pos info x)) 1)
        (fun j => if InBin info j x then 1 else 0) := by
    intro x hx
    by_cases h : pos info x < 0 ∨ pos info x ≥ info.bins
    · simp only [if_pos h]
      refine adds_congr (adds_skip _) fun j h0 h1 => ?_
      rw [if_neg]
      rw [inBin_iff hi hx]
      intro e
      rcases h with h | h
      · have : ⌊pos info x⌋ < 0 := Int.floor_lt.mpr (by simpa using h)
        omega
      · have : (info.bins : ℤ) ≤ ⌊pos info x⌋ := Int.le_floor.mpr (by push_cast; exact h)
        omega
    · simp only [if_neg h]
      push Not at h
      rw [truncR_of_nonneg h.1]
      refine adds_congr (adds_accum (Int.floor_nonneg.mpr h.1) (Int.floor_lt.mpr (by push_cast; exact h.2)) 1) ?_
      intro j _ _
      rw [inBin_iff hi hx]
      simp only [eq_comm]
  by_cases hl : info.isLog = true
  · unfold histogram
    simp only [if_pos hl]
    refine adds_congr (adds_forRange (G := fun i j =>
      tally info j (xs.getD i.toNat 0) (ok.getD i.toNat false)) ?_) (fun j _ _ => hsum j)
    intro k h0 h1
    obtain ⟨i, rfl⟩ := Int.eq_ofNat_of_zero_le h0
    have hi' : i < xs.length := by omega
    rw [rok i hi', rxs i hi']
    simp only [Option.bind_eq_bind, Option.bind_some, Int.toNat_natCast]
    by_cases ho : ok.getD i false = false
    · simp only [if_pos ho]
      exact adds_congr (adds_skip _) fun j _ _ => by rw [ho]; simp [tally]
    · simp only [if_neg ho]
      rw [Bool.not_eq_false] at ho
      have hn := hneg hl i hi' ho
      generalize xs.getD i 0 = x at *
      simp only [if_neg (not_lt.mpr hn), ho, true_and, tally]
      by_cases hx0 : x = 0
      · simp only [if_pos hx0]
        refine adds_congr (adds_skip _) fun j _ _ => ?_
        rw [if_neg]
        rintro ⟨h, _⟩
        have := edge_pos hi hl (j : ℝ)
        linarith
      · simp only [if_neg hx0]
        have hx : info.isLog = true → 0 < x := fun _ => lt_of_le_of_ne hn (Ne.symm hx0)
        have e : pos info x = (log10 x - log10 info.min) / ((log10 info.max - log10 info.min) / info.bins) := if_pos hl
        have := one x hx
        rw [e] at this
        exact this
  · unfold histogram
    simp only [if_neg hl]
    refine adds_congr (adds_forRange (G := fun i j =>
      tally info j (xs.getD i.toNat 0) (ok.getD i.toNat false)) ?_) (fun j _ _ => hsum j)
    intro k h0 h1
    obtain ⟨i, rfl⟩ := Int.eq_ofNat_of_zero_le h0
    have hi' : i < xs.length := by omega
    rw [rok i hi', rxs i hi']
    simp only [Option.bind_eq_bind, Option.bind_some, Int.toNat_natCast]
    by_cases ho : ok.getD i false = false
    · simp only [if_pos ho]
      exact adds_congr (adds_skip _) fun j _ _ => by rw [ho]; simp [tally]
    · simp only [if_neg ho]
      rw [Bool.not_eq_false] at ho
      generalize xs.getD i 0 = x at *
      simp only [ho, true_and, tally]
      have e : pos info x = (x - info.min) / ((info.max - info.min) / info.bins) := if_neg hl
      have := one x (fun h => absurd h hl)
      rw [e] at this
      exact this

/-- Histogramming a list of values: every flagged value increments the bin that contains it and nothing else happens.
With logarithmic scale no flagged value may be negative; the wanted statement has no such condition. -/
theorem C59_histogram_partial {info : HistInfo} (hi : info.Valid) {xs : List ℝ} {ok : List Bool} {counts : List ℤ}
    (hlen : xs.length ≤ ok.length) (hc : counts.length = info.bins)
    (hneg : info.isLog = true → ∀ i < xs.length, ok.getD i false = true → 0 ≤ xs.getD i 0) :
    ∃ out, histogram info xs ok counts = some out ∧ out.length = info.bins ∧
      ∀ (j : ℤ) (v : ℤ), 0 ≤ j → j < info.bins → rd counts j = some v → rd out j = some (v + inBinCount info j xs ok) := by
  obtain ⟨ys, e, hl, hy⟩ := (histogram_adds hi hlen hneg).run counts (by exact_mod_cast hc)
  exact ⟨ys, e, by omega, hy⟩

example : ∃ out, histogram exInfo [5, 0, 2000, 1 / 2] [true, true, true, false] (List.replicate 10 0) = some out ∧
    out.length = 10 :=
  let ⟨o, h, l, _⟩ := C59_histogram_partial (counts := List.replicate 10 0) (xs := [5, 0, 2000, 1 / 2])
    (ok := [true, true, true, false]) exInfo_valid (by simp) (by simp [exInfo]) (by
      intro _ i hi' _
      have : i < 4 := hi'
      rcases i with _ | _ | _ | _ | i
      · norm_num
      · norm_num
      · norm_num
      · norm_num
      · omega)
  ⟨o, h, l⟩

/-- A single negative value stops the program when the scale is logarithmic. -/
theorem C59_histogram_counterexample {info : HistInfo} (hl : info.isLog = true) {x : ℝ} (hx : x < 0)
    (counts : List ℤ) : histogram info [x] [true] counts = none := by
  unfold histogram
  rw [if_pos hl]
  dsimp only
  rw [show (([x] : List ℝ).length : ℤ) = 0 + 1 from rfl, forRange_step (by norm_num)]
  simp [rd, hx]

example : histogram exInfo [-1] [true] (List.replicate 10 0) = none := C59_histogram_counterexample rfl (by norm_num) _

/-- The bin centres: the middle of each bin (the geometric middle for logarithmic scale), inside the bin. -/
theorem C59_centers {info : HistInfo} (hi : info.Valid) :
    (histCenters info).length = info.bins ∧
      ∀ (j : ℕ) (c : ℝ), (histCenters info)[j]? = some c → c = edge info (j + 1 / 2) ∧ InBin info j c := by
  have hb : (0 : ℝ) < info.bins := by exact_mod_cast hi.bins
  have hlen : (histCenters info).length = info.bins := by simp [histCenters]
  refine ⟨hlen, ?_⟩
  intro j c hc
  have hj : j < info.bins := by rw [← hlen]; exact (List.getElem?_eq_some_iff.mp hc).1
  have e : c = edge info (j + 1 / 2) := by
    unfold histCenters at hc
    rw [List.getElem?_map, List.getElem?_range hj] at hc
    have hc := (Option.some.inj hc).symm
    rw [hc]
    unfold edge
    dsimp only
    by_cases h : info.isLog = true
    · simp only [if_pos h]
      have hm := hi.pos h
      have hM : 0 < info.max := hm.trans hi.lt
      rw [Real.rpow_add (by norm_num)]
      congr 1
      · exact Real.rpow_logb (by norm_num) (by norm_num) hm
      · rw [show (log10 info.max - log10 info.min) / info.bins * ((j : ℝ) + 1 / 2) =
          (log10 info.max - log10 info.min) * (((j : ℝ) + 1 / 2) / info.bins) by ring, Real.rpow_mul (by norm_num)]
        congr 1
        unfold log10
        rw [← Real.logb_div hM.ne' hm.ne']
        exact Real.rpow_logb (by norm_num) (by norm_num) (div_pos hM hm)
    · simp only [if_neg h]
      ring
  refine ⟨e, ?_⟩
  have hp : info.isLog = true → 0 < c := fun h => by rw [e]; exact edge_pos hi h _
  have hpos : ∀ t, edge info t ≤ c ↔ t ≤ (j : ℝ) + 1 / 2 := by
    intro t
    rw [edge_le_iff hi hp]
    have h1 : (j : ℝ) + 1 / 2 ≤ pos info c := (edge_le_iff hi hp).mp e.ge
    have h2 : pos info c ≤ (j : ℝ) + 1 / 2 := by
      by_contra h
      have hlt : edge info (((j : ℝ) + 1 / 2 + pos info c) / 2) ≤ c := (edge_le_iff hi hp).mpr (by linarith)
      have hlt' : edge info (pos info c) ≤ edge info (j + 1 / 2) := e ▸ (edge_le_iff hi hp).mpr le_rfl
      have hp2 : info.isLog = true → 0 < edge info (pos info c) := fun h => edge_pos hi h _
      -- strictly increasing positions have strictly increasing edges
      unfold edge at hlt'
      by_cases hl : info.isLog = true
      · rw [if_pos hl, if_pos hl] at hlt'
        have hm := hi.pos hl
        have h3 := le_of_mul_le_mul_left hlt' hm
        have h4 := (Real.rpow_le_rpow_left_iff (by rw [one_lt_div hm]; exact hi.lt)).mp h3
        have := (div_le_div_iff_of_pos_right hb).mp h4
        linarith
      · rw [if_neg hl, if_neg hl] at hlt'
        have h3 : (info.max - info.min) * (pos info c / info.bins) ≤
          (info.max - info.min) * ((j + 1 / 2) / info.bins) := by linarith
        have h4 := le_of_mul_le_mul_left h3 (sub_pos.mpr hi.lt)
        have := (div_le_div_iff_of_pos_right hb).mp h4
        linarith
    rw [le_antisymm h2 h1]
  unfold InBin
  rw [hpos, ← not_le, hpos]
  push_cast
  constructor <;> linarith

example : ∃ c, (histCenters exInfo)[3]? = some c ∧ InBin exInfo 3 c := by
  have h : 3 < (histCenters exInfo).length := by rw [(C59_centers exInfo_valid).1]; norm_num [exInfo]
  exact ⟨_, List.getElem?_eq_getElem h, ((C59_centers exInfo_valid).2 3 _ (List.getElem?_eq_getElem h)).2⟩

/-! ## Merging -/

theorem adds_foldlM {α : Type} {n : ℤ} (l : List α) {body : List ℤ → α → Option (List ℤ)} {G : α → ℤ → ℤ}
    (h : ∀ a ∈ l, Adds n (fun xs => body xs a) (G a)) :
    Adds n (fun xs => l.foldlM body xs) (fun i => (l.map fun a => G a i).sum) := by
  induction l with
  | nil =>
    refine adds_congr (adds_skip n) fun i _ _ => by simp
  | cons a l ih =>
    intro xs F hF
    obtain ⟨ys, e, hy⟩ := h a (by simp) xs F hF
    obtain ⟨zs, e', hz⟩ := ih (fun b hb => h b (by simp [hb])) ys _ hy
    refine ⟨zs, ?_, ?_⟩
    · dsimp only
      rw [List.foldlM_cons]
      exact bind_of e e'
    · simpa [add_assoc] using hz

/-- Number of values the cube contributes to bin `j`. -/
noncomputable def cubeCount (info : HistInfo) (hits : ℤ → Bool) (draw : ℤ → ℤ → List ℝ × List Bool) (j idx : ℤ) : ℤ :=
  if hits idx then ∑ dir ∈ Finset.Ico (0 : ℤ) 6, inBinCount info j (draw idx dir).1 (draw idx dir).2 else 0

theorem workerHist_spec {info : HistInfo} (hi : info.Valid) {hits : ℤ → Bool} {draw : ℤ → ℤ → List ℝ × List Bool}
    {visits : List ℤ} (hlen : ∀ idx ∈ visits, ∀ dir, (draw idx dir).1.length ≤ (draw idx dir).2.length)
    (hneg : info.isLog = true → ∀ idx ∈ visits, ∀ dir, ∀ i < (draw idx dir).1.length,
      (draw idx dir).2.getD i false = true → 0 ≤ (draw idx dir).1.getD i 0) :
    ∃ h, workerHist info (fun idx => some (hits idx)) draw visits = some h ∧
      Cells info.bins h (fun j => (visits.map fun idx => cubeCount info hits draw j idx).sum) := by
  have key := adds_foldlM (n := info.bins) visits (body := fun hist (idx : ℤ) =>
      (some (hits idx)).bind fun h => if h = false then some hist
        else forRange 0 6 (fun dir hist => histogram info (draw idx dir).1 (draw idx dir).2 hist) hist)
    (G := fun idx j => cubeCount info hits draw j idx) (by
      intro idx hidx
      unfold cubeCount
      simp only [Option.bind_some]
      cases hh : hits idx with
      | false =>
        refine adds_congr (adds_skip _) fun j _ _ => by simp
      | true =>
        simp only [Bool.true_eq_false, if_false, if_true]
        exact adds_forRange fun dir _ _ => histogram_adds hi (hlen idx hidx dir)
          (fun hl i hi' ho => hneg hl idx hidx dir i hi' ho))
  obtain ⟨ys, e, hy⟩ := key (List.replicate info.bins 0) _ (cells_zero info.bins)
  refine ⟨ys, e, ?_⟩
  simpa using hy

/-- What one file adds to the counts of a box, with subsampling length 1, any number of workers and any order of
finishing: for every bin the number of flagged values of that bin over all cubes of the sheet that pass the cube filter,
each cube with all six directions, once. `draw` stands for the random points drawn in each tetrahedron; no flagged value
may be negative on a logarithmic scale. -/
theorem C59_merge {info : HistInfo} (hi : info.Valid) {segWidth : ℤ} {workers : ℕ} (hseg : 0 ≤ segWidth)
    (hw : 0 < workers) {hits : ℤ → Bool} {draw : ℤ → ℤ → List ℝ × List Bool}
    (hlen : ∀ idx dir, (draw idx dir).1.length ≤ (draw idx dir).2.length)
    (hneg : info.isLog = true → ∀ idx dir, ∀ i < (draw idx dir).1.length,
      (draw idx dir).2.getD i false = true → 0 ≤ (draw idx dir).1.getD i 0)
    {counts : List ℤ} (hc : counts.length = info.bins) :
    ∃ hists : ℕ → List ℤ,
      (∀ w < workers, workerHist info (fun idx => some (hits idx)) draw
        (histVisits segWidth (segWidth + 1) 1 workers w) = some (hists w)) ∧
      ∀ order : List ℕ, order.Perm (List.range workers) →
        ∃ out, mergeHists info.bins hists order counts = some out ∧ out.length = info.bins ∧
          ∀ j v : ℤ, 0 ≤ j → j < info.bins → rd counts j = some v →
            rd out j = some (v + ∑ z ∈ Finset.Ico 0 segWidth, ∑ y ∈ Finset.Ico 0 segWidth, ∑ x ∈ Finset.Ico 0 segWidth,
              cubeCount info hits draw j (x + y * (segWidth + 1) + z * (segWidth + 1) * (segWidth + 1))) := by
  have hw' : (0 : ℤ) < workers := by exact_mod_cast hw
  have hex : ∀ w : ℕ, ∃ h, workerHist info (fun idx => some (hits idx)) draw
      (histVisits segWidth (segWidth + 1) 1 workers w) = some h ∧
      Cells info.bins h (fun j => ((histVisits segWidth (segWidth + 1) 1 workers w).map
        fun idx => cubeCount info hits draw j idx).sum) := fun w =>
    workerHist_spec hi (fun idx _ dir => hlen idx dir) (fun hl idx _ dir => hneg hl idx dir)
  choose hists h1 h2 using hex
  refine ⟨hists, fun w _ => h1 w, ?_⟩
  intro order hperm
  have key := adds_foldlM (n := info.bins) order (body := fun counts (id : ℕ) =>
      forRange 0 info.bins (fun j counts => do
        let v ← rd (hists id) j
        accum counts j v) counts)
    (G := fun id j => ((histVisits segWidth (segWidth + 1) 1 workers id).map
        fun idx => cubeCount info hits draw j idx).sum) (by
      intro id _
      refine adds_congr (adds_forRange (G := fun k i => if i = k then ((histVisits segWidth (segWidth + 1) 1 workers
        id).map fun idx => cubeCount info hits draw k idx).sum else 0) ?_) ?_
      · intro k k0 k1
        have := (h2 id).2 k k0 k1
        rw [this]
        exact adds_accum k0 k1 _
      · intro i i0 i1
        rw [Finset.sum_ite_eq, if_pos (Finset.mem_Ico.mpr ⟨i0, i1⟩)])
  obtain ⟨ys, e, hl, hy⟩ := key.run counts (by exact_mod_cast hc)
  refine ⟨ys, e, by omega, ?_⟩
  intro j v j0 j1 hv
  rw [hy j v j0 j1 hv]
  congr 2
  rw [(hperm.map _).sum_eq]
  -- all cubes, split by worker
  set f : ℤ → ℤ := fun idx => cubeCount info hits draw j idx with hf
  have mul1 : (1 : ℤ) * 1 * 1 * workers = workers := by ring
  set C : Finset (ℤ × ℤ × ℤ) := Finset.Ico 0 segWidth ×ˢ Finset.Ico 0 segWidth ×ˢ Finset.Ico 0 segWidth with hC
  set g : ℤ × ℤ × ℤ → ℤ := fun p => p.2.2 + p.2.1 * (segWidth + 1) + p.1 * (segWidth + 1) * (segWidth + 1) with hg
  have hinj : Set.InjOn g C := by
    rintro ⟨z, y, x⟩ hp ⟨z', y', x'⟩ hp' e
    rw [hC] at hp hp'
    simp only [Finset.coe_product, Set.mem_prod, Finset.coe_Ico, Set.mem_Ico] at hp hp'
    obtain ⟨rfl, rfl, rfl⟩ := cube_inj ⟨hp.2.2.1, by omega⟩ ⟨hp.2.1.1, by omega⟩ ⟨hp'.2.2.1, by omega⟩
      ⟨hp'.2.1.1, by omega⟩ e
    rfl
  have hall : ∑ z ∈ Finset.Ico 0 segWidth, ∑ y ∈ Finset.Ico 0 segWidth, ∑ x ∈ Finset.Ico 0 segWidth,
      cubeCount info hits draw j (x + y * (segWidth + 1) + z * (segWidth + 1) * (segWidth + 1)) =
      ∑ idx ∈ C.image g, f idx := by
    rw [Finset.sum_image hinj, hC, Finset.sum_product]
    refine Finset.sum_congr rfl fun z _ => ?_
    rw [Finset.sum_product]
  have hpart : ∀ w : ℕ, ((histVisits segWidth (segWidth + 1) 1 workers w).map f).sum =
      ∑ idx ∈ (C.image g).filter (fun idx => idx % (workers : ℤ) = (w : ℤ)), f idx := by
    intro w
    rw [← List.sum_toFinset f (histVisits_nodup (by norm_num))]
    refine Finset.sum_congr ?_ fun _ _ => rfl
    ext idx
    rw [List.mem_toFinset, mem_histVisits (by norm_num) hw' hseg, mul1, Finset.mem_filter, Finset.mem_image]
    refine and_congr_left fun _ => ?_
    constructor
    · rintro ⟨x, y, z, ⟨⟨hx, hy, hz⟩, _⟩, rfl⟩
      refine ⟨(z, y, x), ?_, rfl⟩
      rw [hC]
      simp only [Finset.mem_product, Finset.mem_Ico]
      exact ⟨hz, hy, hx⟩
    · rintro ⟨⟨z, y, x⟩, hp, rfl⟩
      rw [hC] at hp
      simp only [Finset.mem_product, Finset.mem_Ico] at hp
      exact ⟨x, y, z, ⟨⟨hp.2.2, hp.2.1, hp.1⟩, one_dvd _, one_dvd _, one_dvd _⟩, rfl⟩
  rw [hall]
  have : ((List.range workers).map fun (a : ℕ) =>
      ((histVisits segWidth (segWidth + 1) 1 workers a).map fun idx => cubeCount info hits draw j idx).sum) =
      (List.range workers).map fun (a : ℕ) => ∑ idx ∈ (C.image g).filter (fun idx => idx % (workers : ℤ) = (a : ℤ)), f idx :=
    List.map_congr_left fun w _ => hpart w
  rw [this]
  show ∑ a ∈ Finset.range workers, ∑ idx ∈ (C.image g).filter (fun idx => idx % (workers : ℤ) = (a : ℤ)), f idx = _
  rw [← Finset.sum_fiberwise_of_maps_to (s := C.image g) (t := Finset.range workers)
    (g := fun idx => (idx % (workers : ℤ)).toNat) (f := f)]
  · refine Finset.sum_congr rfl fun a _ => Finset.sum_congr ?_ fun _ _ => rfl
    refine Finset.filter_congr fun idx _ => ?_
    have := Int.emod_nonneg idx hw'.ne'
    omega
  · intro idx _
    have := Int.emod_nonneg idx hw'.ne'
    have := Int.emod_lt_of_pos idx hw'
    rw [Finset.mem_range]
    omega

/-- A two-cube-wide sheet, three workers finishing in the order 2, 0, 1, one sample per tetrahedron. -/
example : ∃ (hists : ℕ → List ℤ) (out : List ℤ), mergeHists 10 hists [2, 0, 1] (List.replicate 10 0) = some out ∧
    out.length = 10 := by
  obtain ⟨hists, _, h⟩ := C59_merge (segWidth := 2) (workers := 3) (hits := fun _ => true)
    (draw := fun idx dir => ([(idx + dir : ℝ) ^ 2], [true])) (counts := List.replicate 10 0)
    exInfo_valid (by norm_num) (by norm_num) (fun _ _ => le_rfl)
    (by intro _ idx dir i hi' _; have : i = 0 := by simpa using hi'
        subst this; exact sq_nonneg _) (by simp [exInfo])
  obtain ⟨out, e, l, _⟩ := h [2, 0, 1] (by decide)
  exact ⟨hists, out, e, l⟩

end Verif.Hist
