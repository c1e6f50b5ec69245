import Verif.Py.ThetaModel
import Verif.Fp.Rand
import Mathlib.Data.List.GetD
import Mathlib.Data.List.Perm.Basic
import Mathlib.Tactic.Linarith
import Mathlib.Tactic.Ring
import Mathlib.Tactic.FieldSimp
import Mathlib.Tactic.Positivity

/-!
# Every point is in the bin of its angle
-/

set_option autoImplicit false

namespace Verif.Py

open Verif.Go Verif.Fp

/-- The angle `θ`, up to whole turns of `w`, lies in sector `k` of `bins`. -/
def InSector (w : ℚ) (bins k : Nat) (θ : ℚ) : Prop :=
  ∃ m : ℤ, k * (w / bins) ≤ θ - m * w ∧ θ - m * w < (k + 1) * (w / bins)

theorem pyMod_exact {w : ℚ} (hw : 0 < w) (x : ℚ) : ∃ m : ℤ, pyMod id x w = x - m * w ∧ 0 ≤ pyMod id x w ∧ pyMod id x w < w := by
  unfold pyMod
  have hx : x = x / w * w := by field_simp
  by_cases h0 : 0 ≤ x
  · have h1 := Int.floor_le (x / w)
    have h2 := Int.lt_floor_add_one (x / w)
    have h3 : (⌊x / w⌋ : ℚ) * w ≤ x := by rw [← le_div_iff₀ hw]; exact h1
    have h4 : x < (⌊x / w⌋ + 1 : ℚ) * w := by rw [← div_lt_iff₀ hw]; exact h2
    simp only [h0, if_true]
    rw [if_neg (by linarith)]
    exact ⟨⌊x / w⌋, by ring, by linarith, by linarith⟩
  · have h1 := Int.le_ceil (x / w)
    have h2 := Int.ceil_lt_add_one (x / w)
    have h3 : x ≤ (⌈x / w⌉ : ℚ) * w := by rw [← div_le_iff₀ hw]; exact h1
    have h4 : ((⌈x / w⌉ : ℚ) - 1) * w < x := by rw [← lt_div_iff₀ hw]; linarith
    simp only [h0, if_false, id]
    split_ifs with hr
    · exact ⟨⌈x / w⌉ - 1, by push_cast; ring, by linarith, by linarith⟩
    · exact ⟨⌈x / w⌉, by ring, by linarith, by linarith⟩

theorem thetaIdx_sector {w : ℚ} (hw : 0 < w) {bins : Nat} (hb : 0 < bins) (θ : ℚ) :
    ∃ k : Nat, k < bins ∧ thetaIdx id w bins θ = k ∧ InSector w bins k θ := by
  obtain ⟨m, e, h0, h1⟩ := pyMod_exact hw θ
  have hb' : (0 : ℚ) < bins := by exact_mod_cast hb
  have hd : 0 < w / bins := by positivity
  have hq0 : 0 ≤ pyMod id θ w / (w / bins) := by positivity
  have hq1 : pyMod id θ w / (w / bins) < bins := by
    rw [div_lt_iff₀ hd]; calc pyMod id θ w < w := h1
      _ = bins * (w / bins) := by field_simp
  have hf0 : 0 ≤ ⌊pyMod id θ w / (w / bins)⌋ := Int.floor_nonneg.mpr hq0
  refine ⟨⌊pyMod id θ w / (w / bins)⌋.toNat, ?_, ?_, m, ?_, ?_⟩
  · have : ⌊pyMod id θ w / (w / bins)⌋ < bins := by rw [Int.floor_lt]; exact_mod_cast hq1
    omega
  · simp only [thetaIdx, id]; omega
  · have hc : ((⌊pyMod id θ w / (w / bins)⌋.toNat : ℕ) : ℚ) = (⌊pyMod id θ w / (w / bins)⌋ : ℚ) := by
      exact_mod_cast Int.toNat_of_nonneg hf0
    rw [hc, ← e, ← le_div_iff₀ hd]; exact Int.floor_le _
  · have hc : ((⌊pyMod id θ w / (w / bins)⌋.toNat : ℕ) : ℚ) = (⌊pyMod id θ w / (w / bins)⌋ : ℚ) := by
      exact_mod_cast Int.toNat_of_nonneg hf0
    rw [hc, ← e, ← div_lt_iff₀ hd]; exact Int.lt_floor_add_one _

/-- The sectors do not overlap. -/
theorem inSector_unique {w : ℚ} (hw : 0 < w) {bins : Nat} {k l : Nat} (hk : k < bins) (hl : l < bins) {θ : ℚ}
    (h : InSector w bins k θ) (h' : InSector w bins l θ) : k = l := by
  obtain ⟨m, a, b⟩ := h
  obtain ⟨n, c, d⟩ := h'
  have hb' : (0 : ℚ) < bins := by exact_mod_cast (by omega : 0 < bins)
  have hd : 0 < w / bins := by positivity
  have hwb : w = bins * (w / bins) := by field_simp
  set δ := w / bins
  rw [hwb] at a b c d
  have e1 : ((k : ℤ) + m * bins : ℤ) < (l : ℤ) + 1 + n * bins := by
    have : ((k : ℚ) + m * bins) * δ < (l + 1 + n * bins) * δ := by nlinarith
    have := lt_of_mul_lt_mul_right this hd.le
    exact_mod_cast this
  have e2 : ((l : ℤ) + n * bins : ℤ) < (k : ℤ) + 1 + m * bins := by
    have : ((l : ℚ) + n * bins) * δ < (k + 1 + m * bins) * δ := by nlinarith
    have := lt_of_mul_lt_mul_right this hd.le
    exact_mod_cast this
  have e3 : (k : ℤ) + m * bins = l + n * bins := by omega
  have e4 : ((m - n) * bins : ℤ) = l - k := by linarith
  have e5 : m - n = 0 := by
    by_contra hne
    rcases lt_or_gt_of_ne hne with hlt | hgt
    · have : (m - n) * (bins : ℤ) ≤ (-1) * bins := mul_le_mul_of_nonneg_right (by omega) (by omega)
      omega
    · have : 1 * (bins : ℤ) ≤ (m - n) * bins := mul_le_mul_of_nonneg_right (by omega) (by omega)
      omega
  rw [e5] at e4; omega

/-- A sector is made of the two halves next to each other. -/
theorem inSector_halves {w : ℚ} {bins k : Nat} (hb : 0 < bins) {θ : ℚ} :
    InSector w bins k θ ↔ InSector w (2 * bins) (2 * k) θ ∨ InSector w (2 * bins) (2 * k + 1) θ := by
  have hb' : (0 : ℚ) < bins := by exact_mod_cast hb
  have e : w / bins = 2 * (w / ((2 * bins : ℕ) : ℚ)) := by push_cast; field_simp
  unfold InSector
  rw [e]; push_cast
  set δ := w / (2 * bins : ℚ)
  constructor
  · rintro ⟨m, a, b⟩
    by_cases h : θ - m * w < (2 * k + 1) * δ
    · exact Or.inl ⟨m, by linarith, h⟩
    · exact Or.inr ⟨m, by linarith, by linarith⟩
  · rintro (⟨m, a, b⟩ | ⟨m, a, b⟩)
    · by_cases hδ : 0 ≤ δ
      · exact ⟨m, by linarith, by linarith⟩
      · exact absurd b (by push Not; nlinarith)
    · by_cases hδ : 0 ≤ δ
      · exact ⟨m, by linarith, by linarith⟩
      · exact absurd b (by push Not; nlinarith)

open Classical in
/-- The radii of the points in sector `k`, in their order. -/
noncomputable def sectorOf (w : ℚ) (bins k : Nat) (pts : List (ℚ × ℚ)) : List ℚ :=
  (pts.filter fun p => decide (InSector w bins k p.2)).map Prod.fst

/-- The radii of the points sent to bin `k` by `sec`, in their order. -/
def sentTo (sec : ℚ → Nat) (k : Nat) (pts : List (ℚ × ℚ)) : List ℚ := (pts.filter fun p => sec p.2 = k).map Prod.fst

theorem foldlM_theta {rnd : ℚ → ℚ} {w : ℚ} {bins : Nat} {sec : ℚ → Nat} (pts : List (ℚ × ℚ))
    (h : ∀ p ∈ pts, sec p.2 < bins ∧ thetaIdx rnd w bins p.2 = sec p.2) :
    pts.foldlM (thetaTurn rnd w bins) (List.replicate bins []) = some ((List.range bins).map fun k => sentTo sec k pts) := by
  induction pts using List.reverseRecOn with
  | nil =>
    simp only [List.foldlM_nil, sentTo, List.filter_nil, List.map_nil]
    change some _ = some _
    refine congrArg some (List.ext_getElem (by simp) ?_)
    intro i h1 h2; simp
  | append_singleton l p ih =>
    obtain ⟨hk, e⟩ := h p (by simp)
    have ih := ih fun q hq => h q (by simp [hq])
    rw [List.foldlM_append, ih]
    simp only [Option.bind_eq_bind, Option.bind_some, List.foldlM_cons, List.foldlM_nil, thetaTurn, e]
    have h1 : pyRd ((List.range bins).map fun k => sentTo sec k l) (sec p.2 : Int) = some (sentTo sec (sec p.2) l) := by
      unfold pyRd
      rw [if_neg (by omega), rd_natCast]
      simp [hk]
    have h2 : ∀ v, pyWr ((List.range bins).map fun k => sentTo sec k l) (sec p.2 : Int) v =
        some (((List.range bins).map fun k => sentTo sec k l).set (sec p.2) v) := by
      intro v
      unfold pyWr
      rw [if_neg (by omega)]
      exact wr_natCast (by simpa using hk)
    rw [h1]; simp only [Option.bind_some, h2]
    change some _ = some _
    refine congrArg some (List.ext_getElem (by simp) ?_)
    intro i h3 h4
    have hi : i < bins := by simpa using h4
    rw [List.getElem_set]
    simp only [List.getElem_map, List.getElem_range, sentTo, List.filter_append, List.map_append]
    split_ifs with hik
    · subst hik; simp
    · simp [hik]

/-- Property C168: without rounding every point is sorted into the bin of its angle, whatever turn it is on, the points of a
bin stay in order, and no point is lost. -/
theorem C168_bins {w : ℚ} (hw : 0 < w) {bins : Nat} (hb : 0 < bins) (rs thetas : List ℚ) :
    ∃ ptBins, binByThetas id w bins rs thetas = some ptBins ∧ ptBins.length = bins ∧
      (∀ k, k < bins → ptBins.getD k [] = sectorOf w bins k (rs.zip thetas)) ∧
      (∀ θ : ℚ, ∃! k, k < bins ∧ InSector w bins k θ) := by
  choose sec hsec using fun θ => thetaIdx_sector hw hb θ
  refine ⟨_, by unfold binByThetas; rw [if_neg (by omega)]; exact foldlM_theta (sec := sec) _ fun p _ => ⟨(hsec p.2).1, (hsec p.2).2.1⟩,
    by simp, ?_, ?_⟩
  · intro k hk; rw [List.getD_eq_getElem _ _ (by simpa using hk)]
    simp only [List.getElem_map, List.getElem_range, sentTo, sectorOf]
    congr 1
    refine List.filter_congr fun p _ => ?_
    simp only [decide_eq_decide]
    exact ⟨fun e => e ▸ (hsec p.2).2.2, fun hs => inSector_unique hw (hsec p.2).1 hk (hsec p.2).2.2 hs⟩
  · intro θ
    obtain ⟨k, hk, -, hs⟩ := thetaIdx_sector hw hb θ
    exact ⟨k, ⟨hk, hs⟩, fun l ⟨hl, hs'⟩ => inSector_unique hw hl hk hs' hs⟩

theorem filter_or_perm {α : Type} (p q r : α → Bool) (l : List α) (h : ∀ x ∈ l, p x = (q x || r x))
    (hd : ∀ x ∈ l, ¬ (q x = true ∧ r x = true)) : (l.filter p).Perm (l.filter q ++ l.filter r) := by
  induction l with
  | nil => simp
  | cons x l ih =>
    have ih := ih (fun y hy => h y (List.mem_cons_of_mem _ hy)) (fun y hy => hd y (List.mem_cons_of_mem _ hy))
    have hx := h x List.mem_cons_self
    have hdx := hd x List.mem_cons_self
    cases hq : q x <;> cases hr : r x <;> simp only [hq, hr] at hx hdx
    · simpa [List.filter_cons, hx, hq, hr] using ih
    · simp only [List.filter_cons, hx, hq, hr, Bool.or_true, if_true]
      exact (ih.cons x).trans List.perm_middle.symm
    · simpa [List.filter_cons, hx, hq, hr] using ih
    · simp at hdx

/-- Property C168: the points of a node of the tree of bins are those of its two children, nodes `2k` and `2k + 1` of the
level below. -/
theorem C168_children {w : ℚ} (hw : 0 < w) {bins : Nat} (hb : 0 < bins) (rs thetas : List ℚ) {coarse fine : List (List ℚ)}
    (hc : binByThetas id w bins rs thetas = some coarse) (hf : binByThetas id w (2 * bins) rs thetas = some fine) {k : Nat}
    (hk : k < bins) : (coarse.getD k []).Perm (fine.getD (2 * k) [] ++ fine.getD (2 * k + 1) []) := by
  obtain ⟨c, hc', -, hck, -⟩ := C168_bins hw hb rs thetas
  obtain ⟨f, hf', -, hfk, -⟩ := C168_bins hw (by omega : 0 < 2 * bins) rs thetas
  rw [hc] at hc'; rw [hf] at hf'
  obtain rfl := Option.some.inj hc'
  obtain rfl := Option.some.inj hf'
  rw [hck k hk, hfk _ (by omega), hfk _ (by omega)]
  classical
  unfold sectorOf
  rw [← List.map_append]
  refine List.Perm.map _ (filter_or_perm _ _ _ _ ?_ ?_)
  · intro x _; simp [inSector_halves hb]
  · rintro x _ ⟨h1, h2⟩
    have := inSector_unique hw (by omega) (by omega) (of_decide_eq_true h1) (of_decide_eq_true h2)
    omega

/-- Property C168: the angle given for a bin lies in it. -/
theorem C168_centres {w : ℚ} (hw : 0 < w) {bins k : Nat} (hk : k < bins) :
    InSector w bins k ((thetaCentres w bins).getD k 0) := by
  rw [List.getD_eq_getElem _ _ (by simpa [thetaCentres] using hk)]
  have hb' : (0 : ℚ) < bins := by exact_mod_cast (by omega : 0 < bins)
  have hd : 0 < w / bins := by positivity
  have e : (thetaCentres w bins)[k]'(by simpa [thetaCentres] using hk) = (k + 1 / 2) * (w / bins) := by
    simp only [thetaCentres, List.getElem_map, List.getElem_range]; ring
  rw [e]
  exact ⟨0, by push_cast; linarith, by push_cast; linarith⟩

example : binByThetas id 4 4 [1, 2, 3, 4] [1 / 2, -1 / 2, 5, 15 / 4] = some [[1], [3], [], [2, 4]] := by decide +kernel
example : binByThetas id 4 2 [1, 2, 3, 4] [1 / 2, -1 / 2, 5, 15 / 4] = some [[1, 3], [2, 4]] := by decide +kernel
example : thetaCentres 4 2 = [1, 3] := by decide +kernel

/-! ### With rounding -/

theorem twoPi_pos : 0 < twoPi := by norm_num [twoPi]

theorem twoPi_f64 : F64 twoPi := ⟨884279719003555, -47, by norm_num, by norm_num [twoPi, zpow_neg]⟩

/-- The float just below `2π`. -/
theorem twoPi_pred_f64 : F64 (twoPi - 1 / 2 ^ 50) := ⟨884279719003555 * 8 - 1, -50, by norm_num, by norm_num [twoPi, zpow_neg]⟩

/-- Property C168 is false with floats: an angle a little below 0 (here, -2⁻⁵⁵) is one whole turn after rounding, its bin
is one after the last, and the function raises. -/
theorem C168_counterexample :
    binByThetas f64 twoPi 8 [1] [-1 / 2 ^ 55] = none ∧ binByThetas id twoPi 8 [1] [-1 / 2 ^ 55] ≠ none := by
  decide +kernel

/-- The angle is not within 2⁻⁵⁰ below a whole number of turns. -/
def OffTurn (θ : ℚ) : Prop := ∀ m : ℤ, θ < m * twoPi → θ ≤ m * twoPi - 1 / 2 ^ 50

/-- Floats that are not negative are never that close. -/
theorem offTurn_nonneg {θ : ℚ} (hF : F64 θ) (h0 : 0 ≤ θ) : OffTurn θ := by
  intro m hm
  have hm1 : 1 ≤ m := by
    by_contra hlt
    have : (m : ℚ) ≤ 0 := by exact_mod_cast (by omega : m ≤ 0)
    have := mul_nonpos_of_nonpos_of_nonneg this twoPi_pos.le
    linarith
  by_cases h4 : θ < 4
  · have : (1 : ℚ) * twoPi ≤ m * twoPi := mul_le_mul_of_nonneg_right (by exact_mod_cast hm1) twoPi_pos.le
    have : (5 : ℚ) ≤ twoPi := by norm_num [twoPi]
    have : (1 : ℚ) / 2 ^ 50 ≤ 1 := by norm_num
    linarith
  · obtain ⟨k, hk⟩ := rep_multiple hF (E := 2) (by rw [abs_of_nonneg h0]; norm_num; linarith)
    have e : θ = k * (1 / 2 ^ 50) := by rw [hk]; norm_num [zpow_neg]
    have ew : (m : ℚ) * twoPi = (m * (884279719003555 * 8) : ℤ) * (1 / 2 ^ 50) := by push_cast; norm_num [twoPi]; ring
    rw [e, ew] at hm ⊢
    have h1 : (k : ℚ) < (m * (884279719003555 * 8) : ℤ) := lt_of_mul_lt_mul_right hm (by norm_num)
    have h2 : k + 1 ≤ m * (884279719003555 * 8) := by exact_mod_cast h1
    have h3 : ((k : ℚ) + 1) ≤ (m * (884279719003555 * 8) : ℤ) := by exact_mod_cast h2
    have h6 := mul_le_mul_of_nonneg_right h3 (by norm_num : (0 : ℚ) ≤ 1 / 2 ^ 50)
    rw [add_mul, one_mul] at h6
    linarith

/-- The angles of `np.arctan2` that are not within 2⁻⁵⁰ below 0. -/
theorem offTurn_neg {θ : ℚ} (h0 : -4 ≤ θ) (h1 : θ ≤ -1 / 2 ^ 50) : OffTurn θ := by
  intro m hm
  have h5 : (5 : ℚ) ≤ twoPi := by norm_num [twoPi]
  have hm0 : 0 ≤ m := by
    by_contra hlt
    have : (m : ℚ) ≤ -1 := by exact_mod_cast (by omega : m ≤ -1)
    have := mul_le_mul_of_nonneg_right this twoPi_pos.le
    linarith
  have : (0 : ℚ) ≤ m * twoPi := mul_nonneg (by exact_mod_cast hm0) twoPi_pos.le
  linarith

theorem pyMod_f64 {θ : ℚ} (h : OffTurn θ) : 0 ≤ pyMod f64 θ twoPi ∧ pyMod f64 θ twoPi ≤ twoPi - 1 / 2 ^ 50 ∧
    |pyMod f64 θ twoPi - pyMod id θ twoPi| ≤ twoPi / 2 ^ 53 := by
  obtain ⟨m, e, h0, h1⟩ := pyMod_exact twoPi_pos θ
  have h2 : pyMod id θ twoPi ≤ twoPi - 1 / 2 ^ 50 := by
    have := h (m + 1) (by push_cast; linarith)
    push_cast at this; linarith
  have hcase : pyMod f64 θ twoPi = f64 (pyMod id θ twoPi) ∨ pyMod f64 θ twoPi = pyMod id θ twoPi := by
    unfold pyMod
    simp only [id]
    split_ifs
    · exact Or.inl rfl
    · exact Or.inr rfl
    · exact Or.inl rfl
    · exact Or.inr rfl
  have hpos : (0 : ℚ) ≤ twoPi / 2 ^ 53 := by have := twoPi_pos; positivity
  rcases hcase with hc | hc
  · rw [hc]
    refine ⟨f64_nonneg h0, f64_le twoPi_pred_f64 h2, ?_⟩
    refine (rnd_err 53 _).trans ?_
    rw [abs_of_nonneg h0]
    exact div_le_div_of_nonneg_right h1.le (by norm_num)
  · rw [hc]; exact ⟨h0, h2, by simpa using hpos⟩

theorem thetaIdx_f64 (j : Nat) {θ : ℚ} (h : OffTurn θ) : ∃ k : Nat, k < 2 ^ j ∧ thetaIdx f64 twoPi (2 ^ j) θ = k ∧
    ∃ m : ℤ, k * (twoPi / 2 ^ j) - twoPi / 2 ^ 52 ≤ θ - m * twoPi ∧ θ - m * twoPi < (k + 1) * (twoPi / 2 ^ j) + twoPi / 2 ^ 52 := by
  obtain ⟨p0, p1, p2⟩ := pyMod_f64 h
  obtain ⟨m, e, -, -⟩ := pyMod_exact twoPi_pos θ
  have hwp := twoPi_pos
  have hd : f64 (twoPi / ((2 ^ j : ℕ) : ℚ)) = twoPi / 2 ^ j := by
    have := f64_of (rep_scale twoPi_f64 (-(j : ℤ)))
    rw [zpow_neg, zpow_natCast, ← div_eq_mul_inv] at this
    push_cast; exact this
  have hdp : (0 : ℚ) < twoPi / 2 ^ j := by positivity
  set δ : ℚ := twoPi / 2 ^ j with hδ
  have hwδ : twoPi = 2 ^ j * δ := by rw [hδ]; field_simp
  set pm := pyMod f64 θ twoPi
  have hq0 : 0 ≤ pm / δ := by positivity
  have hq1 : pm / δ ≤ (1 - 1 / 2 ^ 53) * 2 ^ j := by
    rw [div_le_iff₀ hdp, mul_assoc, ← hwδ]
    have : twoPi ≤ 8 := by norm_num [twoPi]
    linarith
  have hrep : F64 ((1 - 1 / 2 ^ 53) * 2 ^ j : ℚ) := by
    have : F64 ((1 - 1 / 2 ^ 53 : ℚ)) := ⟨2 ^ 53 - 1, -53, by norm_num, by norm_num [zpow_neg]⟩
    have := rep_scale this (j : ℤ)
    rwa [zpow_natCast] at this
  have hf0 : 0 ≤ f64 (pm / δ) := f64_nonneg hq0
  have hf1 : f64 (pm / δ) ≤ (1 - 1 / 2 ^ 53) * 2 ^ j := f64_le hrep hq1
  have h2j : (0 : ℚ) < 2 ^ j := by positivity
  have hk0 : 0 ≤ ⌊f64 (pm / δ)⌋ := Int.floor_nonneg.mpr hf0
  have hk1 : ⌊f64 (pm / δ)⌋ < 2 ^ j := by
    rw [Int.floor_lt]; push_cast; linarith
  have hc : ((⌊f64 (pm / δ)⌋.toNat : ℕ) : ℚ) = (⌊f64 (pm / δ)⌋ : ℚ) := by exact_mod_cast Int.toNat_of_nonneg hk0
  have herr := rnd_err 53 (pm / δ)
  rw [abs_of_nonneg hq0, abs_le] at herr
  have hq2 : pm / δ ≤ 2 ^ j := by linarith
  have hpm : pm = pm / δ * δ := by field_simp
  have hE : (pm / δ) / 2 ^ 53 * δ ≤ twoPi / 2 ^ 53 := by
    rw [hwδ, div_mul_eq_mul_div]
    exact div_le_div_of_nonneg_right (mul_le_mul_of_nonneg_right hq2 hdp.le) (by norm_num)
  rw [abs_le] at p2
  have hfl := Int.floor_le (f64 (pm / δ))
  have hfu := Int.lt_floor_add_one (f64 (pm / δ))
  have hr1 : f64 (pm / δ) * δ ≤ pm + twoPi / 2 ^ 53 := by
    have : f64 (pm / δ) ≤ pm / δ + pm / δ / 2 ^ 53 := by have := herr.2; unfold f64; linarith
    calc f64 (pm / δ) * δ ≤ (pm / δ + pm / δ / 2 ^ 53) * δ := mul_le_mul_of_nonneg_right this hdp.le
      _ = pm / δ * δ + pm / δ / 2 ^ 53 * δ := by ring
      _ ≤ pm + twoPi / 2 ^ 53 := by rw [← hpm]; linarith
  have hr2 : pm - twoPi / 2 ^ 53 ≤ f64 (pm / δ) * δ := by
    have : pm / δ - pm / δ / 2 ^ 53 ≤ f64 (pm / δ) := by have := herr.1; unfold f64; linarith
    calc pm - twoPi / 2 ^ 53 ≤ pm / δ * δ - pm / δ / 2 ^ 53 * δ := by rw [← hpm]; linarith
      _ = (pm / δ - pm / δ / 2 ^ 53) * δ := by ring
      _ ≤ _ := mul_le_mul_of_nonneg_right this hdp.le
  refine ⟨⌊f64 (pm / δ)⌋.toNat, ?_, ?_, m, ?_, ?_⟩
  · have : ((⌊f64 (pm / δ)⌋.toNat : ℕ) : ℤ) < ((2 ^ j : ℕ) : ℤ) := by
      rw [Int.toNat_of_nonneg hk0]; push_cast; exact hk1
    exact_mod_cast this
  · unfold thetaIdx; rw [hd, Int.toNat_of_nonneg hk0]
  · rw [hc, ← e]
    have := mul_le_mul_of_nonneg_right hfl hdp.le
    linarith
  · rw [hc, ← e]
    have := mul_lt_mul_of_pos_right hfu hdp
    linarith

/-- Property C168 with floats, for a power of two of bins (as in the tree) and angles that are not negative or at least
2⁻⁵⁰ below a whole number of turns: nothing raises, no point is lost, and the sector of the bin contains the angle of the
point up to a turn divided by 2⁵². What is missing: other numbers of bins, and angles closer to a border than this can be in
the bin next to it. -/
theorem C168_partial (j : Nat) (rs thetas : List ℚ) (h : ∀ θ ∈ thetas, OffTurn θ) :
    ∃ (ptBins : List (List ℚ)) (sec : ℚ → Nat), binByThetas f64 twoPi (2 ^ j) rs thetas = some ptBins ∧
      ptBins = (List.range (2 ^ j)).map (fun k => sentTo sec k (rs.zip thetas)) ∧
      ∀ θ ∈ thetas, sec θ < 2 ^ j ∧ ∃ m : ℤ, sec θ * (twoPi / 2 ^ j) - twoPi / 2 ^ 52 ≤ θ - m * twoPi ∧
        θ - m * twoPi < (sec θ + 1) * (twoPi / 2 ^ j) + twoPi / 2 ^ 52 := by
  have hex : ∀ θ, ∃ k : Nat, OffTurn θ → k < 2 ^ j ∧ thetaIdx f64 twoPi (2 ^ j) θ = k ∧ ∃ m : ℤ,
      k * (twoPi / 2 ^ j) - twoPi / 2 ^ 52 ≤ θ - m * twoPi ∧ θ - m * twoPi < (k + 1) * (twoPi / 2 ^ j) + twoPi / 2 ^ 52 := by
    intro θ
    by_cases ho : OffTurn θ
    · obtain ⟨k, hk⟩ := thetaIdx_f64 j ho; exact ⟨k, fun _ => hk⟩
    · exact ⟨0, fun h => absurd h ho⟩
  choose sec hsec using hex
  refine ⟨_, sec, ?_, rfl, fun θ hθ => ⟨(hsec θ (h θ hθ)).1, (hsec θ (h θ hθ)).2.2⟩⟩
  unfold binByThetas
  rw [if_neg (by positivity)]
  refine foldlM_theta (sec := sec) _ fun p hp => ?_
  have hp2 : p.2 ∈ thetas := (List.of_mem_zip hp).2
  exact ⟨(hsec _ (h _ hp2)).1, (hsec _ (h _ hp2)).2.1⟩

example : ∀ θ ∈ [(1 : ℚ), 0, -3, 5 / 2], OffTurn θ := by
  intro θ h
  simp only [List.mem_cons, List.not_mem_nil, or_false] at h
  rcases h with rfl | rfl | rfl | rfl
  · exact offTurn_nonneg (by simpa using f64_int (m := 1) (by norm_num)) (by norm_num)
  · exact offTurn_nonneg (by simpa using f64_int (m := 0) (by norm_num)) (by norm_num)
  · exact offTurn_neg (by norm_num) (by norm_num)
  · exact offTurn_nonneg ⟨5, -1, by norm_num, by norm_num [zpow_neg]⟩ (by norm_num)
example : binByThetas f64 twoPi (2 ^ 2) [1, 2, 3, 4] [1, 0, -3, 5 / 2] = some [[1, 2], [4], [3], []] := by decide +kernel

end Verif.Py
