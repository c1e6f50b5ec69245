import Verif.Halo.Model
import Mathlib.Data.Rat.Floor
import Mathlib.Data.List.Range
import Mathlib.Tactic.Linarith
import Mathlib.Tactic.Ring
import Mathlib.Tactic.FieldSimp
import Mathlib.Tactic.Positivity

/-!
# C72: the halo grid lists every halo exactly once, in its cell
-/

set_option autoImplicit false

namespace Verif.Halo

open Verif.Go

/-! ## Specification -/

/-- The coordinate `x`, or one of its periodic images, is in the `c`th of `cells` equal parts of a box of the given width. -/
def InCell (width : ℚ) (cells : ℤ) (x : ℚ) (c : ℤ) : Prop :=
  ∃ k : ℤ, c * (width / cells) ≤ x + k * width ∧ x + k * width < (c + 1) * (width / cells)

/-- The coordinates that `Insert` can handle: at most one period outside of the box and not on its upper edge. -/
def Legal (width x : ℚ) : Prop := -width ≤ x ∧ x < 2 * width ∧ x ≠ width

/-! ## Cells -/

/-- The cell along one axis. -/
def cellOf (width cw x : ℚ) : ℤ := trunc (wrap width x / cw)

theorem wrap_spec {width x : ℚ} (h : Legal width x) :
    0 ≤ wrap width x ∧ wrap width x < width ∧ ∃ k : ℤ, wrap width x = x + k * width := by
  obtain ⟨h1, h2, h3⟩ := h
  unfold wrap
  split_ifs with a b
  · exact ⟨by linarith, by linarith, -1, by push_cast; ring⟩
  · exact ⟨by linarith, by linarith, 1, by push_cast; ring⟩
  · exact ⟨by linarith, lt_of_le_of_ne (not_lt.mp a) h3, 0, by push_cast; ring⟩

theorem cellOf_spec {width x : ℚ} {cells : ℤ} (hW : 0 < width) (hc : 0 < cells) (h : Legal width x) :
    0 ≤ cellOf width (width / cells) x ∧ cellOf width (width / cells) x < cells ∧
    InCell width cells x (cellOf width (width / cells) x) ∧
    ∀ c, 0 ≤ c → c < cells → (InCell width cells x c ↔ cellOf width (width / cells) x = c) := by
  obtain ⟨h0, h1, k, hk⟩ := wrap_spec h
  have hcq : (0 : ℚ) < cells := by exact_mod_cast hc
  have hcw : 0 < width / cells := div_pos hW hcq
  have e : cellOf width (width / cells) x = ⌊wrap width x / (width / cells)⌋ := by
    unfold cellOf
    rw [trunc_of_nonneg (div_nonneg h0 hcw.le)]
  have f1 := Int.floor_le (wrap width x / (width / cells))
  have f2 := Int.lt_floor_add_one (wrap width x / (width / cells))
  rw [← e, le_div_iff₀ hcw] at f1
  rw [← e, div_lt_iff₀ hcw] at f2
  have hin : InCell width cells x (cellOf width (width / cells) x) := ⟨k, by rw [← hk]; exact f1, by rw [← hk]; exact f2⟩
  have hmul : (cells : ℚ) * (width / cells) = width := by field_simp
  refine ⟨?_, ?_, hin, fun c hc0 hc1 => ⟨?_, fun hh => hh ▸ hin⟩⟩
  · rw [e]; exact Int.floor_nonneg.mpr (div_nonneg h0 hcw.le)
  · rw [e, Int.floor_lt, div_lt_iff₀ hcw, hmul]
    exact h1
  · rintro ⟨k', a, b⟩
    have hc0q : (0 : ℚ) ≤ c := by exact_mod_cast hc0
    have hc1q : (c : ℚ) + 1 ≤ cells := by exact_mod_cast hc1
    have lo : 0 ≤ x + k' * width := le_trans (mul_nonneg hc0q hcw.le) a
    have hi : x + k' * width < width := lt_of_lt_of_le b (by
      calc ((c : ℚ) + 1) * (width / cells) ≤ cells * (width / cells) := mul_le_mul_of_nonneg_right hc1q hcw.le
        _ = width := hmul)
    have hkk : k' = k := by
      have s : x = wrap width x - k * width := by linarith
      rw [s] at lo hi
      have d1 : (-1 : ℚ) < (k' : ℚ) - k := by
        by_contra hh
        have := mul_le_mul_of_nonneg_right (not_lt.mp hh) hW.le
        linarith
      have d2 : (k' : ℚ) - k < 1 := by
        by_contra hh
        have := mul_le_mul_of_nonneg_right (not_lt.mp hh) hW.le
        linarith
      have d1' : (-1 : ℤ) < k' - k := by exact_mod_cast d1
      have d2' : k' - k < 1 := by exact_mod_cast d2
      omega
    subst hkk
    rw [← hk] at a b
    rw [e, Int.floor_eq_iff, le_div_iff₀ hcw, div_lt_iff₀ hcw]
    exact ⟨a, b⟩

/-- Cells are numbered without gaps and repetitions. -/
theorem index_inj {c ix iy iz jx jy jz : ℤ} (hx : 0 ≤ ix ∧ ix < c) (hy : 0 ≤ iy ∧ iy < c)
    (hx' : 0 ≤ jx ∧ jx < c) (hy' : 0 ≤ jy ∧ jy < c)
    (e : ix + iy * c + iz * c * c = jx + jy * c + jz * c * c) : ix = jx ∧ iy = jy ∧ iz = jz := by
  have h1 : (ix + (iy + iz * c) * c) % c = (jx + (jy + jz * c) * c) % c := by
    congr 1
    linarith
  rw [Int.add_mul_emod_self_right, Int.add_mul_emod_self_right, Int.emod_eq_of_lt hx.1 hx.2,
    Int.emod_eq_of_lt hx'.1 hx'.2] at h1
  have hc : c ≠ 0 := by omega
  have h2 : iy + iz * c = jy + jz * c := by
    apply mul_right_cancel₀ hc
    rw [h1] at e
    linarith
  have h3 : (iy + iz * c) % c = (jy + jz * c) % c := by rw [h2]
  rw [Int.add_mul_emod_self_right, Int.add_mul_emod_self_right, Int.emod_eq_of_lt hy.1 hy.2,
    Int.emod_eq_of_lt hy'.1 hy'.2] at h3
  refine ⟨h1, h3, mul_right_cancel₀ hc ?_⟩
  rw [h3] at h2
  linarith

theorem index_range {c ix iy iz : ℤ} (hx : 0 ≤ ix ∧ ix < c) (hy : 0 ≤ iy ∧ iy < c) (hz : 0 ≤ iz ∧ iz < c) :
    0 ≤ ix + iy * c + iz * c * c ∧ ix + iy * c + iz * c * c < c * c * c := by
  have hc : 0 < c := by omega
  constructor
  · have := mul_nonneg hy.1 hc.le
    have := mul_nonneg (mul_nonneg hz.1 hc.le) hc.le
    omega
  · have h1 : iy * c ≤ (c - 1) * c := mul_le_mul_of_nonneg_right (by omega) hc.le
    have h2 : iz * c * c ≤ (c - 1) * c * c :=
      mul_le_mul_of_nonneg_right (mul_le_mul_of_nonneg_right (by omega) hc.le) hc.le
    have e1 : (c - 1) * c = c * c - c := by ring
    have e2 : (c - 1) * c * c = c * c * c - c * c := by ring
    omega

/-! ## Linked lists -/

/-- The list that starts at an entry. -/
inductive Chain (next : List ℤ) : ℤ → List ℤ → Prop
  | nil : Chain next tail []
  | cons {i n : ℤ} {l : List ℤ} : rd next i = some n → Chain next n l → Chain next i (i :: l)

theorem Chain.set {next : List ℤ} {i : ℤ} {l : List ℤ} (h : Chain next i l) {k : ℕ} {v : ℤ} (hk : k < next.length)
    (hl : ∀ j ∈ l, j ≠ (k : ℤ)) : Chain (next.set k v) i l := by
  induction h with
  | nil => exact .nil
  | cons e _ ih =>
    refine .cons ?_ (ih fun j hj => hl j (List.mem_cons_of_mem _ hj))
    rw [rd_set _ _ _ _ hk, if_neg (hl _ (List.mem_cons_self))]
    exact e

theorem ne_tail {next : List ℤ} {i n : ℤ} (e : rd next i = some n) : i ≠ tail := by
  have := (rd_some_lt e).1
  unfold tail
  omega

theorem readFrom_chain {next : List ℤ} {i : ℤ} {l : List ℤ} (h : Chain next i l) (cap : ℤ) :
    ∀ (fuel : ℕ) (acc : List ℤ), l.length < fuel → (acc.length : ℤ) + l.length ≤ cap →
      readFrom next cap fuel i acc = some (acc ++ l) := by
  induction h with
  | nil =>
    intro fuel acc hf _
    cases fuel with
    | zero => exact absurd hf (by simp)
    | succ f => rw [readFrom, if_pos rfl, List.append_nil]
  | cons e _ ih =>
    intro fuel acc hf hc
    cases fuel with
    | zero => exact absurd hf (by simp)
    | succ f =>
      rw [List.length_cons] at hf hc
      push_cast at hc
      rw [readFrom, if_neg (ne_tail e), if_pos (by omega)]
      refine bind_of e ?_
      rw [ih f _ (by omega) (by rw [List.length_append, List.length_singleton]; push_cast; omega), List.append_assoc]
      rfl

theorem lengthFrom_chain {next : List ℤ} {i : ℤ} {l : List ℤ} (h : Chain next i l) :
    ∀ (fuel : ℕ) (n : ℤ), l.length < fuel → lengthFrom next fuel i n = some (n + l.length) := by
  induction h with
  | nil =>
    intro fuel n hf
    cases fuel with
    | zero => exact absurd hf (by simp)
    | succ f => rw [lengthFrom, if_pos rfl]; simp
  | cons e _ ih =>
    intro fuel n hf
    cases fuel with
    | zero => exact absurd hf (by simp)
    | succ f =>
      rw [List.length_cons] at hf
      rw [lengthFrom, if_neg (ne_tail e)]
      refine bind_of e ?_
      rw [ih f _ (by omega), List.length_cons]
      congr 1
      push_cast
      ring

/-! ## Insertion -/

/-- The halos among the first `k` whose cell is `idx`, last one first. -/
def listed (I : ℕ → ℤ) (k : ℕ) (idx : ℤ) : List ℤ :=
  (((List.range k).filter (fun i => decide (I i = idx))).reverse).map (fun i : ℕ => (i : ℤ))

theorem mem_listed {I : ℕ → ℤ} {k : ℕ} {idx j : ℤ} : j ∈ listed I k idx ↔ ∃ i : ℕ, i < k ∧ I i = idx ∧ j = i := by
  unfold listed
  simp only [List.mem_map, List.mem_reverse, List.mem_filter, List.mem_range, decide_eq_true_eq]
  constructor
  · rintro ⟨i, ⟨a, b⟩, rfl⟩
    exact ⟨i, a, b, rfl⟩
  · rintro ⟨i, a, b, rfl⟩
    exact ⟨i, ⟨a, b⟩, rfl⟩

theorem listed_nodup (I : ℕ → ℤ) (k : ℕ) (idx : ℤ) : (listed I k idx).Nodup := by
  unfold listed
  refine List.Nodup.map (fun a b h => by exact_mod_cast h) ?_
  exact List.nodup_reverse.mpr ((List.nodup_range).filter _)

theorem listed_length_le (I : ℕ → ℤ) (k : ℕ) (idx : ℤ) : (listed I k idx).length ≤ k := by
  unfold listed
  rw [List.length_map, List.length_reverse]
  exact le_trans (List.length_filter_le _ _) (by rw [List.length_range])

theorem listed_succ (I : ℕ → ℤ) (k : ℕ) (idx : ℤ) :
    listed I (k + 1) idx = if I k = idx then (k : ℤ) :: listed I k idx else listed I k idx := by
  unfold listed
  rw [List.range_succ, List.filter_append]
  by_cases h : I k = idx
  · rw [if_pos h, List.filter_cons_of_pos (by simpa using h)]
    simp
  · rw [if_neg h, List.filter_cons_of_neg (by simpa using h)]
    simp

/-- The coordinate of a halo. -/
def co (xs : List ℚ) (i : ℕ) : ℚ := xs.getD i 0

theorem rd_co {xs : List ℚ} {i : ℕ} (h : i < xs.length) : rd xs (i : ℤ) = some (co xs i) := by
  rw [rd_of_lt h]
  unfold co
  simp [List.getD_eq_getElem?_getD, h]

/-- The state of a grid after the first `k` insertions. -/
structure Filled (cells : ℤ) (width : ℚ) (N : ℕ) (I : ℕ → ℤ) (k : ℕ) (g : Grid) : Prop where
  hcells : g.cells = cells
  hcw : g.cw = width / cells
  hwidth : g.width = width
  hnext : g.next.length = N
  hheads : (g.heads.length : ℤ) = cells * cells * cells
  chains : ∀ idx : ℤ, 0 ≤ idx → idx < cells * cells * cells → ∃ h, rd g.heads idx = some h ∧ Chain g.next h (listed I k idx)

/-- The index of the cell of the `i`th halo. -/
def gridIndex (cells : ℤ) (width : ℚ) (xs ys zs : List ℚ) (i : ℕ) : ℤ :=
  cellOf width (width / cells) (co xs i) + cellOf width (width / cells) (co ys i) * cells +
    cellOf width (width / cells) (co zs i) * cells * cells

theorem newGrid_filled (cells : ℤ) (width : ℚ) (N : ℕ) (hc : 0 < cells) (I : ℕ → ℤ) :
    ∃ g, newGrid cells width N = some g ∧ Filled cells width N I 0 g := by
  have hc3 : 0 < cells * cells * cells := by positivity
  unfold newGrid
  rw [if_neg (by omega)]
  refine ⟨_, rfl, ⟨rfl, rfl, rfl, by simp, ?_, fun idx h0 h1 => ⟨tail, ?_, .nil⟩⟩⟩
  · rw [List.length_replicate]
    exact Int.toNat_of_nonneg hc3.le
  · obtain ⟨k, rfl⟩ := Int.eq_ofNat_of_zero_le h0
    rw [rd_natCast, List.getElem?_replicate, if_pos (by omega)]

theorem insert_filled {cells : ℤ} {width : ℚ} {N : ℕ} {g : Grid} {xs ys zs : List ℚ} (hW : 0 < width) (hc : 0 < cells)
    (hg : Filled cells width N (gridIndex cells width xs ys zs) 0 g) (hn : xs.length ≤ N)
    (hy : xs.length ≤ ys.length) (hz : xs.length ≤ zs.length)
    (legal : ∀ i < xs.length, Legal width (co xs i) ∧ Legal width (co ys i) ∧ Legal width (co zs i)) :
    ∃ g', g.insert xs ys zs = some g' ∧ Filled cells width N (gridIndex cells width xs ys zs) xs.length g' := by
  set I := gridIndex cells width xs ys zs with hI
  unfold Grid.insert
  refine forRange_nat (fun k g => Filled cells width N I k g) (Nat.zero_le _) _ g hg ?_
  intro k g _ hk hf
  obtain ⟨lx, ly, lz⟩ := legal k hk
  obtain ⟨x0, x1, -, -⟩ := cellOf_spec hW hc lx
  obtain ⟨y0, y1, -, -⟩ := cellOf_spec hW hc ly
  obtain ⟨z0, z1, -, -⟩ := cellOf_spec hW hc lz
  have hidx : g.index (co xs k) (co ys k) (co zs k) = I k := by
    rw [hI]
    unfold Grid.index gridIndex cellOf
    rw [hf.hcells, hf.hcw, hf.hwidth]
  obtain ⟨r0, r1⟩ := index_range ⟨x0, x1⟩ ⟨y0, y1⟩ ⟨z0, z1⟩
  change 0 ≤ I k at r0
  change I k < _ at r1
  obtain ⟨h, eh, ch⟩ := hf.chains (I k) r0 r1
  have hkn : k < g.next.length := by rw [hf.hnext]; omega
  have hkh : I k < g.heads.length := by rw [hf.hheads]; exact r1
  refine ⟨{ g with next := g.next.set k h, heads := g.heads.set (I k).toNat k }, ?_, ?_⟩
  · refine bind_of (rd_co hk) (bind_of (rd_co (lt_of_lt_of_le hk hy)) (bind_of (rd_co (lt_of_lt_of_le hk hz)) ?_))
    rw [hidx]
    refine bind_of eh (bind_of (wr_natCast hkn) (bind_of (wr_of_lt r0 hkh) rfl))
  · refine ⟨hf.hcells, hf.hcw, hf.hwidth, ?_, ?_, ?_⟩
    · show (g.next.set k h).length = N
      rw [List.length_set, hf.hnext]
    · show ((g.heads.set _ _).length : ℤ) = _
      rw [List.length_set, hf.hheads]
    · intro idx h0 h1
      have stable : ∀ idx, ∀ j ∈ listed I k idx, j ≠ (k : ℤ) := by
        intro idx j hj
        obtain ⟨i, hi, _, rfl⟩ := mem_listed.mp hj
        omega
      show ∃ h', rd (g.heads.set (I k).toNat k) idx = some h' ∧ Chain (g.next.set k h) h' _
      rw [rd_set _ _ _ _ (by omega), Int.toNat_of_nonneg r0, listed_succ]
      by_cases he : I k = idx
      · subst he
        rw [if_pos rfl, if_pos rfl]
        refine ⟨_, rfl, .cons (n := h) ?_ (ch.set hkn (stable _))⟩
        rw [rd_set _ _ _ _ hkn, if_pos rfl]
      · rw [if_neg (Ne.symm he), if_neg he]
        obtain ⟨h', eh', ch'⟩ := hf.chains idx h0 h1
        exact ⟨h', eh', ch'.set hkn (stable _)⟩

/-! ## Reading the grid -/

variable {cells : ℤ} {width : ℚ} {N : ℕ} {I : ℕ → ℤ} {n : ℕ} {g : Grid}

theorem Filled.read (hf : Filled cells width N I n g) (hn : n ≤ N) {idx : ℤ} (h0 : 0 ≤ idx)
    (h1 : idx < cells * cells * cells) {cap : ℤ} (hc : ((listed I n idx).length : ℤ) ≤ cap) :
    g.readIndexes idx cap = some (listed I n idx) := by
  obtain ⟨h, e, c⟩ := hf.chains idx h0 h1
  unfold Grid.readIndexes
  refine bind_of e ?_
  have := readFrom_chain c cap (g.next.length + 1) [] (by
    have := listed_length_le I n idx
    rw [hf.hnext]
    omega) (by simpa using hc)
  simpa using this

theorem Filled.length_eq (hf : Filled cells width N I n g) (hn : n ≤ N) {idx : ℤ} (h0 : 0 ≤ idx)
    (h1 : idx < cells * cells * cells) : g.length idx = some ((listed I n idx).length : ℤ) := by
  obtain ⟨h, e, c⟩ := hf.chains idx h0 h1
  unfold Grid.length
  refine bind_of e ?_
  have := lengthFrom_chain c (g.next.length + 1) 0 (by
    have := listed_length_le I n idx
    rw [hf.hnext]
    omega)
  simpa using this

theorem Filled.maxLength_eq (hf : Filled cells width N I n g) (hn : n ≤ N) :
    ∃ m : ℤ, g.maxLength = some m ∧ 0 ≤ m ∧
      (∀ idx, 0 ≤ idx → idx < cells * cells * cells → ((listed I n idx).length : ℤ) ≤ m) ∧
      (m = 0 ∨ ∃ idx, 0 ≤ idx ∧ idx < cells * cells * cells ∧ m = (listed I n idx).length) := by
  unfold Grid.maxLength
  obtain ⟨m, e, h1, h2, h3⟩ := forRange_nat (fun (k : ℕ) (m : ℤ) => 0 ≤ m ∧
      (∀ idx : ℤ, 0 ≤ idx → idx < k → ((listed I n idx).length : ℤ) ≤ m) ∧
      (m = 0 ∨ ∃ idx, 0 ≤ idx ∧ idx < cells * cells * cells ∧ m = (listed I n idx).length))
    (lo := 0) (hi := g.heads.length) (Nat.zero_le _)
    (fun i max => do
      let l ← g.length i
      some (if l > max then l else max)) 0 ⟨le_refl _, fun idx a b => absurd b (by push_cast; omega), .inl rfl⟩ (by
    rintro k m - hk ⟨h1, h2, h3⟩
    have hk' : (k : ℤ) < cells * cells * cells := by rw [← hf.hheads]; exact_mod_cast hk
    refine ⟨_, bind_of (hf.length_eq hn (by omega) hk') rfl, ?_⟩
    by_cases hgt : ((listed I n k).length : ℤ) > m
    · rw [if_pos hgt]
      refine ⟨by omega, fun idx a b => ?_, .inr ⟨k, by omega, hk', rfl⟩⟩
      by_cases hi : idx = k
      · rw [hi]
      · have := h2 idx a (by push_cast at b; omega)
        omega
    · rw [if_neg hgt]
      refine ⟨h1, fun idx a b => ?_, h3⟩
      by_cases hi : idx = k
      · rw [hi]; omega
      · exact h2 idx a (by push_cast at b; omega))
  exact ⟨m, e, h1, fun idx a b => h2 idx a (by rw [hf.hheads]; exact b), h3⟩

/-! ## C72 -/

/-- C72: after inserting `n` positions into a new grid, the list of each cell holds exactly the halos of which a periodic
image is in the cell, each once; `Length` is their number and `MaxLength` the largest of these numbers; the average is the
number of halos per cell, rounded down. This holds for all positions inside the box, and more generally for all that are at
most one period outside of it except on its upper edge (see the counterexample). -/
theorem C72_lists (cells : ℤ) (width : ℚ) (xs ys zs : List ℚ) (hW : 0 < width) (hc : 0 < cells)
    (hy : ys.length = xs.length) (hz : zs.length = xs.length)
    (legal : ∀ i < xs.length, Legal width (co xs i) ∧ Legal width (co ys i) ∧ Legal width (co zs i)) :
    ∃ g g', newGrid cells width xs.length = some g ∧ g.insert xs ys zs = some g' ∧
      (∀ ix iy iz : ℤ, 0 ≤ ix → ix < cells → 0 ≤ iy → iy < cells → 0 ≤ iz → iz < cells →
        ∃ l : List ℤ, l.Nodup ∧
          (∀ cap : ℤ, l.length ≤ cap → g'.readIndexes (ix + iy * cells + iz * cells * cells) cap = some l) ∧
          g'.length (ix + iy * cells + iz * cells * cells) = some (l.length : ℤ) ∧
          ∀ j : ℤ, j ∈ l ↔ ∃ i : ℕ, i < xs.length ∧ j = i ∧ InCell width cells (co xs i) ix ∧
            InCell width cells (co ys i) iy ∧ InCell width cells (co zs i) iz) ∧
      (∀ i < xs.length, ∃ ix iy iz : ℤ, (0 ≤ ix ∧ ix < cells) ∧ (0 ≤ iy ∧ iy < cells) ∧ (0 ≤ iz ∧ iz < cells) ∧
        InCell width cells (co xs i) ix ∧ InCell width cells (co ys i) iy ∧ InCell width cells (co zs i) iz) ∧
      (∃ m : ℤ, g'.maxLength = some m ∧ (∀ idx l, g'.length idx = some l → l ≤ m) ∧
        (∃ idx, g'.length idx = some m)) ∧
      g'.averageLength = some ((xs.length : ℤ) / (cells * cells * cells)) := by
  set I := gridIndex cells width xs ys zs with hI
  obtain ⟨g, eg, fg⟩ := newGrid_filled cells width xs.length hc I
  obtain ⟨g', eg', fg'⟩ := insert_filled hW hc fg (le_refl _) hy.ge hz.ge legal
  have hc3 : 0 < cells * cells * cells := by positivity
  have mem : ∀ ix iy iz : ℤ, 0 ≤ ix → ix < cells → 0 ≤ iy → iy < cells → 0 ≤ iz → iz < cells → ∀ i < xs.length,
      (I i = ix + iy * cells + iz * cells * cells ↔ InCell width cells (co xs i) ix ∧
            InCell width cells (co ys i) iy ∧ InCell width cells (co zs i) iz) := by
    intro ix iy iz x0 x1 y0 y1 z0 z1 i hi
    obtain ⟨lx, ly, lz⟩ := legal i hi
    obtain ⟨a0, a1, -, a3⟩ := cellOf_spec hW hc lx
    obtain ⟨b0, b1, -, b3⟩ := cellOf_spec hW hc ly
    obtain ⟨c0, c1, -, c3⟩ := cellOf_spec hW hc lz
    rw [a3 ix x0 x1, b3 iy y0 y1, c3 iz z0 z1]
    constructor
    · intro h
      exact index_inj ⟨a0, a1⟩ ⟨b0, b1⟩ ⟨x0, x1⟩ ⟨y0, y1⟩ h
    · rintro ⟨h1, h2, h3⟩
      rw [hI]
      unfold gridIndex
      rw [h1, h2, h3]
  refine ⟨g, g', eg, eg', ?_, ?_, ?_, ?_⟩
  · intro ix iy iz x0 x1 y0 y1 z0 z1
    obtain ⟨r0, r1⟩ := index_range ⟨x0, x1⟩ ⟨y0, y1⟩ ⟨z0, z1⟩
    refine ⟨listed I xs.length (ix + iy * cells + iz * cells * cells), listed_nodup _ _ _,
      fun cap hcap => fg'.read (le_refl _) r0 r1 hcap, fg'.length_eq (le_refl _) r0 r1, fun j => ?_⟩
    rw [mem_listed]
    constructor
    · rintro ⟨i, hi, e, rfl⟩
      exact ⟨i, hi, rfl, (mem ix iy iz x0 x1 y0 y1 z0 z1 i hi).mp e⟩
    · rintro ⟨i, hi, rfl, h⟩
      exact ⟨i, hi, (mem ix iy iz x0 x1 y0 y1 z0 z1 i hi).mpr h, rfl⟩
  · intro i hi
    obtain ⟨lx, ly, lz⟩ := legal i hi
    obtain ⟨a0, a1, a2, -⟩ := cellOf_spec hW hc lx
    obtain ⟨b0, b1, b2, -⟩ := cellOf_spec hW hc ly
    obtain ⟨c0, c1, c2, -⟩ := cellOf_spec hW hc lz
    exact ⟨_, _, _, ⟨a0, a1⟩, ⟨b0, b1⟩, ⟨c0, c1⟩, a2, b2, c2⟩
  · obtain ⟨m, em, m0, m1, m2⟩ := fg'.maxLength_eq (le_refl _)
    refine ⟨m, em, fun idx l el => ?_, ?_⟩
    · have hr : 0 ≤ idx ∧ idx < cells * cells * cells := by
        unfold Grid.length at el
        obtain ⟨h, eh, -⟩ := Option.bind_eq_some_iff.mp el
        have := rd_some_lt eh
        rw [fg'.hheads] at this
        exact this
      rw [fg'.length_eq (le_refl _) hr.1 hr.2, Option.some.injEq] at el
      rw [← el]
      exact m1 idx hr.1 hr.2
    · rcases m2 with rfl | ⟨idx, i0, i1, rfl⟩
      · refine ⟨0, ?_⟩
        rw [fg'.length_eq (le_refl _) (le_refl _) hc3]
        have := m1 0 (le_refl _) hc3
        congr 1
        omega
      · exact ⟨idx, fg'.length_eq (le_refl _) i0 i1⟩
  · unfold Grid.averageLength
    have hh := fg'.hheads
    rw [if_neg (by omega), hh, fg'.hnext]

example : ((newGrid 2 10 4).bind fun g => (g.insert [1, 6, -1, 3] [1, 1, 11, 2] [1, 9, 9, 3]).bind fun g =>
    (g.readIndexes 0 4).bind fun a => (g.readIndexes 5 4).bind fun b => g.maxLength.map fun m => (a, b, m)) =
    some ([3, 0], [2, 1], 2) := by decide +kernel

/-- Positions on the upper edge of the box are not legal: on the `x` axis they are filed in the next row of cells (where no
periodic image of them is), and on the `z` axis they make `Insert` panic. -/
theorem C72_edge_counterexample :
    ((newGrid 2 10 1).bind fun g => (g.insert [10] [1] [1]).bind fun g => g.readIndexes 2 1) = some [0] ∧
    ¬ InCell 10 2 1 1 ∧
    ((newGrid 2 10 1).bind fun g => g.insert [1] [1] [10]) = none := by
  refine ⟨by decide +kernel, ?_, by decide +kernel⟩
  rintro ⟨k, a, b⟩
  norm_num at a b
  have a' : (4 : ℚ) / 10 ≤ k := by linarith
  have b' : (k : ℚ) < 9 / 10 := by linarith
  have h1 : (0 : ℤ) < k := by
    have : (0 : ℚ) < k := by linarith
    exact_mod_cast this
  have h2 : k < (1 : ℤ) := by
    have : (k : ℚ) < 1 := by linarith
    exact_mod_cast this
  omega

/-- A second `Insert` into the same grid destroys the lists: here the only halo becomes its own successor, and reading its
cell never ends (or exceeds the buffer). -/
theorem C72_second_insert_counterexample :
    ((newGrid 1 10 1).bind fun g => (g.insert [1] [1] [1]).bind fun g => g.insert [1] [1] [1]) ≠ none ∧
    ∀ cap, ((newGrid 1 10 1).bind fun g => (g.insert [1] [1] [1]).bind fun g => (g.insert [1] [1] [1]).bind fun g =>
      g.readIndexes 0 cap) = none := by
  have e : ((newGrid 1 10 1).bind fun g => (g.insert [1] [1] [1]).bind fun g => g.insert [1] [1] [1]) =
      some ⟨1, 10, 10, [0], [0]⟩ := by decide +kernel
  constructor
  · rw [e]; simp
  · intro cap
    have h : ((newGrid 1 10 1).bind fun g => (g.insert [1] [1] [1]).bind fun g => (g.insert [1] [1] [1]).bind fun g =>
      g.readIndexes 0 cap) = ((newGrid 1 10 1).bind fun g => (g.insert [1] [1] [1]).bind fun g => g.insert [1] [1] [1]).bind
        fun g => g.readIndexes 0 cap := by
      rw [Option.bind_assoc]
      congr 1
      funext g
      rw [Option.bind_assoc]
    rw [h, e]
    show readFrom [0] cap 2 0 [] = none
    simp only [readFrom, tail]
    by_cases h1 : (0 : ℤ) < cap
    · by_cases h2 : (1 : ℤ) < cap
      · simp [h1, h2, rd]
      · simp [h1, h2, rd]
    · simp [h1]

end Verif.Halo
