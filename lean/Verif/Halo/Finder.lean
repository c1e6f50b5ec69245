import Verif.Halo.Bounds
import Verif.Halo.CrossMatch
import Mathlib.Data.List.ProdSigma
import Mathlib.Tactic.NormNum
import Mathlib.Tactic.FinCases

/-!
# C73: the subhalo finder; C74: reuse of a finder
-/

set_option autoImplicit false

namespace Verif.Halo

open Verif.Go

/-! ## Specification -/

/-- The spheres of halos `i` and `j`, with radii scaled by `mult`, touch or overlap (without regard to periodic images). -/
def Touch (xs ys zs rs : List ℚ) (mult : ℚ) (i j : ℕ) : Prop :=
  (co xs i - co xs j) ^ 2 + (co ys i - co ys j) ^ 2 + (co zs i - co zs j) ^ 2 ≤ (mult * (co rs i + co rs j)) ^ 2

/-- Periodic images of the two spheres touch or overlap. -/
def PeriodicTouch (width : ℚ) (xs ys zs rs : List ℚ) (mult : ℚ) (i j : ℕ) : Prop :=
  ∃ a b c : ℤ, (co xs i - co xs j + a * width) ^ 2 + (co ys i - co ys j + b * width) ^ 2 +
    (co zs i - co zs j + c * width) ^ 2 ≤ (mult * (co rs i + co rs j)) ^ 2

/-! ## Running maxima -/

theorem cumulativeMax_spec {rs : List ℚ} (h : rs ≠ []) :
    ∃ ms, cumulativeMax rs = some ms ∧ ms.length = rs.length ∧ ∀ i < rs.length, ∃ m, ms[i]? = some m ∧
      (∀ j, i ≤ j → j < rs.length → co rs j ≤ m) ∧ ∃ j, i ≤ j ∧ j < rs.length ∧ m = co rs j := by
  have hn : 0 < rs.length := List.length_pos_iff.mpr h
  have hm : rd rs ((rs.length : ℤ) - 1) = some (co rs (rs.length - 1)) := by
    rw [show ((rs.length : ℤ) - 1) = ((rs.length - 1 : ℕ) : ℤ) by omega]
    exact rd_co (by omega)
  unfold cumulativeMax
  obtain ⟨st, e, hl, hv, -, -⟩ := forDown_spec (fun (i : ℤ) (st : List ℚ × ℚ) => st.1.length = rs.length ∧
      (∀ k : ℕ, i < k → k < rs.length → ∃ m, st.1[k]? = some m ∧ (∀ j, k ≤ j → j < rs.length → co rs j ≤ m) ∧
        ∃ j, k ≤ j ∧ j < rs.length ∧ m = co rs j) ∧
      (∀ j : ℕ, i < j → j < rs.length → co rs j ≤ st.2) ∧ ∃ j : ℕ, i ≤ j ∧ j < rs.length ∧ st.2 = co rs j)
    (lo := 0) (hi := (rs.length : ℤ) - 1) (by omega)
    (fun i (st : List ℚ × ℚ) => do
      let x ← rd rs i
      let max := if x > st.2 then x else st.2
      let ms ← wr st.1 i max
      some (ms, max)) (List.replicate rs.length 0, co rs (rs.length - 1))
    ⟨by simp, fun k a b => by omega, fun j a b => by omega, rs.length - 1, by omega, by omega, rfl⟩ (by
    rintro i ⟨ms, mx⟩ h0 h1 ⟨hl, hv, hb, j0, ja, jb, je⟩
    obtain ⟨k, rfl⟩ := Int.eq_ofNat_of_zero_le h0
    have hk : k < rs.length := by omega
    dsimp only at hl hv hb je
    refine ⟨_, bind_of (rd_co hk) (bind_of (wr_natCast (by dsimp only; omega)) rfl), ?_, ?_, ?_, ?_⟩
    · dsimp only
      rw [List.length_set, hl]
    · intro t ht ht'
      dsimp only
      by_cases htk : t = k
      · subst htk
        refine ⟨_, List.getElem?_set_self (by omega), ?_, ?_⟩
        · intro j hj hj'
          by_cases hgt : co rs t > mx
          · rw [if_pos hgt]
            by_cases hjt : j = t
            · rw [hjt]
            · exact le_trans (hb j (by omega) hj') hgt.le
          · rw [if_neg hgt]
            by_cases hjt : j = t
            · rw [hjt]; exact not_lt.mp hgt
            · exact hb j (by omega) hj'
        · by_cases hgt : co rs t > mx
          · exact ⟨t, le_refl _, hk, if_pos hgt⟩
          · exact ⟨j0, by omega, jb, by rw [if_neg hgt, je]⟩
      · rw [List.getElem?_set_ne (Ne.symm htk)]
        exact hv t (by omega) ht'
    · intro j hj hj'
      dsimp only
      by_cases hgt : co rs k > mx
      · rw [if_pos hgt]
        by_cases hjt : j = k
        · rw [hjt]
        · exact le_trans (hb j (by omega) hj') hgt.le
      · rw [if_neg hgt]
        by_cases hjt : j = k
        · rw [hjt]; exact not_lt.mp hgt
        · exact hb j (by omega) hj'
    · dsimp only
      by_cases hgt : co rs k > mx
      · exact ⟨k, by omega, hk, if_pos hgt⟩
      · exact ⟨j0, by omega, jb, by rw [if_neg hgt, je]⟩)
  exact ⟨st.1, bind_of hm (bind_of e rfl), hl, fun i hi => hv i (by omega) hi⟩

/-! ## One cell -/

instance (xs ys zs rs : List ℚ) (mult : ℚ) (i j : ℕ) : Decidable (Touch xs ys zs rs mult i j) := by
  unfold Touch
  infer_instance

/-- The test of `markSubhalos`; `rs` are the scaled radii. -/
def keep (xs ys zs rs : List ℚ) (ih : ℕ) (j : ℤ) : Bool := decide ((ih : ℤ) < j ∧ Touch xs ys zs rs 1 ih j.toNat)

theorem markSubhalos_spec {xs ys zs rs : List ℚ} {n ih : ℕ} (hx : xs.length = n) (hy : ys.length = n) (hz : zs.length = n)
    (hr : rs.length = n) (hih : ih < n) (idxs : List ℤ) (hb : Below n idxs) (subs : List ℤ) :
    markSubhalos ih idxs xs ys zs rs subs = some (subs ++ idxs.filter (keep xs ys zs rs ih)) := by
  unfold markSubhalos
  refine bind_of (rd_co (by omega)) (bind_of (rd_co (by omega)) (bind_of (rd_co (by omega)) (bind_of (rd_co (by omega)) ?_)))
  induction idxs generalizing subs with
  | nil => simp
  | cons j idxs ih' =>
    obtain ⟨k, hk, rfl⟩ := hb j List.mem_cons_self
    have ih'' := fun subs => ih' (fun v hv => hb v (List.mem_cons_of_mem _ hv)) subs
    rw [List.foldlM_cons]
    by_cases hle : (k : ℤ) ≤ ih
    · rw [List.filter_cons_of_neg (by simp [keep]; omega)]
      refine bind_of (if_pos hle) (ih'' subs)
    · by_cases ht : Touch xs ys zs rs 1 ih k
      · rw [List.filter_cons_of_pos (by simp [keep, ht]; omega)]
        refine bind_of (a := subs ++ [(k : ℤ)]) ?_ ?_
        · rw [if_neg hle]
          refine bind_of (rd_co (by omega)) (bind_of (rd_co (by omega)) (bind_of (rd_co (by omega))
            (bind_of (rd_co (by omega)) ?_)))
          rw [if_pos]
          unfold Touch at ht
          rw [one_mul] at ht
          linarith
        · rw [ih'' (subs ++ [(k : ℤ)])]
          simp
      · rw [List.filter_cons_of_neg (by simp [keep, ht])]
        refine bind_of (a := subs) ?_ (ih'' subs)
        rw [if_neg hle]
        refine bind_of (rd_co (by omega)) (bind_of (rd_co (by omega)) (bind_of (rd_co (by omega))
            (bind_of (rd_co (by omega)) ?_)))
        rw [if_neg]
        unfold Touch at ht
        rw [one_mul] at ht
        intro hh
        apply ht
        linarith

/-! ## The cells of one halo -/

/-- A loop that appends. -/
theorem forRange_append (F : ℕ → List ℤ) (m : ℤ) (hm : 0 ≤ m) (body : ℤ → List ℤ → Option (List ℤ))
    (hb : ∀ k < m.toNat, ∀ s, body (k : ℤ) s = some (s ++ F k)) (s : List ℤ) :
    forRange 0 m body s = some (s ++ (List.range m.toNat).flatMap F) := by
  obtain ⟨n, rfl⟩ := Int.eq_ofNat_of_zero_le hm
  rw [Int.toNat_natCast] at hb ⊢
  obtain ⟨s', e, h⟩ := forRange_nat (fun k t => t = s ++ (List.range k).flatMap F) (Nat.zero_le n) body s (by simp) (by
    intro k t _ hk ht
    refine ⟨_, hb k hk t, ?_⟩
    rw [ht, List.range_succ, List.flatMap_append]
    simp)
  rw [← h]
  exact e

/-- The cells that are visited for given bounds. -/
def cellList (cells : ℤ) (b : Bounds) : List ℤ :=
  (List.range (b.span 2).toNat).flatMap fun (dz : ℕ) => (List.range (b.span 1).toNat).flatMap fun (dy : ℕ) =>
    (List.range (b.span 0).toNat).map fun (dx : ℕ) =>
      periodic (b.origin 2) dz cells * cells * cells + periodic (b.origin 1) dy cells * cells + periodic (b.origin 0) dx cells

/-- Bounds that start inside the grid, or at most on its upper edge, count no cell twice and end before the grid would be
repeated a second time. -/
def GoodBounds (cells : ℤ) (b : Bounds) : Prop :=
  ∀ j, 0 ≤ b.origin j ∧ b.origin j + b.span j ≤ 2 * cells ∧ 1 ≤ b.span j ∧ b.span j ≤ cells

theorem periodic_range {o d c : ℤ} (h0 : 0 ≤ o) (h1 : o + d < 2 * c) (d0 : 0 ≤ d) :
    0 ≤ periodic o d c ∧ periodic o d c < c := by
  unfold periodic
  split_ifs <;> omega

theorem periodic_inj {o d d' c : ℤ} (d0 : 0 ≤ d) (d1 : d < c) (e0 : 0 ≤ d') (e1 : d' < c)
    (e : periodic o d c = periodic o d' c) : d = d' := by
  unfold periodic at e
  split_ifs at e <;> omega

theorem markCells_spec {cells : ℤ} {width : ℚ} {N n : ℕ} {I : ℕ → ℤ} {g : Grid} (hf : Filled cells width N I n g)
    (hn : n ≤ N) {b : Bounds} (hg : GoodBounds cells b) {cap : ℤ}
    (hcap : ∀ idx, 0 ≤ idx → idx < cells * cells * cells → ((listed I n idx).length : ℤ) ≤ cap)
    {xs ys zs rs : List ℚ} {ih : ℕ} (hx : xs.length = n) (hy : ys.length = n) (hz : zs.length = n)
    (hr : rs.length = n) (hih : ih < n) (subs : List ℤ) :
    markCells g cap b ih xs ys zs rs subs =
      some (subs ++ (cellList cells b).flatMap fun idx => (listed I n idx).filter (keep xs ys zs rs ih)) := by
  have h0 := hg 0
  have h1 := hg 1
  have h2 := hg 2
  unfold markCells
  rw [hf.hcells]
  rw [forRange_append (fun (dz : ℕ) => (List.range (b.span 1).toNat).flatMap fun (dy : ℕ) =>
    (List.range (b.span 0).toNat).flatMap fun (dx : ℕ) => (listed I n (periodic (b.origin 2) dz cells * cells * cells +
      periodic (b.origin 1) dy cells * cells + periodic (b.origin 0) dx cells)).filter (keep xs ys zs rs ih)) _ (by omega)]
  · unfold cellList
    simp only [List.flatMap_assoc, List.flatMap_map]
  intro dz hdz s
  rw [forRange_append (fun (dy : ℕ) =>
    (List.range (b.span 0).toNat).flatMap fun (dx : ℕ) => (listed I n (periodic (b.origin 2) dz cells * cells * cells +
      periodic (b.origin 1) dy cells * cells + periodic (b.origin 0) dx cells)).filter (keep xs ys zs rs ih)) _ (by omega)]
  intro dy hdy s
  rw [forRange_append (fun (dx : ℕ) => (listed I n (periodic (b.origin 2) dz cells * cells * cells +
      periodic (b.origin 1) dy cells * cells + periodic (b.origin 0) dx cells)).filter (keep xs ys zs rs ih)) _ (by omega)]
  intro dx hdx s
  have p0 := periodic_range h0.1 (c := cells) (d := dx) (by omega) (by omega)
  have p1 := periodic_range h1.1 (c := cells) (d := dy) (by omega) (by omega)
  have p2 := periodic_range h2.1 (c := cells) (d := dz) (by omega) (by omega)
  obtain ⟨r0, r1⟩ := index_range p0 p1 p2
  have ee : periodic (b.origin 2) dz cells * cells * cells + periodic (b.origin 1) dy cells * cells +
      periodic (b.origin 0) dx cells = periodic (b.origin 0) dx cells + periodic (b.origin 1) dy cells * cells +
      periodic (b.origin 2) dz cells * cells * cells := by ring
  rw [ee]
  refine bind_of (hf.read hn r0 r1 (hcap _ r0 r1)) ?_
  refine markSubhalos_spec hx hy hz hr hih _ ?_ s
  intro v hv
  obtain ⟨i, hi, _, rfl⟩ := mem_listed.mp hv
  exact ⟨i, hi, rfl⟩

theorem cellList_eq (cells : ℤ) (b : Bounds) : cellList cells b =
    ((List.range (b.span 2).toNat) ×ˢ ((List.range (b.span 1).toNat) ×ˢ (List.range (b.span 0).toNat))).map fun d =>
      periodic (b.origin 0) d.2.2 cells + periodic (b.origin 1) d.2.1 cells * cells +
        periodic (b.origin 2) d.1 cells * cells * cells := by
  unfold cellList
  simp only [SProd.sprod, List.product, List.map_flatMap, List.map_map]
  refine List.flatMap_congr fun dz _ => List.flatMap_congr fun dy _ => List.map_congr_left fun dx _ => ?_
  simp only [Function.comp]
  ring

theorem cellList_nodup {cells : ℤ} {b : Bounds} (hg : GoodBounds cells b) : (cellList cells b).Nodup := by
  have h0 := hg 0
  have h1 := hg 1
  have h2 := hg 2
  rw [cellList_eq]
  refine List.Nodup.map_on ?_ (List.Nodup.product List.nodup_range (List.Nodup.product List.nodup_range List.nodup_range))
  rintro ⟨dz, dy, dx⟩ hd ⟨ez, ey, ex⟩ he e
  simp only [List.mem_product, List.mem_range] at hd he
  have p0 := periodic_range h0.1 (c := cells) (d := dx) (by omega) (by omega)
  have p1 := periodic_range h1.1 (c := cells) (d := dy) (by omega) (by omega)
  have q0 := periodic_range h0.1 (c := cells) (d := ex) (by omega) (by omega)
  have q1 := periodic_range h1.1 (c := cells) (d := ey) (by omega) (by omega)
  obtain ⟨e0, e1, e2⟩ := index_inj p0 p1 q0 q1 e
  have f0 := periodic_inj (by omega) (by omega) (by omega) (by omega) e0
  have f1 := periodic_inj (by omega) (by omega) (by omega) (by omega) e1
  have f2 := periodic_inj (by omega) (by omega) (by omega) (by omega) e2
  simp only [Prod.mk.injEq]
  omega

/-- The list of halos of higher index that touch a halo. -/
def partners (cells : ℤ) (I : ℕ → ℤ) (n : ℕ) (b : Bounds) (xs ys zs rs : List ℚ) (ih : ℕ) : List ℤ :=
  (cellList cells b).flatMap fun idx => (listed I n idx).filter (keep xs ys zs rs ih)

/-- Filtering the lists of the cells gives no halo twice. -/
theorem visited_nodup {cells : ℤ} {b : Bounds} (hg : GoodBounds cells b) (I : ℕ → ℤ) (n : ℕ) (P : ℤ → Bool) :
    ((cellList cells b).flatMap fun idx => (listed I n idx).filter P).Nodup := by
  rw [List.nodup_flatMap]
  refine ⟨fun idx _ => (listed_nodup I n idx).filter _, (cellList_nodup hg).imp ?_⟩
  intro a c hac
  rw [Function.onFun, List.disjoint_left]
  intro j hj hj'
  obtain ⟨i, _, e, rfl⟩ := mem_listed.mp (List.mem_of_mem_filter hj)
  obtain ⟨i', _, e', h⟩ := mem_listed.mp (List.mem_of_mem_filter hj')
  have : i = i' := by exact_mod_cast h
  subst this
  exact hac (e ▸ e')

theorem partners_nodup {cells : ℤ} {b : Bounds} (hg : GoodBounds cells b) (I : ℕ → ℤ) (n : ℕ) (xs ys zs rs : List ℚ)
    (ih : ℕ) : (partners cells I n b xs ys zs rs ih).Nodup := visited_nodup hg I n _

/-! ## All halos -/

/-- The setting of the subhalo search: positions inside the box, and spheres so small that twice the largest reach of a
halo, plus a cell, fits into the box. -/
structure Setting (cells : ℤ) (width : ℚ) (xs ys zs rs : List ℚ) (mult : ℚ) : Prop where
  hW : 0 < width
  hc : 0 < cells
  hy : ys.length = xs.length
  hz : zs.length = xs.length
  hr : rs.length = xs.length
  hne : xs ≠ []
  hm : 0 < mult
  inside : ∀ i < xs.length, (0 ≤ co xs i ∧ co xs i < width) ∧ (0 ≤ co ys i ∧ co ys i < width) ∧
    (0 ≤ co zs i ∧ co zs i < width)
  radii : ∀ i < xs.length, 0 ≤ co rs i
  small : ∀ i j, i ≤ j → j < xs.length → 2 * (mult * (co rs i + co rs j)) + width / cells ≤ width

theorem co_map (rs : List ℚ) (mult : ℚ) (i : ℕ) : co (rs.map (· * mult)) i = co rs i * mult := by
  unfold co
  rw [List.getD_eq_getElem?_getD, List.getD_eq_getElem?_getD, List.getElem?_map]
  cases rs[i]? <;> simp

theorem touch_scaled (xs ys zs rs : List ℚ) (mult : ℚ) (i j : ℕ) :
    Touch xs ys zs (rs.map (· * mult)) 1 i j ↔ Touch xs ys zs rs mult i j := by
  unfold Touch
  rw [co_map, co_map, show 1 * (co rs i * mult + co rs j * mult) = mult * (co rs i + co rs j) by ring]

theorem touch_symm (xs ys zs rs : List ℚ) (mult : ℚ) (i j : ℕ) :
    Touch xs ys zs rs mult i j ↔ Touch xs ys zs rs mult j i := by
  unfold Touch
  rw [show co rs i + co rs j = co rs j + co rs i by ring,
    show (co xs i - co xs j) ^ 2 + (co ys i - co ys j) ^ 2 + (co zs i - co zs j) ^ 2 =
      (co xs j - co xs i) ^ 2 + (co ys j - co ys i) ^ 2 + (co zs j - co zs i) ^ 2 by ring]

theorem legal_of_inside {width x : ℚ} (h : 0 ≤ x ∧ x < width) : Legal width x :=
  ⟨by linarith, by linarith, by linarith [h.2] |> ne_of_lt⟩

theorem mem_cellList {cells : ℤ} {b : Bounds} (hg : GoodBounds cells b) {c : Fin 3 → ℤ}
    (hc : ∀ j, 0 ≤ c j ∧ c j < cells)
    (h : ∀ j, ∃ k : ℤ, b.origin j ≤ c j + k * cells ∧ c j + k * cells < b.origin j + b.span j) :
    c 0 + c 1 * cells + c 2 * cells * cells ∈ cellList cells b := by
  have key : ∀ j, ∃ d : ℕ, d < (b.span j).toNat ∧ periodic (b.origin j) d cells = c j := by
    intro j
    obtain ⟨k, k1, k2⟩ := h j
    obtain ⟨o0, o1, s0, s1⟩ := hg j
    obtain ⟨c0, c1⟩ := hc j
    refine ⟨(c j + k * cells - b.origin j).toNat, by omega, ?_⟩
    have hk : k = 0 ∨ k = 1 := by
      have d1 : k * cells < 2 * cells := by omega
      have d2 : (-1) * cells < k * cells := by omega
      have e1 := lt_of_mul_lt_mul_right d1 (by omega)
      have e2 := lt_of_mul_lt_mul_right d2 (by omega)
      omega
    unfold periodic
    rw [Int.toNat_of_nonneg (by omega)]
    rcases hk with rfl | rfl
    · rw [if_neg (by omega)]; omega
    · rw [if_pos (by omega)]; omega
  obtain ⟨d0, l0, e0⟩ := key 0
  obtain ⟨d1, l1, e1⟩ := key 1
  obtain ⟨d2, l2, e2⟩ := key 2
  rw [cellList_eq, List.mem_map]
  refine ⟨(d2, d1, d0), by simp [List.mem_product, l0, l1, l2], ?_⟩
  dsimp only
  rw [e0, e1, e2]

/-- The bounds used for a halo, with reach `R`. -/
def boundsOf (cells : ℤ) (width : ℚ) (xs ys zs : List ℚ) (R : ℚ) (ih : ℕ) : Bounds :=
  sphereBounds ![co xs ih, co ys ih, co zs ih] R (width / cells) width

theorem boundsOf_good {cells : ℤ} {width mult : ℚ} {xs ys zs rs : List ℚ} (S : Setting cells width xs ys zs rs mult)
    {ih : ℕ} (hih : ih < xs.length) {R : ℚ} (hR : 0 ≤ R) (hR' : 2 * R + width / cells ≤ width) :
    GoodBounds cells (boundsOf cells width xs ys zs R ih) ∧
    ∀ j < xs.length, |co xs ih - co xs j| ≤ R → |co ys ih - co ys j| ≤ R → |co zs ih - co zs j| ≤ R →
      gridIndex cells width xs ys zs j ∈ cellList cells (boundsOf cells width xs ys zs R ih) := by
  have hcw : 0 < width / cells := div_pos S.hW (by exact_mod_cast S.hc)
  have hin : ∀ j : Fin 3, 0 ≤ (![co xs ih, co ys ih, co zs ih] : Fin 3 → ℚ) j ∧
      (![co xs ih, co ys ih, co zs ih] : Fin 3 → ℚ) j < width := by
    obtain ⟨hx, hy, hz⟩ := S.inside ih hih
    intro j
    fin_cases j
    · exact hx
    · exact hy
    · exact hz
  have hall := fun j => C75_bounds_partial ![co xs ih, co ys ih, co zs ih] R width cells S.hW S.hc hR (by linarith) j
    (hin j).1 (hin j).2
  have hg : GoodBounds cells (boundsOf cells width xs ys zs R ih) := by
    intro j
    obtain ⟨_, a, b, c, d⟩ := hall j
    have := d hR'
    exact ⟨a, by unfold boundsOf; omega, c, this⟩
  refine ⟨hg, fun j hj dx dy dz => ?_⟩
  obtain ⟨lx, ly, lz⟩ := S.inside j hj
  obtain ⟨a0, a1, a2, -⟩ := cellOf_spec S.hW S.hc (legal_of_inside lx)
  obtain ⟨b0, b1, b2, -⟩ := cellOf_spec S.hW S.hc (legal_of_inside ly)
  obtain ⟨c0, c1, c2, -⟩ := cellOf_spec S.hW S.hc (legal_of_inside lz)
  rw [abs_le] at dx dy dz
  have := mem_cellList hg (c := ![cellOf width (width / cells) (co xs j), cellOf width (width / cells) (co ys j),
      cellOf width (width / cells) (co zs j)]) (by
    intro d
    fin_cases d
    · exact ⟨a0, a1⟩
    · exact ⟨b0, b1⟩
    · exact ⟨c0, c1⟩) (by
    intro d
    fin_cases d
    · refine ((hall 0).1 _).mpr ⟨co xs j, ?_, ?_, a2⟩
      · show co xs ih - R ≤ co xs j; linarith
      · show co xs j ≤ co xs ih + R; linarith
    · refine ((hall 1).1 _).mpr ⟨co ys j, ?_, ?_, b2⟩
      · show co ys ih - R ≤ co ys j; linarith
      · show co ys j ≤ co ys ih + R; linarith
    · refine ((hall 2).1 _).mpr ⟨co zs j, ?_, ?_, c2⟩
      · show co zs ih - R ≤ co zs j; linarith
      · show co zs j ≤ co zs ih + R; linarith)
  exact this

theorem abs_le_of_sum {a b c s : ℚ} (hs : 0 ≤ s) (h : a ^ 2 + b ^ 2 + c ^ 2 ≤ s ^ 2) : |a| ≤ s := by
  apply abs_le_of_sq_le_sq _ hs
  nlinarith [sq_nonneg b, sq_nonneg c]

/-- The partners of a halo are exactly the halos of higher index that touch it. -/
theorem mem_partners {cells : ℤ} {width mult : ℚ} {xs ys zs rs : List ℚ} (S : Setting cells width xs ys zs rs mult)
    {ih : ℕ} (hih : ih < xs.length) {R : ℚ} (hR' : 2 * R + width / cells ≤ width)
    (hreach : ∀ j, ih ≤ j → j < xs.length → mult * (co rs ih + co rs j) ≤ R) (j : ℤ) :
    j ∈ partners cells (gridIndex cells width xs ys zs) xs.length (boundsOf cells width xs ys zs R ih) xs ys zs
        (rs.map (· * mult)) ih ↔
      ∃ k : ℕ, j = k ∧ ih < k ∧ k < xs.length ∧ Touch xs ys zs rs mult ih k := by
  have hR : 0 ≤ R := le_trans (mul_nonneg S.hm.le (add_nonneg (S.radii ih hih) (S.radii ih hih))) (hreach ih (le_refl _) hih)
  obtain ⟨hg, hmem⟩ := boundsOf_good S hih hR hR'
  unfold partners
  rw [List.mem_flatMap]
  constructor
  · rintro ⟨idx, _, hj⟩
    rw [List.mem_filter] at hj
    obtain ⟨k, hk, _, rfl⟩ := mem_listed.mp hj.1
    have := hj.2
    unfold keep at this
    rw [decide_eq_true_iff, Int.toNat_natCast, touch_scaled] at this
    exact ⟨k, rfl, by exact_mod_cast this.1, hk, this.2⟩
  · rintro ⟨k, rfl, hik, hk, ht⟩
    have hs := hreach k hik.le hk
    have hs0 : 0 ≤ mult * (co rs ih + co rs k) := mul_nonneg S.hm.le (add_nonneg (S.radii ih hih) (S.radii k hk))
    refine ⟨gridIndex cells width xs ys zs k, hmem k hk ?_ ?_ ?_, ?_⟩
    · exact le_trans (abs_le_of_sum hs0 ht) hs
    · exact le_trans (abs_le_of_sum hs0 (a := co ys ih - co ys k) (b := co xs ih - co xs k) (c := co zs ih - co zs k)
        (by unfold Touch at ht; linarith)) hs
    · exact le_trans (abs_le_of_sum hs0 (a := co zs ih - co zs k) (b := co xs ih - co xs k) (c := co ys ih - co ys k)
        (by unfold Touch at ht; linarith)) hs
    · rw [List.mem_filter]
      refine ⟨mem_listed.mpr ⟨k, hk, rfl, rfl⟩, ?_⟩
      unfold keep
      rw [decide_eq_true_iff, Int.toNat_natCast, touch_scaled]
      exact ⟨by exact_mod_cast hik, ht⟩

/-- The first part of `FindSubhalos`: lists of partners of higher index, for a finder without entries. -/
theorem find_spec {cells : ℤ} {width mult : ℚ} {xs ys zs rs : List ℚ} (S : Setting cells width xs ys zs rs mult)
    {g : Grid} (hf : Filled cells width xs.length (gridIndex cells width xs ys zs) xs.length g)
    {cap : ℤ} (hcap : ∀ idx, 0 ≤ idx → idx < cells * cells * cells →
      ((listed (gridIndex cells width xs ys zs) xs.length idx).length : ℤ) ≤ cap)
    {cMax : List ℚ} (hcm : cumulativeMax (rs.map (· * mult)) = some cMax) {sf : Finder}
    (hsf : sf.starts.length = xs.length) (hsub : sf.subs = []) :
    ∃ sf' L, forRange 0 (rs.map (· * mult)).length (findOne g cap cMax xs ys zs (rs.map (· * mult))) sf = some sf' ∧
      Segs sf'.starts sf'.subs L ∧ L.length = xs.length ∧
      ∀ i (hi : i < L.length), L[i].Nodup ∧
        ∀ j : ℤ, j ∈ L[i] ↔ ∃ k : ℕ, j = k ∧ i < k ∧ k < xs.length ∧ Touch xs ys zs rs mult i k := by
  set n := xs.length with hn
  set I := gridIndex cells width xs ys zs with hI
  set rs' := rs.map (· * mult) with hrs'
  have hrl : rs'.length = n := by rw [hrs', List.length_map, S.hr]
  have hne' : rs' ≠ [] := by
    intro h
    have := S.hne
    rw [h] at hrl
    exact this (List.length_eq_zero_iff.mp hrl.symm)
  obtain ⟨ms, em, hml, hmax⟩ := cumulativeMax_spec hne'
  rw [hcm, Option.some.injEq] at em
  subst em
  set R : ℕ → ℚ := fun i => co rs' i + co cMax i with hRdef
  set F : ℕ → List ℤ := fun i => partners cells I n (boundsOf cells width xs ys zs (R i) i) xs ys zs rs' i with hF
  set L : List (List ℤ) := (List.range n).map F with hL
  have hLl : L.length = n := by rw [hL, List.length_map, List.length_range]
  have hLi : ∀ i (hi : i < L.length), L[i] = F i := by intro i hi; simp [hL]
  have hco : ∀ i, co rs' i = co rs i * mult := fun i => co_map rs mult i
  have hcM : ∀ i < n, (∀ j, i ≤ j → j < n → co rs j * mult ≤ co cMax i) ∧ ∃ j, i ≤ j ∧ j < n ∧ co cMax i = co rs j * mult := by
    intro i hi
    obtain ⟨m, e, h1, j, h2, h3, h4⟩ := hmax i (by omega)
    have : co cMax i = m := by
      unfold co
      rw [List.getD_eq_getElem?_getD, e]
      rfl
    rw [this]
    refine ⟨fun j a b => ?_, j, h2, by omega, by rw [h4, hco]⟩
    have := h1 j a (by omega)
    rw [hco] at this
    exact this
  have hreach : ∀ i < n, ∀ j, i ≤ j → j < n → mult * (co rs i + co rs j) ≤ R i := by
    intro i hi j hij hj
    have := (hcM i hi).1 j hij hj
    simp only [hRdef, hco]
    linarith
  have hR' : ∀ i < n, 2 * R i + width / cells ≤ width := by
    intro i hi
    obtain ⟨_, j, a, b, e⟩ := hcM i hi
    have := S.small i j a b
    simp only [hRdef, hco, e]
    linarith
  have hR0 : ∀ i < n, 0 ≤ R i := by
    intro i hi
    exact le_trans (mul_nonneg S.hm.le (add_nonneg (S.radii i hi) (S.radii i hi))) (hreach i hi i (le_refl _) hi)
  obtain ⟨sf', e, hl, hsub', hv⟩ := forRange_nat (fun k (sf : Finder) => sf.starts.length = n ∧
      sf.subs = (L.take k).flatten ∧ ∀ i < k, sf.starts[i]? = some ((L.take i).flatten.length : ℤ))
    (lo := 0) (hi := n) (Nat.zero_le _) (findOne g cap cMax xs ys zs rs') sf
    ⟨hsf, by simpa using hsub, fun i hi => absurd hi (by omega)⟩ (by
    rintro k sf - hk ⟨hl, hs, hv⟩
    have hg := (boundsOf_good S (ih := k) hk (hR0 k hk) (hR' k hk)).1
    have hmc := markCells_spec hf (le_refl _) hg hcap (ih := k) rfl S.hy S.hz hrl hk sf.subs
    refine ⟨⟨sf.starts.set k sf.subs.length, sf.subs ++ F k⟩, ?_, ?_, ?_, ?_⟩
    · unfold findOne
      refine bind_of (rd_co (by omega)) (bind_of (wr_natCast (by omega)) (bind_of (rd_co (by omega))
        (bind_of (rd_co hk) (bind_of (rd_co (by rw [S.hy]; exact hk)) (bind_of (rd_co (by rw [S.hz]; exact hk)) ?_)))))
      rw [hf.hcw, hf.hwidth]
      exact bind_of hmc rfl
    · dsimp only
      rw [List.length_set, hl]
    · dsimp only
      rw [take_succ_flatten (by omega), hLi, hs]
    · intro i hi
      dsimp only
      by_cases hik : i = k
      · subst hik
        rw [List.getElem?_set_self (by omega), hs]
      · rw [List.getElem?_set_ne (Ne.symm hik)]
        exact hv i (by omega))
  refine ⟨sf', L, by rw [hrl]; exact e, ⟨by omega, ?_, fun i hi => hv i (by omega)⟩, hLl, ?_⟩
  · rw [hsub', ← hLl, List.take_length]
  · intro i hi
    rw [hLi]
    have hi' : i < n := by omega
    refine ⟨partners_nodup (boundsOf_good S (ih := i) hi' (hR0 i hi') (hR' i hi')).1 _ _ _ _ _ _ _, fun j => ?_⟩
    exact mem_partners S hi' (hR' i hi') (hreach i hi') j

/-! ## Reading the finder -/

theorem hostCountIn_split {ih : ℤ} {l : List ℤ} (hs : l.Pairwise (· < ·)) (hn : ih ∉ l) :
    hostCountIn ih l = ((l.filter (fun j => decide (j < ih))).length : ℤ) ∧
    l = l.filter (fun j => decide (j < ih)) ++ l.filter (fun j => decide (ih < j)) := by
  induction l with
  | nil => exact ⟨rfl, rfl⟩
  | cons a l ih' =>
    rw [List.pairwise_cons] at hs
    have hna : ih ≠ a := fun h => hn (h ▸ List.mem_cons_self)
    obtain ⟨i1, i2⟩ := ih' hs.2 (fun h => hn (List.mem_cons_of_mem _ h))
    by_cases h : a > ih
    · have hempty : (a :: l).filter (fun j => decide (j < ih)) = [] := by
        rw [List.filter_eq_nil_iff]
        intro b hb
        rcases List.mem_cons.mp hb with rfl | hb
        · simp; omega
        · have := hs.1 b hb
          simp; omega
      have hall : (a :: l).filter (fun j => decide (ih < j)) = a :: l := by
        rw [List.filter_eq_self]
        intro b hb
        rcases List.mem_cons.mp hb with rfl | hb
        · simp; omega
        · have := hs.1 b hb
          simp; omega
      rw [hostCountIn, if_pos h, hempty, hall]
      exact ⟨rfl, rfl⟩
    · rw [hostCountIn, if_neg h, List.filter_cons_of_pos (by simp; omega), List.filter_cons_of_neg (by simp; omega), i1]
      refine ⟨by rw [List.length_cons]; push_cast; ring, ?_⟩
      rw [List.cons_append, ← i2]

theorem hosts_of_intersects {sf : Finder} {ih : ℤ} {l : List ℤ} (h : sf.intersects ih = some l)
    (hs : l.Pairwise (· < ·)) (hn : ih ∉ l) :
    sf.hosts ih = some (l.filter (fun j => decide (j < ih))) ∧
    sf.subhalos ih = some (l.filter (fun j => decide (ih < j))) ∧
    sf.hostCount ih = some ((l.filter (fun j => decide (j < ih))).length : ℤ) ∧
    sf.subhaloCount ih = some ((l.filter (fun j => decide (ih < j))).length : ℤ) := by
  obtain ⟨h1, h2⟩ := hostCountIn_split hs hn
  set A := l.filter (fun j => decide (j < ih)) with hA
  set B := l.filter (fun j => decide (ih < j)) with hB
  have hc : sf.hostCount ih = some (A.length : ℤ) := by
    unfold Finder.hostCount
    refine bind_of h ?_
    rw [h1]
  have hl : l.length = A.length + B.length := by
    rw [← List.length_append, ← h2]
  refine ⟨?_, ?_, hc, ?_⟩
  · unfold Finder.hosts
    refine bind_of h (bind_of hc ?_)
    unfold slice
    rw [if_pos ⟨le_refl _, by omega, by omega⟩, Int.toNat_natCast]
    show some (l.take A.length) = some A
    rw [h2, List.take_left']
    rfl
  · unfold Finder.subhalos
    refine bind_of h (bind_of hc ?_)
    unfold slice
    rw [if_pos ⟨by omega, by omega, le_refl _⟩, Int.toNat_natCast, Int.toNat_natCast, List.take_length, h2, List.drop_left']
    rfl
  · unfold Finder.subhaloCount
    have hi : sf.intersectCount ih = some (l.length : ℤ) := by
      unfold Finder.intersects at h
      obtain ⟨se, e1, e2⟩ := Option.bind_eq_some_iff.mp h
      unfold Finder.intersectCount
      refine bind_of e1 ?_
      unfold slice at e2
      split_ifs at e2 with hh
      rw [Option.some.injEq] at e2
      rw [← e2, List.length_drop, List.length_take]
      congr 1
      omega
    refine bind_of hi (bind_of hc ?_)
    rw [hl]
    congr 1
    push_cast
    ring

theorem mem_hostsOf {L : List (List ℤ)} {n sh : ℕ} (hn : n ≤ L.length) {j : ℤ} :
    j ∈ hostsOf L n sh ↔ ∃ i : ℕ, ∃ h : i < L.length, i < n ∧ j = i ∧ (sh : ℤ) ∈ L[i] := by
  unfold hostsOf
  rw [List.mem_flatMap]
  constructor
  · rintro ⟨i, hi, hj⟩
    rw [List.mem_range] at hi
    obtain ⟨hc, rfl⟩ := List.mem_replicate.mp hj
    have hi' : i < L.length := by omega
    refine ⟨i, hi', hi, rfl, ?_⟩
    rw [List.getD_eq_getElem?_getD, List.getElem?_eq_getElem hi', Option.getD_some] at hc
    exact List.count_pos_iff.mp (Nat.pos_of_ne_zero hc)
  · rintro ⟨i, hi', hi, rfl, hm⟩
    refine ⟨i, List.mem_range.mpr hi, List.mem_replicate.mpr ⟨?_, rfl⟩⟩
    rw [List.getD_eq_getElem?_getD, List.getElem?_eq_getElem hi', Option.getD_some]
    exact (List.count_pos_iff.mpr hm).ne'

theorem hostsOf_nodup {L : List (List ℤ)} {n sh : ℕ} (hn : n ≤ L.length) (h : ∀ i (hi : i < L.length), L[i].Nodup) :
    (hostsOf L n sh).Nodup := by
  unfold hostsOf
  rw [List.nodup_flatMap]
  constructor
  · intro i hi
    rw [List.mem_range] at hi
    have hi' : i < L.length := by omega
    rw [List.nodup_replicate, List.getD_eq_getElem?_getD, List.getElem?_eq_getElem hi', Option.getD_some]
    exact List.nodup_iff_count_le_one.mp (h i hi') _
  · refine (List.nodup_range).imp ?_
    intro a b hab
    rw [Function.onFun, List.disjoint_left]
    intro j hj hj'
    have e1 := (List.mem_replicate.mp hj).2
    have e2 := (List.mem_replicate.mp hj').2
    exact hab (by omega)

/-! ## C73 -/

/-- What `crossMatch` makes of lists of partners of higher index. -/
theorem crossMatch_partners {sf : Finder} {L : List (List ℤ)} {n : ℕ} (T : ℕ → ℕ → Prop) (hsegs : Segs sf.starts sf.subs L)
    (hLl : L.length = n)
    (hL : ∀ i (hi : i < L.length), L[i].Nodup ∧ ∀ j : ℤ, j ∈ L[i] ↔ ∃ k : ℕ, j = k ∧ i < k ∧ k < n ∧ T i k) :
    ∃ sf', crossMatch sf = some sf' ∧
      ∀ i < n, ∃ l : List ℤ, sf'.intersects i = some l ∧ l.Pairwise (· < ·) ∧
        ∀ j : ℤ, j ∈ l ↔ ∃ k : ℕ, j = k ∧ k < n ∧ k ≠ i ∧ T (min i k) (max i k) := by
  have hb : Below L.length L.flatten := by
    intro v hv
    rw [List.mem_flatten] at hv
    obtain ⟨l, hl, hv⟩ := hv
    obtain ⟨i, hi, rfl⟩ := List.mem_iff_getElem.mp hl
    obtain ⟨k, rfl, _, hk, _⟩ := ((hL i hi).2 v).mp hv
    exact ⟨k, by omega, rfl⟩
  obtain ⟨sf2, e2, _, hint⟩ := crossMatch_spec hsegs hb
  refine ⟨sf2, e2, ?_⟩
  intro i hi
  have hiL : i < L.length := by omega
  have hmemH : ∀ j : ℤ, j ∈ hostsOf L L.length i ↔ ∃ k : ℕ, j = k ∧ k < i ∧ T k i := by
    intro j
    rw [mem_hostsOf (le_refl _)]
    constructor
    · rintro ⟨k, hk, _, rfl, hm⟩
      obtain ⟨t, e, h1, _, h2⟩ := ((hL k hk).2 _).mp hm
      have : i = t := by exact_mod_cast e
      subst this
      exact ⟨k, rfl, h1, h2⟩
    · rintro ⟨k, rfl, h1, h2⟩
      exact ⟨k, by omega, by omega, rfl, ((hL k (by omega)).2 _).mpr ⟨i, rfl, h1, hi, h2⟩⟩
  have hmem : ∀ j : ℤ, j ∈ hostsOf L L.length i ++ L[i] ↔ ∃ k : ℕ, j = k ∧ k < n ∧ k ≠ i ∧
      T (min i k) (max i k) := by
    intro j
    rw [List.mem_append, hmemH, (hL i hiL).2]
    constructor
    · rintro (⟨k, rfl, h1, h2⟩ | ⟨k, rfl, h1, h2, h3⟩)
      · exact ⟨k, rfl, by omega, by omega, by rwa [min_eq_right h1.le, max_eq_left h1.le]⟩
      · exact ⟨k, rfl, h2, by omega, by rwa [min_eq_left h1.le, max_eq_right h1.le]⟩
    · rintro ⟨k, rfl, h1, h2, h3⟩
      rcases Nat.lt_or_gt_of_ne h2 with h | h
      · rw [min_eq_right h.le, max_eq_left h.le] at h3
        exact .inl ⟨k, rfl, h, h3⟩
      · rw [min_eq_left (Nat.le_of_lt h), max_eq_right (Nat.le_of_lt h)] at h3
        exact .inr ⟨k, rfl, h, h1, h3⟩
  have hnd : (hostsOf L L.length i ++ L[i]).Nodup := by
    rw [List.nodup_append]
    refine ⟨hostsOf_nodup (le_refl _) (fun i hi => (hL i hi).1), (hL i hiL).1, ?_⟩
    intro a ha b hb' hab
    obtain ⟨k, rfl, h1, _⟩ := (hmemH _).mp ha
    obtain ⟨k', e, h2, _⟩ := ((hL i hiL).2 _).mp hb'
    omega
  have hperm := List.perm_insertionSort (· ≤ ·) (hostsOf L L.length i ++ L[i])
  refine ⟨_, hint i hiL, ?_, fun j => ?_⟩
  · have h1 : (sorted (hostsOf L L.length i ++ L[i])).Pairwise (· ≤ ·) := List.pairwise_insertionSort _ _
    have h2 : (sorted (hostsOf L L.length i ++ L[i])).Nodup := hperm.nodup_iff.mpr hnd
    exact (h1.and h2).imp fun {a b} h => lt_of_le_of_ne h.1 h.2
  · rw [← hmem]
    exact hperm.mem_iff

/-- What `FindSubhalos` leaves in the finder, for any finder without entries. -/
theorem findSubhalos_spec {cells : ℤ} {width mult : ℚ} {xs ys zs rs : List ℚ} (S : Setting cells width xs ys zs rs mult)
    {g : Grid} (hf : Filled cells width xs.length (gridIndex cells width xs ys zs) xs.length g)
    {sf : Finder} (hsf : sf.starts.length = xs.length) (hsub : sf.subs = []) :
    ∃ sf', findSubhalos g sf xs ys zs rs mult = some (sf', rs) ∧
      ∀ i < xs.length, ∃ l : List ℤ, sf'.intersects i = some l ∧ l.Pairwise (· < ·) ∧
        ∀ j : ℤ, j ∈ l ↔ ∃ k : ℕ, j = k ∧ k < xs.length ∧ k ≠ i ∧ Touch xs ys zs rs mult i k := by
  obtain ⟨cap, ecap, _, hcap, _⟩ := hf.maxLength_eq (le_refl _)
  have hne' : rs.map (· * mult) ≠ [] := by
    intro h
    have h1 := S.hne
    have h2 := S.hr
    rw [List.map_eq_nil_iff] at h
    rw [h] at h2
    exact h1 (List.length_eq_zero_iff.mp h2.symm)
  obtain ⟨cMax, ecm, _⟩ := cumulativeMax_spec hne'
  obtain ⟨sf1, L, e1, hsegs, hLl, hL⟩ := find_spec S hf hcap ecm hsf hsub
  obtain ⟨sf2, e2, hint⟩ := crossMatch_partners (Touch xs ys zs rs mult) hsegs hLl hL
  refine ⟨sf2, ?_, ?_⟩
  · unfold findSubhalos
    refine bind_of ecap (bind_of ecm (bind_of e1 (bind_of e2 ?_)))
    congr 2
    rw [List.map_map]
    conv_rhs => rw [← List.map_id rs]
    apply List.map_congr_left
    intro r _
    simp only [Function.comp, id]
    exact mul_div_cancel_right₀ r S.hm.ne'
  · intro i hi
    obtain ⟨l, h1, h2, h3⟩ := hint i hi
    refine ⟨l, h1, h2, fun j => ?_⟩
    rw [h3]
    refine exists_congr fun k => and_congr_right fun _ => and_congr_right fun _ => and_congr_right fun _ => ?_
    rcases le_total i k with h | h
    · rw [min_eq_left h, max_eq_right h]
    · rw [min_eq_right h, max_eq_left h]
      exact touch_symm _ _ _ _ _ _ _

/-- C73 for spheres that do not touch through the periodic boundary and are not too large for the grid: in a freshly made
finder on a freshly made grid, the overlap list of every halo holds exactly the other halos whose scaled spheres touch its
own, each once and in increasing order; the hosts are those of lower and the subhalos those of higher index, which in a
catalogue sorted by radius are the larger and the smaller ones; the radii are left as given.
Missing: periodic images (`C73_periodic_counterexample`) and large spheres. -/
theorem C73_findSubhalos_partial (cells : ℤ) (width mult : ℚ) (xs ys zs rs : List ℚ)
    (S : Setting cells width xs ys zs rs mult) :
    ∃ g g' sf', newGrid cells width xs.length = some g ∧ g.insert xs ys zs = some g' ∧
      findSubhalos g' (newFinder g') xs ys zs rs mult = some (sf', rs) ∧
      ∀ i < xs.length, ∃ l : List ℤ, sf'.intersects i = some l ∧ l.Pairwise (· < ·) ∧
        (∀ j : ℤ, j ∈ l ↔ ∃ k : ℕ, j = k ∧ k < xs.length ∧ k ≠ i ∧ Touch xs ys zs rs mult i k) ∧
        sf'.hosts i = some (l.filter (fun j => decide (j < (i : ℤ)))) ∧
        sf'.subhalos i = some (l.filter (fun j => decide ((i : ℤ) < j))) ∧
        sf'.hostCount i = some ((l.filter (fun j => decide (j < (i : ℤ)))).length : ℤ) ∧
        sf'.subhaloCount i = some ((l.filter (fun j => decide ((i : ℤ) < j))).length : ℤ) := by
  obtain ⟨g, eg, fg⟩ := newGrid_filled cells width xs.length S.hc (gridIndex cells width xs ys zs)
  obtain ⟨g', eg', fg'⟩ := insert_filled S.hW S.hc fg (le_refl _) S.hy.ge S.hz.ge (fun i hi => by
    obtain ⟨a, b, c⟩ := S.inside i hi
    exact ⟨legal_of_inside a, legal_of_inside b, legal_of_inside c⟩)
  obtain ⟨sf', e, h⟩ := findSubhalos_spec S fg' (sf := newFinder g')
    (by unfold newFinder; rw [List.length_replicate, fg'.hnext]) rfl
  refine ⟨g, g', sf', eg, eg', e, fun i hi => ?_⟩
  obtain ⟨l, e1, e2, e3⟩ := h i hi
  refine ⟨l, e1, e2, e3, hosts_of_intersects e1 e2 ?_⟩
  intro hmem
  obtain ⟨k, hk, _, h', _⟩ := (e3 _).mp hmem
  exact h' (by exact_mod_cast hk.symm)

/-- C73: in such a setting the lists are symmetric. -/
theorem C73_symmetric (cells : ℤ) (width mult : ℚ) (xs ys zs rs : List ℚ) (S : Setting cells width xs ys zs rs mult) :
    ∃ g g' sf', newGrid cells width xs.length = some g ∧ g.insert xs ys zs = some g' ∧
      findSubhalos g' (newFinder g') xs ys zs rs mult = some (sf', rs) ∧
      ∀ i j : ℕ, i < xs.length → j < xs.length → ∃ li lj, sf'.intersects i = some li ∧ sf'.intersects j = some lj ∧
        ((j : ℤ) ∈ li ↔ (i : ℤ) ∈ lj) := by
  obtain ⟨g, g', sf', e1, e2, e3, h⟩ := C73_findSubhalos_partial cells width mult xs ys zs rs S
  refine ⟨g, g', sf', e1, e2, e3, fun i j hi hj => ?_⟩
  obtain ⟨li, a1, _, a3, _⟩ := h i hi
  obtain ⟨lj, b1, _, b3, _⟩ := h j hj
  refine ⟨li, lj, a1, b1, ?_⟩
  rw [a3, b3]
  constructor
  · rintro ⟨k, e, _, hk, ht⟩
    have : j = k := by exact_mod_cast e
    subst this
    exact ⟨i, rfl, hi, Ne.symm hk, (touch_symm _ _ _ _ _ _ _).mp ht⟩
  · rintro ⟨k, e, _, hk, ht⟩
    have : i = k := by exact_mod_cast e
    subst this
    exact ⟨j, rfl, hj, Ne.symm hk, (touch_symm _ _ _ _ _ _ _).mp ht⟩

/-- C73: in a catalogue sorted by decreasing radius, the hosts of a halo are exactly the touching halos before it, which are
at least as large, and its subhalos are touching halos that are at most as large; every touching halo is one or the other. -/
theorem C73_hosts_larger (cells : ℤ) (width mult : ℚ) (xs ys zs rs : List ℚ) (S : Setting cells width xs ys zs rs mult)
    (hsort : ∀ i j, i < j → j < xs.length → co rs j ≤ co rs i) :
    ∃ g g' sf', newGrid cells width xs.length = some g ∧ g.insert xs ys zs = some g' ∧
      findSubhalos g' (newFinder g') xs ys zs rs mult = some (sf', rs) ∧
      ∀ i < xs.length, ∃ hs ss : List ℤ, sf'.hosts i = some hs ∧ sf'.subhalos i = some ss ∧
        sf'.intersects i = some (hs ++ ss) ∧
        (∀ j ∈ hs, ∃ k : ℕ, j = k ∧ k < i ∧ co rs i ≤ co rs k ∧ Touch xs ys zs rs mult i k) ∧
        (∀ j ∈ ss, ∃ k : ℕ, j = k ∧ i < k ∧ co rs k ≤ co rs i ∧ Touch xs ys zs rs mult i k) ∧
        (∀ k : ℕ, k < xs.length → k ≠ i → Touch xs ys zs rs mult i k → (k : ℤ) ∈ hs ++ ss) := by
  obtain ⟨g, g', sf', e1, e2, e3, h⟩ := C73_findSubhalos_partial cells width mult xs ys zs rs S
  refine ⟨g, g', sf', e1, e2, e3, fun i hi => ?_⟩
  obtain ⟨l, a1, a2, a3, a4, a5, -, -⟩ := h i hi
  have hni : (i : ℤ) ∉ l := by
    intro hmem
    obtain ⟨k, hk, _, h', _⟩ := (a3 _).mp hmem
    exact h' (by exact_mod_cast hk.symm)
  have hsplit := (hostCountIn_split a2 hni).2
  refine ⟨_, _, a4, a5, by rw [← hsplit, a1], ?_, ?_, ?_⟩
  · intro j hj
    rw [List.mem_filter, decide_eq_true_iff] at hj
    obtain ⟨k, rfl, hk, hki, ht⟩ := (a3 j).mp hj.1
    have : k < i := by exact_mod_cast hj.2
    exact ⟨k, rfl, this, hsort k i this hi, ht⟩
  · intro j hj
    rw [List.mem_filter, decide_eq_true_iff] at hj
    obtain ⟨k, rfl, hk, hki, ht⟩ := (a3 j).mp hj.1
    have : i < k := by exact_mod_cast hj.2
    exact ⟨k, rfl, this, hsort i k this hk, ht⟩
  · intro k hk hki ht
    rw [← hsplit]
    exact (a3 _).mpr ⟨k, rfl, hk, hki, ht⟩

/-- The setting of the examples: three halos, of which the first two touch. -/
theorem example_setting : Setting 5 10 [1, 2, 8] [1, 1, 8] [1, 1, 8] [1, 1/2, 1/4] 1 := by
  refine ⟨by norm_num, by norm_num, rfl, rfl, rfl, by simp, by norm_num, ?_, ?_, ?_⟩
  · intro i hi
    have : i = 0 ∨ i = 1 ∨ i = 2 := by simp at hi; omega
    rcases this with rfl | rfl | rfl <;> norm_num [co]
  · intro i hi
    have : i = 0 ∨ i = 1 ∨ i = 2 := by simp at hi; omega
    rcases this with rfl | rfl | rfl <;> norm_num [co]
  · intro i j hij hj
    have h1 : j = 0 ∨ j = 1 ∨ j = 2 := by simp at hj; omega
    have h2 : i = 0 ∨ i = 1 ∨ i = 2 := by simp at hj; omega
    rcases h1 with rfl | rfl | rfl <;> rcases h2 with rfl | rfl | rfl <;> norm_num [co]

/-- One call of `FindSubhalos`, for a freshly made grid. render/halo/finder.go 57-111. -/
def findOnce (cells : ℤ) (width : ℚ) (xs ys zs rs : List ℚ) (mult : ℚ) : Option Finder := do
  let g ← newGrid cells width xs.length
  let g ← g.insert xs ys zs
  let r ← findSubhalos g (newFinder g) xs ys zs rs mult
  some r.1

/-- Two calls of `FindSubhalos` on the same finder, for a freshly made grid. render/halo/finder.go 57-111. -/
def findTwice (cells : ℤ) (width : ℚ) (xs ys zs rs : List ℚ) (mult : ℚ) : Option (Finder × Finder) := do
  let g ← newGrid cells width xs.length
  let g ← g.insert xs ys zs
  let r ← findSubhalos g (newFinder g) xs ys zs rs mult
  let r' ← findSubhalos g r.1 xs ys zs r.2 mult
  some (r.1, r'.1)

example : ((findTwice 5 10 [1, 2, 8] [1, 1, 8] [1, 1, 8] [1, 1/2, 1/4] 1).bind fun sf => sf.1.subhalos 0) = some [1] := by
  decide +kernel
example := C73_findSubhalos_partial 5 10 1 _ _ _ _ example_setting
example := C73_symmetric 5 10 1 _ _ _ _ example_setting
example := C73_hosts_larger 5 10 1 _ _ _ _ example_setting (by
  intro i j hij hj
  have h1 : j = 1 ∨ j = 2 := by simp at hj; omega
  have h2 : i = 0 ∨ i = 1 := by simp at hj; omega
  rcases h1 with rfl | rfl <;> rcases h2 with rfl | rfl <;> norm_num [co])

/-- C73 fails for halos that touch through the boundary of the box: they are not found. -/
theorem C73_periodic_counterexample :
    PeriodicTouch 10 [1, 9] [5, 5] [5, 5] [3/2, 3/2] 1 0 1 ∧
    Setting 5 10 [1, 9] [5, 5] [5, 5] [3/2, 3/2] 1 ∧
    ((findTwice 5 10 [1, 9] [5, 5] [5, 5] [3/2, 3/2] 1).bind fun sf => sf.1.intersects 0) = some [] := by
  refine ⟨⟨1, 0, 0, by norm_num [co]⟩, ⟨by norm_num, by norm_num, rfl, rfl, rfl, by simp, by norm_num, ?_, ?_, ?_⟩,
    by decide +kernel⟩
  · intro i hi
    have : i = 0 ∨ i = 1 := by simp at hi; omega
    rcases this with rfl | rfl <;> norm_num [co]
  · intro i hi
    have : i = 0 ∨ i = 1 := by simp at hi; omega
    rcases this with rfl | rfl <;> norm_num [co]
  · intro i j hij hj
    have h1 : j = 0 ∨ j = 1 := by simp at hj; omega
    have h2 : i = 0 ∨ i = 1 := by simp at hj; omega
    rcases h1 with rfl | rfl <;> rcases h2 with rfl | rfl <;> norm_num [co]

/-- C73 fails for large spheres as well: a halo inside another one is listed eight times, or not at all. -/
theorem C73_large_counterexample :
    ((findOnce 3 9 [4, 5] [4, 4] [4, 4] [4, 1/4] 1).bind fun sf => sf.intersects 0) = some [1, 1, 1, 1, 1, 1, 1, 1] ∧
    Touch [4, 5] [4, 4] [4, 4] [3, 1] 1 0 1 ∧
    ((findOnce 3 9 [4, 5] [4, 4] [4, 4] [3, 1] 1).bind fun sf => sf.intersects 0) = some [] := by
  refine ⟨by decide +kernel, by norm_num [Touch, co], by decide +kernel⟩

/-- C73: a search in an empty catalogue panics. -/
theorem C73_empty (g : Grid) (sf : Finder) (xs ys zs : List ℚ) (mult : ℚ) : findSubhalos g sf xs ys zs [] mult = none := by
  unfold findSubhalos
  cases g.maxLength <;> rfl

example : findSubhalos ⟨1, 1, 1, [-1], []⟩ (newFinder ⟨1, 1, 1, [-1], []⟩) [] [] [] [] 1 = none := C73_empty _ _ _ _ _ _

/-! ## C74 -/

/-- C74 for catalogues without overlaps: the second call gives the same (empty) lists, since the first one leaves no entries.
Missing: catalogues with overlaps (`C74_reuse_counterexample`). -/
theorem C74_reuse_partial (cells : ℤ) (width mult : ℚ) (xs ys zs rs : List ℚ) (S : Setting cells width xs ys zs rs mult)
    {g : Grid} (hf : Filled cells width xs.length (gridIndex cells width xs ys zs) xs.length g) {sf sf1 : Finder}
    {rs1 : List ℚ} (hsf : sf.starts.length = xs.length) (hsub : sf.subs = [])
    (e : findSubhalos g sf xs ys zs rs mult = some (sf1, rs1)) (hl : sf1.starts.length = xs.length) (hno : sf1.subs = []) :
    ∃ sf2, findSubhalos g sf1 xs ys zs rs1 mult = some (sf2, rs) ∧
      ∀ i < xs.length, sf2.intersects i = sf1.intersects i := by
  obtain ⟨sf', e', h⟩ := findSubhalos_spec S hf hsf hsub
  rw [e, Option.some.injEq, Prod.mk.injEq] at e'
  obtain ⟨rfl, rfl⟩ := e'
  obtain ⟨sf2, e2, h2⟩ := findSubhalos_spec S hf hl hno
  refine ⟨sf2, e2, fun i hi => ?_⟩
  obtain ⟨l, a1, a2, a3⟩ := h i hi
  obtain ⟨l', b1, b2, b3⟩ := h2 i hi
  rw [a1, b1]
  congr 1
  refine List.Perm.eq_of_pairwise (le := (· < ·)) ?_ b2 a2 ?_
  · intro a b _ _ h1 h2
    omega
  · refine (List.perm_ext_iff_of_nodup (b2.imp fun h => ne_of_lt h) (a2.imp fun h => ne_of_lt h)).mpr fun j => ?_
    rw [a3, b3]

/-- Two halos far apart meet the hypotheses of `C74_reuse_partial`. -/
example : ((do
    let g ← newGrid 5 10 2
    let g ← g.insert [1, 8] [1, 8] [1, 8]
    let r ← findSubhalos g (newFinder g) [1, 8] [1, 8] [1, 8] [1/2, 1/4] 1
    some (r.1.starts, r.1.subs, r.2)) : Option _) = some ([0, 0], [], [1/2, 1/4]) := by decide +kernel

/-- C74 fails: the second call appends to the entries of the first, and the last halo then has the first one as a host, four
times, although the two do not touch. -/
theorem C74_reuse_counterexample :
    ((findTwice 5 10 [1, 2, 8] [1, 1, 8] [1, 1, 8] [1, 1/2, 1/4] 1).bind fun sf => sf.1.intersects 2) = some [] ∧
    ((findTwice 5 10 [1, 2, 8] [1, 1, 8] [1, 1, 8] [1, 1/2, 1/4] 1).bind fun sf => sf.2.intersects 2) = some [0, 0, 0, 0] := by
  decide +kernel

end Verif.Halo
