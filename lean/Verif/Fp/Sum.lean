import Verif.Fp.SumModel
import Verif.Fp.Rand
import Verif.Render.Order
import Verif.Render.Relate
import Mathlib.Algebra.Order.BigOperators.Group.List

/-! # C129: images in machine arithmetic -/

set_option autoImplicit false

namespace Verif.Fp

open Verif.Go Verif.Geom Verif.Render

/-! ## Specification -/

/-- Relative error of a sum of `n` numbers in double precision, in any order. -/
def sumErr (n : ℕ) : ℚ := (1 + 1 / 2 ^ 53) ^ (n - 1) - 1

/-- The same pass with other values of samples. -/
def withVal {M N : Type} [Zero N] (p : SegRun M) (val : Vec → N) : SegRun N :=
  ⟨p.mc, p.direct, p.xs, p.vs, p.pick,
    fun i => ⟨(p.init i).tet, (p.init i).vtet, (p.init i).vecBuf, (p.init i).wbuf, (p.init i).draws,
      (p.init i).cells.map fun _ => 0⟩, val⟩

/-- Exact sum of the values of the samples in an image cell. -/
def exactImage (ps : List (SegRun R64)) (U : List (ℤ × ℤ × ℤ × Fin 6 → List Vec)) (x y z : ℤ) : ℚ :=
  (List.zipWith (fun p u => (withVal p fun w => (p.val w).val).image u x y z) ps U).sum

/-- Exact sum of their absolute values. -/
def absImage (ps : List (SegRun R64)) (U : List (ℤ × ℤ × ℤ × Fin 6 → List Vec)) (x y z : ℤ) : ℚ :=
  (List.zipWith (fun p u => (withVal p fun w => |(p.val w).val|).image u x y z) ps U).sum

/-- Number of samples in an image cell. -/
def countImage (ps : List (SegRun R64)) (U : List (ℤ × ℤ × ℤ × Fin 6 → List Vec)) (x y z : ℤ) : ℕ :=
  (List.zipWith (fun p u => (withVal p fun _ => (1 : ℕ)).image u x y z) ps U).sum

/-- The same for the pixels of a projected image. -/
def exactImage2 (proj : ℤ) (ps : List (SegRun R64)) (U : List (ℤ × ℤ × ℤ × Fin 6 → List Vec)) (i j : ℤ) : ℚ :=
  (List.zipWith (fun p u => (withVal p fun w => (p.val w).val).image2 proj u i j) ps U).sum

/-- The same for the pixels of a projected image. -/
def absImage2 (proj : ℤ) (ps : List (SegRun R64)) (U : List (ℤ × ℤ × ℤ × Fin 6 → List Vec)) (i j : ℤ) : ℚ :=
  (List.zipWith (fun p u => (withVal p fun w => |(p.val w).val|).image2 proj u i j) ps U).sum

/-- The same for the pixels of a projected image. -/
def countImage2 (proj : ℤ) (ps : List (SegRun R64)) (U : List (ℤ × ℤ × ℤ × Fin 6 → List Vec)) (i j : ℤ) : ℕ :=
  (List.zipWith (fun p u => (withVal p fun _ => (1 : ℕ)).image2 proj u i j) ps U).sum

/-- Number of samples of a pass. -/
def samples (p : SegRun R64) : ℕ := 6 * (p.mc.segWidth / p.mc.skip).toNat ^ 3 * p.mc.points.toNat

/-! ## Proof -/

theorem sumErr_mono {a b : ℕ} (h : a ≤ b) : sumErr a ≤ sumErr b := by
  unfold sumErr
  have := pow_le_pow_right₀ (by norm_num : (1 : ℚ) ≤ 1 + 1 / 2 ^ 53) (Nat.sub_le_sub_right h 1)
  linarith

theorem sumErr_nonneg (n : ℕ) : 0 ≤ sumErr n := by
  unfold sumErr
  have := one_le_pow₀ (by norm_num : (1 : ℚ) ≤ 1 + 1 / 2 ^ 53) (n := n - 1)
  linarith

/-- A value, and what was added up to get it: exact sum, sum of absolute values, number of summands. -/
structure Sums (r : R64) (t : ℚ × ℚ × ℕ) : Prop where
  rep : F64 r.val
  abs : |t.1| ≤ t.2.1
  none : t.2.2 = 0 → r.val = 0 ∧ t.1 = 0 ∧ t.2.1 = 0
  err : |r.val - t.1| ≤ t.2.1 * sumErr t.2.2

theorem sums_zero : Sums 0 0 :=
  ⟨rep_zero _, by simp, fun _ => ⟨rfl, rfl, rfl⟩, by
    change |(0 : ℚ) - 0| ≤ 0 * _
    simp⟩

theorem sums_one {v : R64} (h : F64 v.val) : Sums v (v.val, |v.val|, 1) :=
  ⟨h, le_rfl, fun h => absurd h one_ne_zero, by simp [sumErr]⟩

theorem sums_add : Additive Sums := by
  rintro ⟨a⟩ ⟨e, A, n⟩ ⟨b⟩ ⟨f, B, k⟩ ⟨ra, ha, na, ea⟩ ⟨rb, hb, nb, eb⟩
  dsimp only at ra ha na ea rb hb nb eb
  change Sums ⟨f64 (a + b)⟩ (e + f, A + B, n + k)
  by_cases hn : n = 0
  · obtain ⟨rfl, rfl, rfl⟩ := na hn
    subst hn
    rw [zero_add, zero_add, zero_add, zero_add, f64_of rb]
    exact ⟨rb, hb, nb, eb⟩
  by_cases hk : k = 0
  · obtain ⟨rfl, rfl, rfl⟩ := nb hk
    subst hk
    rw [add_zero, add_zero, add_zero, add_zero, f64_of ra]
    exact ⟨ra, ha, na, ea⟩
  have hA : 0 ≤ A := (abs_nonneg _).trans ha
  have hB : 0 ≤ B := (abs_nonneg _).trans hb
  refine ⟨f64_rep _, (abs_add_le e f).trans (by dsimp only; linarith), fun h => by dsimp only at h; omega, ?_⟩
  dsimp only
  -- the larger of the two errors
  obtain ⟨l, hl, h1, h2⟩ : ∃ l, l + 1 = n + k ∧ n ≤ l ∧ k ≤ l := ⟨n + k - 1, by omega, by omega, by omega⟩
  have hE : sumErr (n + k) = 1 / 2 ^ 53 + (1 + 1 / 2 ^ 53) * sumErr l := by
    unfold sumErr
    rw [← hl, show l + 1 - 1 = (l - 1) + 1 by omega, pow_succ]
    ring
  have ea' : |a - e| ≤ A * sumErr l := ea.trans (mul_le_mul_of_nonneg_left (sumErr_mono h1) hA)
  have eb' : |b - f| ≤ B * sumErr l := eb.trans (mul_le_mul_of_nonneg_left (sumErr_mono h2) hB)
  have er : |f64 (a + b) - (a + b)| ≤ |a + b| / 2 ^ 53 := rnd_err 53 (a + b)
  have hab : |a + b| ≤ A + B + (A * sumErr l + B * sumErr l) := by
    have e1 : a + b = (e + f) + ((a - e) + (b - f)) := by ring
    have t1 := abs_add_le (e + f) ((a - e) + (b - f))
    have t2 := abs_add_le e f
    have t3 := abs_add_le (a - e) (b - f)
    rw [← e1] at t1
    linarith
  have tri : |f64 (a + b) - (e + f)| ≤ |f64 (a + b) - (a + b)| + (|a - e| + |b - f|) := by
    have e1 : f64 (a + b) - (e + f) = (f64 (a + b) - (a + b)) + ((a - e) + (b - f)) := by ring
    rw [e1]
    exact (abs_add_le _ _).trans (by gcongr; exact abs_add_le _ _)
  have hd : |a + b| / 2 ^ 53 ≤ (A + B + (A * sumErr l + B * sumErr l)) / 2 ^ 53 := by gcongr
  rw [hE]
  calc |f64 (a + b) - (e + f)| ≤ (A + B + (A * sumErr l + B * sumErr l)) / 2 ^ 53 + (A * sumErr l + B * sumErr l) := by
        linarith
    _ = (A + B) * (1 / 2 ^ 53 + (1 + 1 / 2 ^ 53) * sumErr l) := by ring

/-- The same pass, counting what is added up. -/
def tally (p : SegRun R64) : SegRun (ℚ × ℚ × ℕ) := withVal p fun w => ((p.val w).val, |(p.val w).val|, 1)

theorem forall₂_map_const {α γ : Type} {P : α → γ → Prop} {l : List α} {c : γ} (h : ∀ a ∈ l, P a c) :
    List.Forall₂ P l (l.map fun _ : α => c) := by
  induction l with
  | nil => exact .nil
  | cons a l ih => exact .cons (h a (by simp)) (ih fun b hb => h b (by simp [hb]))

theorem tally_same {p : SegRun R64} (hz : ∀ i, ∀ v ∈ (p.init i).cells, v = 0) (hv : ∀ w, F64 (p.val w).val) :
    p.Same Sums (tally p) :=
  ⟨rfl, rfl, rfl, rfl, rfl, fun i => ⟨rfl, rfl, rfl, rfl, rfl,
    forall₂_map_const fun a ha => by rw [hz i a ha]; exact sums_zero⟩, fun w => sums_one (hv w)⟩

/-- Sums commute with parts of values. -/
theorem image_map {M N : Type} [AddCommMonoid M] [AddCommMonoid N] (f : M →+ N) (p : SegRun R64) (val : Vec → M)
    (U : ℤ × ℤ × ℤ × Fin 6 → List Vec) (x y z : ℤ) :
    f ((withVal p val).image U x y z) = (withVal p fun w => f (val w)).image U x y z := by
  unfold SegRun.image sampleImage
  rw [map_sum]
  refine Finset.sum_congr rfl fun t _ => ?_
  rw [map_sum]
  refine Finset.sum_congr rfl fun i _ => ?_
  rw [apply_ite f, map_zero]
  rfl

theorem tally_image (p : SegRun R64) (U : ℤ × ℤ × ℤ × Fin 6 → List Vec) (x y z : ℤ) :
    (tally p).image U x y z = ((withVal p fun w => (p.val w).val).image U x y z,
      (withVal p fun w => |(p.val w).val|).image U x y z, (withVal p fun _ => (1 : ℕ)).image U x y z) := by
  have h1 := image_map (AddMonoidHom.fst ℚ (ℚ × ℕ)) p (fun w => ((p.val w).val, |(p.val w).val|, 1)) U x y z
  have h2 := image_map ((AddMonoidHom.fst ℚ ℕ).comp (AddMonoidHom.snd ℚ (ℚ × ℕ))) p
    (fun w => ((p.val w).val, |(p.val w).val|, 1)) U x y z
  have h3 := image_map ((AddMonoidHom.snd ℚ ℕ).comp (AddMonoidHom.snd ℚ (ℚ × ℕ))) p
    (fun w => ((p.val w).val, |(p.val w).val|, 1)) U x y z
  exact Prod.ext h1 (Prod.ext h2 h3)

theorem tally_images (ps : List (SegRun R64)) (U : List (ℤ × ℤ × ℤ × Fin 6 → List Vec)) (x y z : ℤ) :
    (List.zipWith (fun p u => SegRun.image p u x y z) (ps.map tally) U).sum =
      (exactImage ps U x y z, absImage ps U x y z, countImage ps U x y z) := by
  unfold exactImage absImage countImage
  induction ps generalizing U with
  | nil => rfl
  | cons p ps ih =>
    cases U with
    | nil => rfl
    | cons u U =>
      simp only [List.map_cons, List.zipWith_cons_cons, List.sum_cons]
      rw [ih U, tally_image]
      rfl

theorem tally_ok {p : SegRun R64} {reqVel : Bool} {cells : ℤ} {dom : CellBounds} (h : p.Ok reqVel cells dom) :
    (tally p).Ok reqVel cells dom :=
  ⟨h.mc, h.hcells, h.hdom, fun hq w w' => by
      change ((p.val w).val, |(p.val w).val|, 1) = ((p.val w').val, |(p.val w').val|, 1)
      rw [h.val hq w w'], h.xs, h.vs, fun id => ⟨(h.init id).vec, (h.init id).w⟩, fun id => by
      change ((p.init id).cells.map fun _ => (0 : ℚ × ℚ × ℕ)) = _
      rw [h.zero id, List.map_replicate]
      rfl, h.seg, h.direct⟩

theorem additive_flip {M N : Type} [Add M] [Add N] {R : M → N → Prop} (h : Additive R) :
    Additive fun b a => R a b := fun a b c d hab hcd => h b a d c hab hcd

theorem same_flip {M N : Type} {R : M → N → Prop} {p : SegRun M} {q : SegRun N} (h : p.Same R q) :
    q.Same (fun b a => R a b) p :=
  ⟨h.mc.symm, h.direct.symm, h.xs.symm, h.vs.symm, h.pick.symm, fun i => ⟨(h.init i).tet.symm, (h.init i).vtet.symm,
    (h.init i).vecBuf.symm, (h.init i).wbuf.symm, (h.init i).draws.symm, (h.init i).cells.flip⟩, h.val⟩

theorem zero_cell {grid : List R64} {i : ℤ} {v : ℚ × ℚ × ℕ} (h : rd (grid.map fun _ => (0 : ℚ × ℚ × ℕ)) i = some v) :
    v = 0 := by
  obtain ⟨-, h⟩ := rd_some_iff.mp h
  obtain ⟨_, h⟩ := List.getElem?_eq_some_iff.mp h
  rw [← h]
  simp

/-- **C129**: rendering with rounded sums. Under every schedule the value of an image cell differs from the exact sum of the
values of the samples in the cell by at most the relative error `(1 + 2 ^ -53) ^ (n - 1) - 1` of the sum of their absolute
values, where `n` is the number of samples in the cell. -/
theorem C129_image_partial (reqVel : Bool) (m : ℕ) (cells : ℤ) (hc : 0 < cells) (dom : CellBounds)
    (ps : List (SegRun R64)) (hps : ∀ p ∈ ps, p.Ok reqVel cells dom) (hoff : ∀ p ∈ ps, p.OffFaces)
    (hv : ∀ p ∈ ps, ∀ w, F64 (p.val w).val) :
    ∃ U : List (ℤ × ℤ × ℤ × Fin 6 → List Vec), List.Forall₂ (fun p u => ∀ t, u t ∈ p.mc.unitBufs) ps U ∧
      ∀ grid : List R64, (grid.length : ℤ) = boxLen3 dom → (∀ v ∈ grid, v = 0) →
        (∃ out, Rendered reqVel m ps grid out) ∧
        ∀ out, Rendered reqVel m ps grid out → out.length = grid.length ∧
          ∀ x y z, IsCell dom.width x y z →
            ∃ v, rd out (x + y * dom.width 0 + z * (dom.width 0 * dom.width 1)) = some v ∧
              if x < cells ∧ y < cells ∧ z < cells then
                |v.val - exactImage ps U x y z| ≤ absImage ps U x y z * sumErr (countImage ps U x y z)
              else v.val = 0 := by
  obtain ⟨U, hU, hrun⟩ := C107_image_partial (M := ℚ × ℚ × ℕ) reqVel m cells hc dom (ps.map tally)
    (fun q hq => by
      obtain ⟨p, hp, rfl⟩ := List.mem_map.mp hq
      exact tally_ok (hps p hp))
    (fun q hq => by
      obtain ⟨p, hp, rfl⟩ := List.mem_map.mp hq
      exact hoff p hp)
  have hsame : List.Forall₂ (SegRun.Same Sums) ps (ps.map tally) := by
    rw [List.forall₂_map_right_iff, List.forall₂_same]
    intro p hp
    refine tally_same (fun i v hvi => ?_) (hv p hp)
    rw [(hps p hp).zero i] at hvi
    exact List.eq_of_mem_replicate hvi
  refine ⟨U, ?_, fun grid hg hz => ?_⟩
  · rw [List.forall₂_map_left_iff] at hU
    exact hU
  set grid' : List (ℚ × ℚ × ℕ) := grid.map fun _ => 0 with hgrid'
  have hgg : List.Forall₂ Sums grid grid' := forall₂_map_const fun a ha => by rw [hz a ha]; exact sums_zero
  have hl' : (grid'.length : ℤ) = boxLen3 dom := by rw [hgrid', List.length_map]; exact hg
  obtain ⟨⟨out', ho'⟩, hall⟩ := hrun grid' hl'
  constructor
  · obtain ⟨out, ho, _⟩ := Rendered.same (additive_flip sums_add)
      (List.Forall₂.flip (hsame.imp fun _ _ h => same_flip h)) hgg.flip ho'
    exact ⟨out, ho⟩
  · intro out ho
    obtain ⟨out'', ho'', hrel⟩ := Rendered.same sums_add hsame hgg ho
    obtain ⟨hlen, hcells⟩ := hall out'' ho''
    refine ⟨by rw [hrel.length_eq, hlen, hgrid', List.length_map], fun x y z hcell => ?_⟩
    obtain ⟨v0, h1, h2⟩ := hcells x y z hcell
    have hv0 : v0 = 0 := zero_cell h1
    rw [hv0, zero_add] at h2
    dsimp only at h2
    obtain ⟨v, hv1, hv2⟩ := follows_rd hrel.flip _ _ h2
    refine ⟨v, hv1, ?_⟩
    by_cases hxyz : x < cells ∧ y < cells ∧ z < cells
    · rw [if_pos hxyz]
      rw [if_pos hxyz, tally_images] at hv2
      exact hv2.err
    · rw [if_neg hxyz]
      rw [if_neg hxyz] at hv2
      exact (hv2.none rfl).1

theorem absImage_nonneg (ps : List (SegRun R64)) (U : List (ℤ × ℤ × ℤ × Fin 6 → List Vec)) (x y z : ℤ) :
    0 ≤ absImage ps U x y z := by
  unfold absImage
  refine List.sum_nonneg fun a ha => ?_
  obtain ⟨i, hi, rfl⟩ := List.getElem_of_mem ha
  rw [List.getElem_zipWith]
  unfold SegRun.image sampleImage
  refine Finset.sum_nonneg fun t _ => Finset.sum_nonneg fun i _ => ?_
  split
  · exact abs_nonneg _
  · exact le_rfl

/-- **C129**: two executions of the same passes, under whatever schedules, give pixels that differ by at most twice the
error. For densities (all values of one sign) the bound is relative to the pixel. -/
theorem C129_schedules_partial (reqVel : Bool) (m : ℕ) (cells : ℤ) (hc : 0 < cells) (dom : CellBounds)
    (ps : List (SegRun R64)) (hps : ∀ p ∈ ps, p.Ok reqVel cells dom) (hoff : ∀ p ∈ ps, p.OffFaces)
    (hv : ∀ p ∈ ps, ∀ w, F64 (p.val w).val) :
    ∃ U : List (ℤ × ℤ × ℤ × Fin 6 → List Vec), List.Forall₂ (fun p u => ∀ t, u t ∈ p.mc.unitBufs) ps U ∧
      ∀ grid out out' : List R64, (grid.length : ℤ) = boxLen3 dom → (∀ v ∈ grid, v = 0) →
        Rendered reqVel m ps grid out → Rendered reqVel m ps grid out' → out.length = out'.length ∧
          ∀ x y z, IsCell dom.width x y z →
            ∃ v v', rd out (x + y * dom.width 0 + z * (dom.width 0 * dom.width 1)) = some v ∧
              rd out' (x + y * dom.width 0 + z * (dom.width 0 * dom.width 1)) = some v' ∧
              |v.val - v'.val| ≤ 2 * (absImage ps U x y z * sumErr (countImage ps U x y z)) ∧
              ((∀ p ∈ ps, ∀ w, 0 ≤ (p.val w).val) → absImage ps U x y z = exactImage ps U x y z) := by
  obtain ⟨U, hU, h⟩ := C129_image_partial reqVel m cells hc dom ps hps hoff hv
  refine ⟨U, hU, fun grid out out' hg hz ho ho' => ?_⟩
  obtain ⟨l1, h1⟩ := (h grid hg hz).2 out ho
  obtain ⟨l2, h2⟩ := (h grid hg hz).2 out' ho'
  refine ⟨l1.trans l2.symm, fun x y z hcell => ?_⟩
  obtain ⟨v, hv1, hv2⟩ := h1 x y z hcell
  obtain ⟨v', hv1', hv2'⟩ := h2 x y z hcell
  refine ⟨v, v', hv1, hv1', ?_, fun hpos => ?_⟩
  · by_cases hxyz : x < cells ∧ y < cells ∧ z < cells
    · rw [if_pos hxyz] at hv2 hv2'
      have := abs_sub_le v.val (exactImage ps U x y z) v'.val
      rw [abs_sub_comm (exactImage ps U x y z)] at this
      linarith
    · rw [if_neg hxyz] at hv2 hv2'
      rw [hv2, hv2', sub_self, abs_zero]
      exact mul_nonneg (by norm_num) (mul_nonneg (absImage_nonneg ps U x y z) (sumErr_nonneg _))
  · unfold absImage exactImage
    clear h h1 h2 hU hps hoff hv ho ho' hv2 hv2'
    induction ps generalizing U with
    | nil => rfl
    | cons p ps ih =>
      cases U with
      | nil => rfl
      | cons u U =>
        simp only [List.zipWith_cons_cons, List.sum_cons]
        rw [ih U (fun q hq => hpos q (by simp [hq]))]
        have e : (fun w => |(p.val w).val|) = fun w => (p.val w).val := by
          funext w
          exact abs_of_nonneg (hpos p (by simp) w)
        rw [e]

/-! ## Projected images -/

theorem image2_map {M N : Type} [AddCommMonoid M] [AddCommMonoid N] (f : M →+ N) (proj : ℤ) (p : SegRun R64)
    (val : Vec → M) (U : ℤ × ℤ × ℤ × Fin 6 → List Vec) (i j : ℤ) :
    f ((withVal p val).image2 proj U i j) = (withVal p fun w => f (val w)).image2 proj U i j := by
  unfold SegRun.image2 sampleColumn
  rw [map_sum]
  exact Finset.sum_congr rfl fun k _ => image_map f p val U _ _ _

theorem tally_image2 (proj : ℤ) (p : SegRun R64) (U : ℤ × ℤ × ℤ × Fin 6 → List Vec) (i j : ℤ) :
    (tally p).image2 proj U i j = ((withVal p fun w => (p.val w).val).image2 proj U i j,
      (withVal p fun w => |(p.val w).val|).image2 proj U i j, (withVal p fun _ => (1 : ℕ)).image2 proj U i j) := by
  have h1 := image2_map (AddMonoidHom.fst ℚ (ℚ × ℕ)) proj p (fun w => ((p.val w).val, |(p.val w).val|, 1)) U i j
  have h2 := image2_map ((AddMonoidHom.fst ℚ ℕ).comp (AddMonoidHom.snd ℚ (ℚ × ℕ))) proj p
    (fun w => ((p.val w).val, |(p.val w).val|, 1)) U i j
  have h3 := image2_map ((AddMonoidHom.snd ℚ ℕ).comp (AddMonoidHom.snd ℚ (ℚ × ℕ))) proj p
    (fun w => ((p.val w).val, |(p.val w).val|, 1)) U i j
  exact Prod.ext h1 (Prod.ext h2 h3)

theorem tally_images2 (proj : ℤ) (ps : List (SegRun R64)) (U : List (ℤ × ℤ × ℤ × Fin 6 → List Vec)) (i j : ℤ) :
    (List.zipWith (fun p u => SegRun.image2 proj p u i j) (ps.map tally) U).sum =
      (exactImage2 proj ps U i j, absImage2 proj ps U i j, countImage2 proj ps U i j) := by
  unfold exactImage2 absImage2 countImage2
  induction ps generalizing U with
  | nil => rfl
  | cons p ps ih =>
    cases U with
    | nil => rfl
    | cons u U =>
      simp only [List.map_cons, List.zipWith_cons_cons, List.sum_cons]
      rw [ih U, tally_image2]
      rfl

theorem tally_ok2 {proj : ℤ} {p : SegRun R64} {reqVel : Bool} {cells : ℤ} {dom : CellBounds}
    (h : p.Ok2 proj reqVel cells dom) : (tally p).Ok2 proj reqVel cells dom :=
  ⟨h.mc, h.hcells, h.hdom, fun hq w w' => by
      change ((p.val w).val, |(p.val w).val|, 1) = ((p.val w').val, |(p.val w').val|, 1)
      rw [h.val hq w w'], h.xs, h.vs, fun id => ⟨(h.init id).vec, (h.init id).w⟩, fun id => by
      change ((p.init id).cells.map fun _ => (0 : ℚ × ℚ × ℕ)) = _
      rw [h.zero id, List.map_replicate]
      rfl, h.seg, h.direct⟩

/-- **C129**: the same for projected images. -/
theorem C129_project_partial (proj : ℤ) (hproj : 0 ≤ proj ∧ proj < 3) (reqVel : Bool) (m : ℕ) (cells : ℤ) (hc : 0 < cells)
    (dom : CellBounds) (ps : List (SegRun R64)) (hps : ∀ p ∈ ps, p.Ok2 proj reqVel cells dom)
    (hoff : ∀ p ∈ ps, p.OffFaces) (hdep : ∀ p ∈ ps, p.OffDepth proj) (hv : ∀ p ∈ ps, ∀ w, F64 (p.val w).val) :
    ∃ U : List (ℤ × ℤ × ℤ × Fin 6 → List Vec), List.Forall₂ (fun p u => ∀ t, u t ∈ p.mc.unitBufs) ps U ∧
      ∀ grid : List R64, (grid.length : ℤ) = boxLen2 dom proj → (∀ v ∈ grid, v = 0) →
        (∃ out, Rendered2 proj reqVel m ps grid out) ∧
        ∀ out, Rendered2 proj reqVel m ps grid out → out.length = grid.length ∧
          ∀ i j, (0 ≤ i ∧ i < dom.width (projDims proj).1) → (0 ≤ j ∧ j < dom.width (projDims proj).2.1) →
            ∃ v, rd out (i + j * dom.width (projDims proj).1) = some v ∧
              if i < cells ∧ j < cells then
                |v.val - exactImage2 proj ps U i j| ≤ absImage2 proj ps U i j * sumErr (countImage2 proj ps U i j)
              else v.val = 0 := by
  obtain ⟨U, hU, hrun⟩ := C111_image_partial (M := ℚ × ℚ × ℕ) proj hproj reqVel m cells hc dom (ps.map tally)
    (fun q hq => by
      obtain ⟨p, hp, rfl⟩ := List.mem_map.mp hq
      exact tally_ok2 (hps p hp))
    (fun q hq => by
      obtain ⟨p, hp, rfl⟩ := List.mem_map.mp hq
      exact hoff p hp)
    (fun q hq => by
      obtain ⟨p, hp, rfl⟩ := List.mem_map.mp hq
      exact hdep p hp)
  have hsame : List.Forall₂ (SegRun.Same Sums) ps (ps.map tally) := by
    rw [List.forall₂_map_right_iff, List.forall₂_same]
    intro p hp
    refine tally_same (fun i v hvi => ?_) (hv p hp)
    rw [(hps p hp).zero i] at hvi
    exact List.eq_of_mem_replicate hvi
  refine ⟨U, ?_, fun grid hg hz => ?_⟩
  · rw [List.forall₂_map_left_iff] at hU
    exact hU
  set grid' : List (ℚ × ℚ × ℕ) := grid.map fun _ => 0 with hgrid'
  have hgg : List.Forall₂ Sums grid grid' := forall₂_map_const fun a ha => by rw [hz a ha]; exact sums_zero
  have hl' : (grid'.length : ℤ) = boxLen2 dom proj := by rw [hgrid', List.length_map]; exact hg
  obtain ⟨⟨out', ho'⟩, hall⟩ := hrun grid' hl'
  constructor
  · obtain ⟨out, ho, _⟩ := Rendered2.same (additive_flip sums_add)
      (List.Forall₂.flip (hsame.imp fun _ _ h => same_flip h)) hgg.flip ho'
    exact ⟨out, ho⟩
  · intro out ho
    obtain ⟨out'', ho'', hrel⟩ := Rendered2.same sums_add hsame hgg ho
    obtain ⟨hlen, hcells⟩ := hall out'' ho''
    refine ⟨by rw [hrel.length_eq, hlen, hgrid', List.length_map], fun i j hi hj => ?_⟩
    obtain ⟨v0, h1, h2⟩ := hcells i j hi hj
    have hv0 : v0 = 0 := zero_cell h1
    rw [hv0, zero_add] at h2
    dsimp only at h2
    obtain ⟨v, hv1, hv2⟩ := follows_rd hrel.flip _ _ h2
    refine ⟨v, hv1, ?_⟩
    by_cases hij : i < cells ∧ j < cells
    · rw [if_pos hij]
      rw [if_pos hij, tally_images2] at hv2
      exact hv2.err
    · rw [if_neg hij]
      rw [if_neg hij] at hv2
      exact (hv2.none rfl).1

/-! ## The mean density -/

/-- `y` is `x` after at most `k` roundings. -/
def Rel (k : ℕ) (x y : ℚ) : Prop := |y - x| ≤ |x| * ((1 + 1 / 2 ^ 53) ^ k - 1)

theorem pow_ge (k : ℕ) : (1 : ℚ) ≤ (1 + 1 / 2 ^ 53) ^ k := one_le_pow₀ (by norm_num)

theorem rel_refl (x : ℚ) : Rel 0 x x := by simp [Rel]

theorem rel_size {k : ℕ} {x y : ℚ} (h : Rel k x y) : |y| ≤ |x| * (1 + 1 / 2 ^ 53) ^ k := by
  unfold Rel at h
  have := abs_add_le x (y - x)
  rw [add_sub_cancel] at this
  linarith

theorem rel_f64 {k : ℕ} {x y : ℚ} (h : Rel k x y) : Rel (k + 1) x (f64 y) := by
  have h1 := rel_size h
  unfold Rel at h ⊢
  have e : |f64 y - y| ≤ |y| / 2 ^ 53 := rnd_err 53 y
  have t : |f64 y - x| ≤ |f64 y - y| + |y - x| := abs_sub_le _ _ _
  rw [pow_succ]
  generalize (1 + 1 / 2 ^ 53 : ℚ) ^ k = r at *
  have h2 : |y| / 2 ^ 53 ≤ |x| * r / 2 ^ 53 := by gcongr
  calc |f64 y - x| ≤ |x| * r / 2 ^ 53 + |x| * (r - 1) := by linarith
    _ = |x| * (r * (1 + 1 / 2 ^ 53) - 1) := by ring

theorem rel_mul {j k : ℕ} {x y x' y' : ℚ} (h : Rel j x y) (h' : Rel k x' y') : Rel (j + k) (x * x') (y * y') := by
  have h1 := rel_size h'
  unfold Rel at *
  rw [pow_add, abs_mul]
  have hj := pow_ge j
  generalize (1 + 1 / 2 ^ 53 : ℚ) ^ k = r at *
  generalize (1 + 1 / 2 ^ 53 : ℚ) ^ j = q at *
  have e : y * y' - x * x' = (y - x) * y' + x * (y' - x') := by ring
  rw [e]
  have t := abs_add_le ((y - x) * y') (x * (y' - x'))
  rw [abs_mul, abs_mul] at t
  have a := mul_le_mul h h1 (abs_nonneg _) (mul_nonneg (abs_nonneg _) (by linarith))
  have b := mul_le_mul_of_nonneg_left h' (abs_nonneg x)
  calc _ ≤ _ := t
    _ ≤ |x| * (q - 1) * (|x'| * r) + |x| * (|x'| * (r - 1)) := add_le_add a b
    _ = |x| * |x'| * (q * r - 1) := by ring

theorem rel_div {k : ℕ} {x y : ℚ} (h : Rel k x y) (d : ℚ) : Rel k (x / d) (y / d) := by
  have := rel_mul h (rel_refl d⁻¹)
  rwa [add_zero, ← div_eq_mul_inv, ← div_eq_mul_inv] at this

/-- The value of a sample is within eight roundings of the exact one. -/
theorem ptVal_rel {cells countWidth points skip : ℤ} (h1 : |cells| ≤ 2 ^ 53) (h2 : |countWidth| ≤ 2 ^ 53)
    (h3 : |points| ≤ 2 ^ 53) (h4 : |skip * skip * skip| ≤ 2 ^ 53) :
    Rel 8 (mcPtVal false points skip (rendererPtVal false cells countWidth))
      (mcPtVal64 points skip (rendererPtVal64 cells countWidth)) := by
  have a : Rel 1 ((cells : ℚ) / countWidth) (f64 ((cells : ℚ) / countWidth)) := rel_f64 (rel_refl _)
  have b := rel_f64 (rel_mul (rel_f64 (rel_mul a a)) a)
  have c := rel_f64 (rel_mul (rel_f64 (rel_div (rel_f64 (rel_div b (points : ℚ))) 6)) (rel_refl ((skip * skip * skip : ℤ) : ℚ)))
  unfold mcPtVal64 rendererPtVal64 mcPtVal rendererPtVal
  rw [f64_of (f64_int h1), f64_of (f64_int h2), f64_of (f64_int h3), f64_of (f64_int h4)]
  exact c

theorem sums_sum {out : List R64} {out' : List (ℚ × ℚ × ℕ)} (h : List.Forall₂ Sums out out') :
    0 ≤ out'.sum.2.1 ∧
      |(out.map R64.val).sum - out'.sum.1| ≤ out'.sum.2.1 * sumErr out'.sum.2.2 := by
  induction h with
  | nil => simp [sumErr]
  | cons h1 _ ih =>
    rename_i r t out out' _
    simp only [List.map_cons, List.sum_cons, Prod.fst_add, Prod.snd_add]
    obtain ⟨i0, ih⟩ := ih
    have h0 : 0 ≤ t.2.1 := (abs_nonneg _).trans h1.abs
    refine ⟨add_nonneg h0 i0, ?_⟩
    have e : r.val + (out.map R64.val).sum - (t.1 + out'.sum.1) =
        (r.val - t.1) + ((out.map R64.val).sum - out'.sum.1) := by ring
    rw [e, add_mul]
    refine (abs_add_le _ _).trans (add_le_add ?_ ?_)
    · exact h1.err.trans (mul_le_mul_of_nonneg_left (sumErr_mono (by omega)) h0)
    · exact ih.trans (mul_le_mul_of_nonneg_left (sumErr_mono (by omega)) i0)

theorem card_tetras {n : ℤ} : (tetras n).card = 6 * n.toNat ^ 3 := by
  unfold tetras
  rw [Finset.card_product, Finset.card_product, Finset.card_product, Int.card_Ico, Finset.card_univ, Fintype.card_fin, sub_zero]
  ring

theorem tally_total {p : SegRun R64} {c : ℚ} (hc : 0 ≤ c) (hval : ∀ w, (p.val w).val = c) (U : ℤ × ℤ × ℤ × Fin 6 → List Vec) :
    (tally p).total U = ((samples p : ℚ) * c, (samples p : ℚ) * c, samples p) := by
  unfold SegRun.total sampleTotal tally withVal samples
  simp only [hval, abs_of_nonneg hc, Finset.sum_const, Finset.card_range, card_tetras, smul_smul]
  refine Prod.ext ?_ (Prod.ext ?_ ?_)
  · simp
  · simp
  · simp

theorem tally_totals {ps : List (SegRun R64)} {U : List (ℤ × ℤ × ℤ × Fin 6 → List Vec)} (hl : ps.length = U.length)
    (c : SegRun R64 → ℚ) (hc : ∀ p ∈ ps, 0 ≤ c p) (hval : ∀ p ∈ ps, ∀ w, (p.val w).val = c p) :
    (List.zipWith SegRun.total (ps.map tally) U).sum =
      ((ps.map fun p => (samples p : ℚ) * c p).sum, (ps.map fun p => (samples p : ℚ) * c p).sum, (ps.map samples).sum) := by
  induction ps generalizing U with
  | nil => rfl
  | cons p ps ih =>
    cases U with
    | nil => simp at hl
    | cons u U =>
      simp only [List.map_cons, List.zipWith_cons_cons, List.sum_cons]
      rw [ih (by simpa using hl) (fun q hq => hc q (by simp [hq])) (fun q hq => hval q (by simp [hq])),
        tally_total (hc p (by simp)) (hval p (by simp))]
      rfl

theorem rel_sum {k : ℕ} (ps : List (SegRun R64)) (c cex : SegRun R64 → ℚ) (hc : ∀ p ∈ ps, 0 ≤ cex p)
    (h : ∀ p ∈ ps, Rel k (cex p) (c p)) :
    0 ≤ (ps.map fun p => (samples p : ℚ) * cex p).sum ∧
      Rel k (ps.map fun p => (samples p : ℚ) * cex p).sum (ps.map fun p => (samples p : ℚ) * c p).sum := by
  induction ps with
  | nil => simp [Rel]
  | cons p ps ih =>
    obtain ⟨i0, ih⟩ := ih (fun q hq => hc q (by simp [hq])) (fun q hq => h q (by simp [hq]))
    have h0 : 0 ≤ (samples p : ℚ) * cex p := mul_nonneg (by positivity) (hc p (by simp))
    have h1 := rel_mul (rel_refl (samples p : ℚ)) (h p (by simp))
    rw [zero_add] at h1
    simp only [List.map_cons, List.sum_cons]
    refine ⟨add_nonneg h0 i0, ?_⟩
    unfold Rel at *
    rw [abs_of_nonneg (add_nonneg h0 i0), add_mul]
    rw [abs_of_nonneg h0] at h1
    rw [abs_of_nonneg i0] at ih
    refine le_trans ?_ (add_le_add h1 ih)
    refine le_trans (le_of_eq ?_) (abs_add_le _ _)
    congr 1
    ring

theorem mean_core {E T S : ℚ} {k N : ℕ} (hT : 0 ≤ T) (hE : 0 ≤ E) (h : Rel k T E) (hS : |S - E| ≤ E * sumErr N) :
    |S - T| ≤ T * ((1 + 1 / 2 ^ 53) ^ (N + k) - 1) := by
  have h1 := rel_size h
  unfold Rel at h
  rw [abs_of_nonneg hT] at h h1
  rw [abs_of_nonneg hE] at h1
  have h2 : sumErr N ≤ (1 + 1 / 2 ^ 53) ^ N - 1 := by
    unfold sumErr
    have := pow_le_pow_right₀ (by norm_num : (1 : ℚ) ≤ 1 + 1 / 2 ^ 53) (Nat.sub_le N 1)
    linarith
  have hN := pow_ge N
  rw [pow_add]
  have t : |S - T| ≤ |S - E| + |E - T| := abs_sub_le _ _ _
  have h3 : E * sumErr N ≤ E * ((1 + 1 / 2 ^ 53) ^ N - 1) := mul_le_mul_of_nonneg_left h2 hE
  generalize (1 + 1 / 2 ^ 53 : ℚ) ^ k = r at *
  generalize (1 + 1 / 2 ^ 53 : ℚ) ^ N = q at *
  have h4 : E * (q - 1) ≤ T * r * (q - 1) := mul_le_mul_of_nonneg_right h1 (by linarith)
  calc |S - T| ≤ T * r * (q - 1) + T * (r - 1) := by linarith
    _ = T * (q * r - 1) := by ring

theorem ptVal_nonneg {points skip : ℤ} {v : ℚ} (hp : 0 ≤ points) (hs : 0 ≤ skip) (hv : 0 ≤ v) : 0 ≤ mcPtVal64 points skip v := by
  have h1 : (0 : ℚ) ≤ f64 points := f64_nonneg (by exact_mod_cast hp)
  have h2 : (0 : ℚ) ≤ f64 ((skip * skip * skip : ℤ) : ℚ) := f64_nonneg (by exact_mod_cast (by positivity))
  unfold mcPtVal64
  exact f64_nonneg (mul_nonneg (f64_nonneg (div_nonneg (f64_nonneg (div_nonneg hv h1)) (by norm_num))) h2)

theorem rendererPtVal_nonneg {cells countWidth : ℤ} (hc : 0 ≤ cells) (hn : 0 ≤ countWidth) :
    0 ≤ rendererPtVal64 cells countWidth := by
  have h1 : (0 : ℚ) ≤ f64 cells := f64_nonneg (by exact_mod_cast hc)
  have h2 : (0 : ℚ) ≤ f64 countWidth := f64_nonneg (by exact_mod_cast hn)
  have h3 := f64_nonneg (div_nonneg h1 h2)
  unfold rendererPtVal64
  exact f64_nonneg (mul_nonneg (f64_nonneg (mul_nonneg h3 h3)) h3)

/-- All samples of all segments together carry one for each cell of the box. -/
theorem exact_total (cells countWidth : ℤ) (hN : 0 < countWidth) (ps : List (SegRun R64))
    (hskip : ∀ p ∈ ps, 0 < p.mc.skip) (hseg : ∀ p ∈ ps, 0 ≤ p.mc.segWidth)
    (hpts : ∀ p ∈ ps, 0 < p.mc.points) (hdvd : ∀ p ∈ ps, p.mc.skip ∣ p.mc.segWidth)
    (hall : (ps.map fun p => p.mc.segWidth ^ 3).sum = countWidth ^ 3) :
    (ps.map fun p => (samples p : ℚ) * mcPtVal false p.mc.points p.mc.skip (rendererPtVal false cells countWidth)).sum =
      (cells : ℚ) ^ 3 := by
  have key : ∀ qs : List (SegRun R64), (∀ q ∈ qs, q ∈ ps) →
      (qs.map fun p => (samples p : ℚ) * mcPtVal false p.mc.points p.mc.skip (rendererPtVal false cells countWidth)).sum =
        ((cells : ℚ) / countWidth) ^ 3 * (((qs.map fun p => p.mc.segWidth ^ 3).sum : ℤ) : ℚ) := by
    intro qs
    induction qs with
    | nil => intro _; simp
    | cons p qs ih =>
      intro hq
      have hp := hq p (by simp)
      simp only [List.map_cons, List.sum_cons]
      rw [ih (fun q hq' => hq q (by simp [hq']))]
      have hs := density_sum (withVal p fun _ => mcPtVal false p.mc.points p.mc.skip (rendererPtVal false cells countWidth))
        cells countWidth (hskip p hp) (hdvd p hp) (hseg p hp) (hpts p hp) (fun _ => rfl) (fun _ => [])
      have e : (samples p : ℚ) * mcPtVal false p.mc.points p.mc.skip (rendererPtVal false cells countWidth) =
          ((cells : ℚ) / countWidth) ^ 3 * (p.mc.segWidth : ℚ) ^ 3 := by
        rw [← show _ = ((cells : ℚ) / countWidth) ^ 3 * (p.mc.segWidth : ℚ) ^ 3 from hs]
        unfold withVal samples
        simp only [Finset.sum_const, Finset.card_range, card_tetras, smul_smul]
        rw [nsmul_eq_mul]
      rw [e]
      push_cast
      ring
  rw [key ps (fun q hq => hq), hall]
  have : (countWidth : ℚ) ≠ 0 := by exact_mod_cast hN.ne'
  push_cast
  field_simp

theorem ptVal_exact_nonneg {cells countWidth points skip : ℤ} (h1 : 0 < points) (h2 : 0 < skip) (h3 : 0 < cells)
    (h4 : 0 < countWidth) : 0 ≤ mcPtVal false points skip (rendererPtVal false cells countWidth) := by
  have h1 : (0 : ℚ) < points := by exact_mod_cast h1
  have h2 : (0 : ℚ) < skip := by exact_mod_cast h2
  have h3 : (0 : ℚ) < cells := by exact_mod_cast h3
  have h4 : (0 : ℚ) < countWidth := by exact_mod_cast h4
  unfold mcPtVal rendererPtVal
  simp only [Bool.false_eq_true, if_false]
  push_cast
  positivity

/-- What holds for a list of passes over all segments. -/
structure Full (cells countWidth : ℤ) (ps : List (SegRun R64)) : Prop where
  cells : 0 < cells ∧ cells ≤ 2 ^ 53
  width : 0 < countWidth ∧ countWidth ≤ 2 ^ 53
  points : ∀ p ∈ ps, 0 < p.mc.points ∧ p.mc.points ≤ 2 ^ 53
  skip : ∀ p ∈ ps, 0 < p.mc.skip ∧ p.mc.skip * p.mc.skip * p.mc.skip ≤ 2 ^ 53
  seg : ∀ p ∈ ps, 0 ≤ p.mc.segWidth
  dvd : ∀ p ∈ ps, p.mc.skip ∣ p.mc.segWidth
  all : (ps.map fun p => p.mc.segWidth ^ 3).sum = countWidth ^ 3

theorem Full.rel {cells countWidth : ℤ} {ps : List (SegRun R64)} (h : Full cells countWidth ps) {p : SegRun R64}
    (hp : p ∈ ps) : Rel 8 (mcPtVal false p.mc.points p.mc.skip (rendererPtVal false cells countWidth))
      (mcPtVal64 p.mc.points p.mc.skip (rendererPtVal64 cells countWidth)) := by
  have h1 := h.cells
  have h2 := h.width
  have h3 := h.points p hp
  have h4 := h.skip p hp
  have h5 : 0 < p.mc.skip * p.mc.skip * p.mc.skip := by have := h4.1; positivity
  exact ptVal_rel (abs_le.mpr ⟨by linarith, h1.2⟩) (abs_le.mpr ⟨by linarith, h2.2⟩) (abs_le.mpr ⟨by linarith, h3.2⟩)
    (abs_le.mpr ⟨by linarith, h4.2⟩)

theorem zero_same {ps : List (SegRun R64)} (hz : ∀ p ∈ ps, ∀ i, ∀ v ∈ (p.init i).cells, v = 0)
    (hv : ∀ p ∈ ps, ∀ w, F64 (p.val w).val) : List.Forall₂ (SegRun.Same Sums) ps (ps.map tally) := by
  rw [List.forall₂_map_right_iff, List.forall₂_same]
  exact fun p hp => tally_same (hz p hp) (hv p hp)

theorem zero_grid {grid : List R64} (hz : ∀ v ∈ grid, v = 0) :
    List.Forall₂ Sums grid (grid.map fun _ => (0 : ℚ × ℚ × ℕ)) :=
  forall₂_map_const fun a ha => by rw [hz a ha]; exact sums_zero

/-- **C129**: with rounded values of samples and rounded sums, the densities in an image of the whole box still add up to
the number of cells in the box, with a relative error below `(1 + 2 ^ -53) ^ (n + 8) - 1`, where `n` is the number of
samples. -/
theorem C129_mean (m : ℕ) (cells countWidth : ℤ) (dom : CellBounds) (hd : ∀ j, cells ≤ dom.width j)
    (ps : List (SegRun R64)) (hps : ∀ p ∈ ps, p.Ok false cells dom) (hfull : Full cells countWidth ps)
    (hval : ∀ p ∈ ps, ∀ w, (p.val w).val = mcPtVal64 p.mc.points p.mc.skip (rendererPtVal64 cells countWidth))
    (grid out : List R64) (hg : (grid.length : ℤ) = boxLen3 dom) (hz : ∀ v ∈ grid, v = 0)
    (h : Rendered false m ps grid out) :
    |(out.map R64.val).sum - (cells : ℚ) ^ 3| ≤
      (cells : ℚ) ^ 3 * ((1 + 1 / 2 ^ 53) ^ ((ps.map samples).sum + 8) - 1) := by
  obtain ⟨U, hU, hrun⟩ := C107_total (M := ℚ × ℚ × ℕ) false m cells hfull.cells.1 dom hd (ps.map tally)
    (fun q hq => by
      obtain ⟨p, hp, rfl⟩ := List.mem_map.mp hq
      exact tally_ok (hps p hp))
  obtain ⟨out', ho', hrel⟩ := Rendered.same sums_add (zero_same (fun p hp i v hvi => by
      rw [(hps p hp).zero i] at hvi
      exact List.eq_of_mem_replicate hvi) (fun p hp w => by rw [hval p hp w]; exact f64_rep _)) (zero_grid hz) h
  obtain ⟨-, hs⟩ := (hrun _ (by rw [List.length_map]; exact hg)).2 out' ho'
  have hl : ps.length = U.length := by rw [← hU.length_eq, List.length_map]
  have hc0 : ∀ p ∈ ps, 0 ≤ mcPtVal64 p.mc.points p.mc.skip (rendererPtVal64 cells countWidth) := fun p hp =>
    ptVal_nonneg (hfull.points p hp).1.le (hfull.skip p hp).1.le
      (rendererPtVal_nonneg hfull.cells.1.le hfull.width.1.le)
  rw [tally_totals hl _ hc0 hval, show (grid.map fun _ => (0 : ℚ × ℚ × ℕ)).sum = 0 by simp, zero_add] at hs
  obtain ⟨-, herr⟩ := sums_sum hrel
  rw [hs] at herr
  obtain ⟨hT, hR⟩ := rel_sum (k := 8) ps (fun p => mcPtVal64 p.mc.points p.mc.skip (rendererPtVal64 cells countWidth))
    (fun p => mcPtVal false p.mc.points p.mc.skip (rendererPtVal false cells countWidth))
    (fun p hp => ptVal_exact_nonneg (hfull.points p hp).1 (hfull.skip p hp).1 hfull.cells.1 hfull.width.1)
    (fun p hp => hfull.rel hp)
  rw [exact_total cells countWidth hfull.width.1 ps (fun p hp => (hfull.skip p hp).1) hfull.seg
    (fun p hp => (hfull.points p hp).1) hfull.dvd hfull.all] at hT hR
  refine mean_core hT ?_ hR herr
  exact List.sum_nonneg fun x hx => by
    obtain ⟨p, hp, rfl⟩ := List.mem_map.mp hx
    exact mul_nonneg (by positivity) (hc0 p hp)

/-- **C129**: the same for a projection through an image of the whole box: the densities add up to the number of cells
in the box divided by the depth of the image. -/
theorem C129_mean_project (proj : ℤ) (hproj : 0 ≤ proj ∧ proj < 3) (m : ℕ) (cells countWidth : ℤ) (dom : CellBounds)
    (hd : ∀ j, cells ≤ dom.width j) (hd' : dom.width (projDims proj).2.2 ≤ 2 ^ 53)
    (ps : List (SegRun R64)) (hps : ∀ p ∈ ps, p.Ok2 proj false cells dom) (hfull : Full cells countWidth ps)
    (hval : ∀ p ∈ ps, ∀ w, (p.val w).val =
      projPtVal64 dom proj (mcPtVal64 p.mc.points p.mc.skip (rendererPtVal64 cells countWidth)))
    (grid out : List R64) (hg : (grid.length : ℤ) = boxLen2 dom proj) (hz : ∀ v ∈ grid, v = 0)
    (h : Rendered2 proj false m ps grid out) :
    |(out.map R64.val).sum - (cells : ℚ) ^ 3 / dom.width (projDims proj).2.2| ≤
      (cells : ℚ) ^ 3 / dom.width (projDims proj).2.2 * ((1 + 1 / 2 ^ 53) ^ ((ps.map samples).sum + 9) - 1) := by
  obtain ⟨U, hU, hrun⟩ := C111_total (M := ℚ × ℚ × ℕ) proj hproj false m cells hfull.cells.1 dom hd (ps.map tally)
    (fun q hq => by
      obtain ⟨p, hp, rfl⟩ := List.mem_map.mp hq
      exact tally_ok2 (hps p hp))
  obtain ⟨out', ho', hrel⟩ := Rendered2.same sums_add (zero_same (fun p hp i v hvi => by
      rw [(hps p hp).zero i] at hvi
      exact List.eq_of_mem_replicate hvi) (fun p hp w => by rw [hval p hp w]; exact f64_rep _)) (zero_grid hz) h
  obtain ⟨-, hs⟩ := (hrun _ (by rw [List.length_map]; exact hg)).2 out' ho'
  have hl : ps.length = U.length := by rw [← hU.length_eq, List.length_map]
  have hw0 : 0 < dom.width (projDims proj).2.2 := hfull.cells.1.trans_le (hd _)
  have hw : f64 (dom.width (projDims proj).2.2 : ℚ) = dom.width (projDims proj).2.2 :=
    f64_of (f64_int (abs_le.mpr ⟨by linarith, hd'⟩))
  have hwq : (0 : ℚ) < dom.width (projDims proj).2.2 := by exact_mod_cast hw0
  have hc0 : ∀ p ∈ ps, 0 ≤ projPtVal64 dom proj (mcPtVal64 p.mc.points p.mc.skip (rendererPtVal64 cells countWidth)) :=
    fun p hp => by
      unfold projPtVal64
      rw [hw]
      exact f64_nonneg (div_nonneg (ptVal_nonneg (hfull.points p hp).1.le (hfull.skip p hp).1.le
        (rendererPtVal_nonneg hfull.cells.1.le hfull.width.1.le)) hwq.le)
  rw [tally_totals hl _ hc0 hval, show (grid.map fun _ => (0 : ℚ × ℚ × ℕ)).sum = 0 by simp, zero_add] at hs
  obtain ⟨-, herr⟩ := sums_sum hrel
  rw [hs] at herr
  obtain ⟨hT, hR⟩ := rel_sum (k := 9) ps
    (fun p => projPtVal64 dom proj (mcPtVal64 p.mc.points p.mc.skip (rendererPtVal64 cells countWidth)))
    (fun p => mcPtVal false p.mc.points p.mc.skip (rendererPtVal false cells countWidth) / dom.width (projDims proj).2.2)
    (fun p hp => div_nonneg (ptVal_exact_nonneg (hfull.points p hp).1 (hfull.skip p hp).1 hfull.cells.1 hfull.width.1) hwq.le)
    (fun p hp => by
      unfold projPtVal64
      rw [hw]
      exact rel_f64 (rel_div (hfull.rel hp) _))
  have e : (ps.map fun p => (samples p : ℚ) * (mcPtVal false p.mc.points p.mc.skip (rendererPtVal false cells countWidth) /
      dom.width (projDims proj).2.2)).sum = (cells : ℚ) ^ 3 / dom.width (projDims proj).2.2 := by
    rw [← exact_total cells countWidth hfull.width.1 ps (fun p hp => (hfull.skip p hp).1) hfull.seg
      (fun p hp => (hfull.points p hp).1) hfull.dvd hfull.all, div_eq_mul_inv, ← List.sum_map_mul_right]
    simp only [div_eq_mul_inv, mul_assoc]
  rw [e] at hT hR
  refine mean_core hT ?_ hR herr
  exact List.sum_nonneg fun x hx => by
    obtain ⟨p, hp, rfl⟩ := List.mem_map.mp hx
    exact mul_nonneg (by positivity) (hc0 p hp)

/-! ## Examples -/

/-- One pass over the segment of one cube, with rounded values. -/
def exRun64 (direct : Bool) : SegRun R64 := exRunOf direct fun _ => ⟨mcPtVal64 2 1 (rendererPtVal64 2 1)⟩

theorem exRun64_ok (direct : Bool) : ∀ p ∈ [exRun64 direct], p.Ok false 2 ⟨![0, 0, 0], ![2, 2, 2]⟩ := by
  intro p hp
  rw [List.mem_singleton.mp hp]
  exact exRun_ok direct false _ (fun _ _ _ => rfl)

theorem exRun64_full (direct : Bool) : Full 2 1 [exRun64 direct] := by
  constructor <;> simp [exRun64, exRunOf, exMC]

/-- With three workers and 12 samples the total density is 8 within `2 ^ -45`, and such an execution exists. -/
example (direct : Bool) : (∃ out, Rendered false 2 [exRun64 direct] (List.replicate 8 0) out) ∧
    ∀ out, Rendered false 2 [exRun64 direct] (List.replicate 8 0) out → |(out.map R64.val).sum - 8| ≤ 1 / 2 ^ 45 := by
  constructor
  · obtain ⟨U, _, h⟩ := C129_image_partial false 2 2 (by norm_num) ⟨![0, 0, 0], ![2, 2, 2]⟩ [exRun64 direct]
      (exRun64_ok direct)
      (fun r hr => by
        rw [List.mem_singleton.mp hr]
        exact fun _ => exRun_faces)
      (fun r hr w => by
        rw [List.mem_singleton.mp hr]
        exact f64_rep _)
    exact (h (List.replicate 8 0) (by decide) (fun v hv => List.eq_of_mem_replicate hv)).1
  · intro out h
    have := C129_mean 2 2 1 ⟨![0, 0, 0], ![2, 2, 2]⟩ (fun j => by fin_cases j <;> rfl) [exRun64 direct]
      (exRun64_ok direct) (exRun64_full direct) (fun p hp w => by rw [List.mem_singleton.mp hp]; rfl)
      (List.replicate 8 0) out (by decide) (fun v hv => List.eq_of_mem_replicate hv) h
    have e : ([exRun64 direct].map samples).sum = 12 := by
      simp [samples, exRun64, exRunOf, exMC]
    rw [e] at this
    norm_num at this ⊢
    linarith

/-- The same for the projection of that segment along any axis, a total of 4. -/
example (proj : ℤ) (hproj : 0 ≤ proj ∧ proj < 3) (direct : Bool) :
    let p := exRun2 proj direct fun _ => (⟨projPtVal64 ⟨![0, 0, 0], ![2, 2, 2]⟩ proj (mcPtVal64 2 1 (rendererPtVal64 2 1))⟩ : R64)
    (∃ out, Rendered2 proj false 2 [p] (List.replicate 4 0) out) ∧
    ∀ out, Rendered2 proj false 2 [p] (List.replicate 4 0) out → |(out.map R64.val).sum - 4| ≤ 1 / 2 ^ 45 := by
  intro p
  have hw : ∀ j, (⟨![0, 0, 0], ![2, 2, 2]⟩ : CellBounds).width j = 2 := fun j => by fin_cases j <;> rfl
  have hok : ∀ q ∈ [p], q.Ok2 proj false 2 ⟨![0, 0, 0], ![2, 2, 2]⟩ := fun q hq => by
    rw [List.mem_singleton.mp hq]
    exact exRun2_ok proj direct false _ (fun _ _ _ => rfl)
  constructor
  · obtain ⟨U, _, h⟩ := C129_project_partial proj hproj false 2 2 (by norm_num) ⟨![0, 0, 0], ![2, 2, 2]⟩ [p] hok
      (fun r hr => by
        rw [List.mem_singleton.mp hr]
        exact fun _ => exRun_faces)
      (fun r hr => by
        rw [List.mem_singleton.mp hr]
        exact fun _ t ht u hu q hq => by exact_mod_cast exRun_faces t ht u hu q hq (projDims proj).2.2 0 le_rfl)
      (fun r hr w => by
        rw [List.mem_singleton.mp hr]
        exact f64_rep _)
    exact (h (List.replicate 4 0) (by rw [boxLen2, hw, hw]; rfl) (fun v hv => List.eq_of_mem_replicate hv)).1
  · intro out h
    have := C129_mean_project proj hproj 2 2 1 ⟨![0, 0, 0], ![2, 2, 2]⟩ (fun j => (hw j).ge) (by rw [hw]; norm_num) [p] hok
      (by constructor <;> simp [p, exRun2, exRunOf, exMC]) (fun q hq w => by rw [List.mem_singleton.mp hq]; rfl)
      (List.replicate 4 0) out (by rw [boxLen2, hw, hw]; rfl) (fun v hv => List.eq_of_mem_replicate hv) h
    have e : ([p].map samples).sum = 12 := by
      simp [p, samples, exRun2, exRunOf, exMC]
    rw [e, hw] at this
    norm_num at this ⊢
    linarith

/-! ## The order matters -/

/-- The 27 particles of a segment of eight cubes, all in one cell. -/
def denseXs : List Vec :=
  (List.range 27).map fun i => ![((i % 3 : ℕ) + 1) / 4, ((i / 3 % 3 : ℕ) + 1) / 4, ((i / 9 : ℕ) + 1) / 4]

/-- One sample per tetrahedron; the image is that cell, in a box of 5 cells. -/
def denseMC : MC :=
  ⟨2, 1, 5, 1, [[![1/4, 1/4, 1/4]]], ⟨![0, 0, 0], ![1, 1, 1]⟩, ⟨![0, 0, 0], ![1, 1, 1]⟩, .exact⟩

/-- The pass over this segment for densities. -/
def denseRun : SegRun R64 :=
  ⟨denseMC, true, denseXs, [], fun _ _ => 0, fun _ => ⟨newTetra 0 0 0 0, newTetra 0 0 0 0, [0], [], 0, [0]⟩,
    fun _ => ⟨mcPtVal64 1 1 (rendererPtVal64 5 2)⟩⟩

theorem dense_bounds : ∀ x ∈ denseXs, ∀ j, (1/4 : ℚ) ≤ x j ∧ x j < 1 := by decide +kernel

theorem dense_unit : ∀ u ∈ denseMC.unitBufs, ∀ p ∈ u, UnitPoint p := by
  intro u hu p hp
  simp only [denseMC, List.mem_singleton] at hu
  subst hu
  rw [List.mem_singleton] at hp
  subst hp
  unfold UnitPoint
  decide +kernel

theorem dense_ok : denseRun.Ok false 5 ⟨![0, 0, 0], ![1, 1, 1]⟩ := by
  refine ⟨fun id => ⟨by decide, by decide, fun u hu => ⟨?_, dense_unit u hu⟩, fun n => ⟨le_refl (0 : ℤ), (by decide : (0 : ℤ) < 1)⟩, rfl⟩, rfl, rfl,
    fun _ _ _ => rfl, by decide, fun h => absurd h (by decide), fun _ => ⟨rfl, fun h => absurd h (by decide)⟩,
    fun _ => rfl, fun h => absurd h (by decide), fun _ => ⟨rfl, fun j => by fin_cases j <;> decide, fun x hx j => ?_⟩⟩
  · simp only [denseRun, denseMC, List.mem_singleton] at hu
    rw [hu]
    rfl
  · have := dense_bounds x hx j
    push_cast
    constructor <;> linarith

theorem dense_faces : denseRun.OffFaces := by
  intro _ t ht u hu q hq j k hk e
  have hb := inSimplex_bounds (mix_inSimplex (c := segCorners denseMC denseXs t) (dense_unit u hu q hq)) (j := j)
    (a := 1/4) (b := 1) (fun i => dense_bounds _ (corner_mem (mc := denseMC) (by decide) (by decide) (mem_tetras.mp ht) _ i) j)
  have hk' : (k : ℚ) ≤ 0 := by exact_mod_cast hk
  have e' : mix (segCorners denseMC denseXs t) q j = k := e
  linarith [hb.1]

/-- What worker `i` leaves in its buffer. -/
def denseBuf (i : Fin 3) : List R64 :=
  if i = 2 then [⟨8796093022208001 / 281474976710656⟩] else [⟨6597069766655999 / 140737488355328⟩]

theorem dense_fin (i : Fin 3) :
    ∃ s, runOps ((denseRun.job false 2).ops i) (denseRun.init i.val) = some s ∧ s.cells = denseBuf i := by
  have h : (runOps ((denseRun.job false 2).ops i) (denseRun.init i.val)).map (fun s => s.cells) = some (denseBuf i) := by
    fin_cases i <;> decide +kernel
  obtain ⟨s, h1, h2⟩ := Option.map_eq_some_iff.mp h
  exact ⟨s, h1, h2⟩

theorem dense_order (l : List (Fin 3)) (hl : l.Perm (List.finRange 3)) (g : List R64)
    (hg : l.foldlM (fun g i => domAdd (denseBuf i) g) [0] = some g) : Rendered false 2 [denseRun] [0] g := by
  choose fin h1 h2 using dense_fin
  obtain ⟨n, t, ht, hf, rfl⟩ := Sched.any_order (denseRun.job false 2) (fun i => denseRun.init i.val) fin [0] g l hl h1
    (by
      rw [← hg]
      congr 1
      funext g i
      change denseRun.add (fin i).cells g = _
      rw [h2]
      rfl)
  exact .cons ht hf (.nil _)

/-- **C129**, an image that depends on the schedule: three workers put the 48 samples of eight collapsed cubes into one
cell, and the finished pixel is 125 if the worker with the fewest samples is not merged last, and the number below 125
if it is. -/
theorem C129_counterexample :
    ∃ p : SegRun R64, p.Ok false 5 ⟨![0, 0, 0], ![1, 1, 1]⟩ ∧ p.OffFaces ∧ Full 5 2 [p] ∧
      (∀ w, (p.val w).val = mcPtVal64 p.mc.points p.mc.skip (rendererPtVal64 5 2)) ∧
      Rendered false 2 [p] [0] [⟨125⟩] ∧ Rendered false 2 [p] [0] [⟨125 - 1 / 2 ^ 46⟩] := by
  refine ⟨denseRun, dense_ok, dense_faces, ?_, fun _ => rfl, ?_, ?_⟩
  · constructor <;> simp [denseRun, denseMC]
  · exact dense_order [2, 0, 1] (by decide) _ (by decide +kernel)
  · exact dense_order [0, 1, 2] (by decide) _ (by decide +kernel)

end Verif.Fp
