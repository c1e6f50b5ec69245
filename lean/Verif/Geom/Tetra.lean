import Verif.Geom.TetraIdx
import Mathlib.LinearAlgebra.Matrix.Determinant.Basic
import Mathlib.LinearAlgebra.Matrix.Notation

/-! Tetrahedra: properties C37, C38, C39, C40 and C41. -/

set_option autoImplicit false

namespace Verif.Geom

open Verif.Go

/-! ## Specification -/

/-- Volume of a tetrahedron: a sixth of the absolute determinant of three edges. -/
def tetVolume (c : Fin 4 → Vec) : ℚ :=
  |Matrix.det (Matrix.of ![c 1 - c 0, c 2 - c 0, c 3 - c 0])| / 6

/-- The tetrahedron is not flat. -/
def NonDegenerate (c : Fin 4 → Vec) : Prop := tetVolume c ≠ 0

/-- Mean of the four corners. -/
def meanCorner (c : Fin 4 → Vec) : Vec := fun i => (c 0 i + c 1 i + c 2 i + c 3 i) / 4

/-- Method calls on a `Tetra`. render/geom/tetra.go 84, 227, 242, 311-447, 450, 472. -/
inductive TetraOp where
  | init (c0 c1 c2 c3 : Vec)
  | volume
  | contains (v : Vec)
  | barycenter
  | distribute (xs ys zs : List ℚ) (buf : List Vec)
  | distributeTetra (pts out : List Vec)

/-- State after one call (`none` when the call panics). render/geom/tetra.go 84-504. -/
def TetraOp.step (t : Tetra) : TetraOp → Option Tetra
  | .init c0 c1 c2 c3 => some (t.init c0 c1 c2 c3)
  | .volume => some t.volumeM.2
  | .contains v => some (t.containsM v).2
  | .barycenter => some t.barycenterM.2
  | .distribute xs ys zs buf => (t.distribute xs ys zs buf).map (·.2)
  | .distributeTetra pts out => (t.distributeTetra pts out).map (·.2)

/-- State after a history of calls. Calls of render/geom/tetra.go 84-504 one after the other. -/
def runOps : Tetra → List TetraOp → Option Tetra
  | t, [] => some t
  | t, op :: ops => (TetraOp.step t op).bind (runOps · ops)

/-- The corners most recently passed to `Init`. -/
def lastCorners : (Fin 4 → Vec) → List TetraOp → (Fin 4 → Vec)
  | c, [] => c
  | _, .init c0 c1 c2 c3 :: ops => lastCorners ![c0, c1, c2, c3] ops
  | c, _ :: ops => lastCorners c ops

/-! ## C38 -/

theorem signedVolume_det (c : Fin 4 → Vec) :
    signedVolume (c 0) (c 1) (c 2) (c 3) = -(Matrix.det (Matrix.of ![c 1 - c 0, c 2 - c 0, c 3 - c 0]) / 6) := by
  rw [Matrix.det_fin_three]
  simp [signedVolume, Vec.dot, Vec.cross]
  ring

theorem abs_signedVolume (c : Fin 4 → Vec) :
    |signedVolume (c 0) (c 1) (c 2) (c 3)| = tetVolume c := by
  rw [signedVolume_det, abs_neg, abs_div, tetVolume]
  norm_num

/-- What `Barycenter` computes: the sum of the first three corners over four. -/
def codeBary (c : Fin 4 → Vec) : Vec := fun i => (c 0 i + c 1 i + c 2 i) / 4

/-- The caches describe the current corners. -/
def Coherent (t : Tetra) : Prop :=
  (t.volumeValid = true → t.volume = tetVolume t.corners) ∧ (t.baryValid = true → t.bary = codeBary t.corners)

theorem volumeM_spec {t : Tetra} (h : Coherent t) :
    t.volumeM.1 = tetVolume t.corners ∧ t.volumeM.2.corners = t.corners ∧ Coherent t.volumeM.2 := by
  unfold Tetra.volumeM
  split
  · rename_i hv
    exact ⟨h.1 hv, rfl, h⟩
  · have e := abs_signedVolume t.corners
    exact ⟨e, rfl, ⟨fun _ => e, h.2⟩⟩

theorem barycenterM_corners (t : Tetra) : t.barycenterM.2.corners = t.corners := by
  unfold Tetra.barycenterM; split <;> rfl

theorem barycenterM_spec {t : Tetra} (h : Coherent t) :
    t.barycenterM.1 = codeBary t.corners ∧ t.barycenterM.2.corners = t.corners ∧ Coherent t.barycenterM.2 := by
  refine ⟨?_, barycenterM_corners t, ?_⟩
  · unfold Tetra.barycenterM
    split
    · rename_i hv; exact h.2 hv
    · rfl
  · unfold Tetra.barycenterM
    split
    · exact h
    · exact ⟨h.1, fun _ => rfl⟩

theorem distribute_state {t t' : Tetra} {xs ys zs : List ℚ} {buf out : List Vec}
    (h : t.distribute xs ys zs buf = some (out, t')) : t' = t.barycenterM.2 := by
  unfold Tetra.distribute at h
  simp only [bind, Option.bind_eq_some_iff] at h
  obtain ⟨o, _, h⟩ := h
  simp only [Option.some.injEq, Prod.mk.injEq] at h
  exact h.2.symm

theorem distributeTetra_state {t t' : Tetra} {pts buf out : List Vec}
    (h : t.distributeTetra pts buf = some (out, t')) : t' = t.barycenterM.2 := by
  unfold Tetra.distributeTetra at h
  simp only [bind, Option.bind_eq_some_iff] at h
  obtain ⟨o, _, h⟩ := h
  simp only [Option.some.injEq, Prod.mk.injEq] at h
  exact h.2.symm

theorem step_coherent {t t' : Tetra} {op : TetraOp} (h : Coherent t) (e : TetraOp.step t op = some t') :
    Coherent t' ∧ t'.corners = lastCorners t.corners [op] := by
  cases op with
  | init c0 c1 c2 c3 =>
    simp only [TetraOp.step, Option.some.injEq] at e
    subst e
    exact ⟨⟨fun h => absurd h (by simp [Tetra.init]), fun h => absurd h (by simp [Tetra.init])⟩, rfl⟩
  | volume =>
    simp only [TetraOp.step, Option.some.injEq] at e
    subst e
    exact ⟨(volumeM_spec h).2.2, (volumeM_spec h).2.1⟩
  | contains v =>
    simp only [TetraOp.step, Option.some.injEq] at e
    subst e
    exact ⟨(volumeM_spec h).2.2, (volumeM_spec h).2.1⟩
  | barycenter =>
    simp only [TetraOp.step, Option.some.injEq] at e
    subst e
    exact ⟨(barycenterM_spec h).2.2, (barycenterM_spec h).2.1⟩
  | distribute xs ys zs buf =>
    simp only [TetraOp.step, Option.map_eq_some_iff] at e
    obtain ⟨⟨o, t1⟩, e1, e2⟩ := e
    simp only at e2
    subst e2
    rw [distribute_state e1]
    exact ⟨(barycenterM_spec h).2.2, (barycenterM_spec h).2.1⟩
  | distributeTetra pts out =>
    simp only [TetraOp.step, Option.map_eq_some_iff] at e
    obtain ⟨⟨o, t1⟩, e1, e2⟩ := e
    simp only at e2
    subst e2
    rw [distributeTetra_state e1]
    exact ⟨(barycenterM_spec h).2.2, (barycenterM_spec h).2.1⟩

theorem lastCorners_cons (c : Fin 4 → Vec) (op : TetraOp) (ops : List TetraOp) :
    lastCorners c (op :: ops) = lastCorners (lastCorners c [op]) ops := by
  cases op <;> rfl

theorem runOps_coherent : ∀ (ops : List TetraOp) (t t' : Tetra), Coherent t → runOps t ops = some t' →
    Coherent t' ∧ t'.corners = lastCorners t.corners ops := by
  intro ops
  induction ops with
  | nil =>
    intro t t' h e
    simp only [runOps, Option.some.injEq] at e
    subst e
    exact ⟨h, rfl⟩
  | cons op ops ih =>
    intro t t' h e
    simp only [runOps, Option.bind_eq_some_iff] at e
    obtain ⟨t1, e1, e2⟩ := e
    obtain ⟨h1, c1⟩ := step_coherent h e1
    obtain ⟨h2, c2⟩ := ih t1 t' h1 e2
    refine ⟨h2, ?_⟩
    rw [c2, c1, ← lastCorners_cons]

theorem newTetra_coherent (c0 c1 c2 c3 : Vec) : Coherent (newTetra c0 c1 c2 c3) :=
  ⟨fun h => absurd h (by simp [newTetra, Tetra.init]), fun h => absurd h (by simp [newTetra, Tetra.init])⟩

/-- After every history of calls, `Volume` is a sixth of the absolute determinant of the corners most recently
passed to `Init`. -/
theorem C38_volume (c0 c1 c2 c3 : Vec) (ops : List TetraOp) (t : Tetra)
    (h : runOps (newTetra c0 c1 c2 c3) ops = some t) :
    t.volumeM.1 = tetVolume (lastCorners ![c0, c1, c2, c3] ops) := by
  obtain ⟨h1, h2⟩ := runOps_coherent ops _ t (newTetra_coherent c0 c1 c2 c3) h
  rw [(volumeM_spec h1).1, h2]; rfl

/-- After every history of calls, `Barycenter` gives what it gives on a fresh tetrahedron with the corners
most recently passed to `Init`. -/
theorem C38_barycenter (c0 c1 c2 c3 : Vec) (ops : List TetraOp) (t : Tetra)
    (h : runOps (newTetra c0 c1 c2 c3) ops = some t) :
    let c := lastCorners ![c0, c1, c2, c3] ops
    t.barycenterM.1 = (newTetra (c 0) (c 1) (c 2) (c 3)).barycenterM.1 := by
  obtain ⟨h1, h2⟩ := runOps_coherent ops _ t (newTetra_coherent c0 c1 c2 c3) h
  simp only
  rw [(barycenterM_spec h1).1, (barycenterM_spec (newTetra_coherent _ _ _ _)).1, h2]
  rfl

/-- The same for `Contains`. -/
theorem C38_contains (c0 c1 c2 c3 : Vec) (ops : List TetraOp) (t : Tetra)
    (h : runOps (newTetra c0 c1 c2 c3) ops = some t) (p : Vec) :
    (t.containsM p).1 =
      containsWith (lastCorners ![c0, c1, c2, c3] ops) (tetVolume (lastCorners ![c0, c1, c2, c3] ops)) p := by
  obtain ⟨h1, h2⟩ := runOps_coherent ops _ t (newTetra_coherent c0 c1 c2 c3) h
  unfold Tetra.containsM
  simp only
  rw [(volumeM_spec h1).1, (volumeM_spec h1).2.1, h2]; rfl

/-- A history that fills both caches and then changes the corners. -/
example : ∃ t, runOps (newTetra ![0, 0, 0] ![1, 0, 0] ![0, 1, 0] ![0, 0, 1])
    [.volume, .barycenter, .contains ![1, 1, 1], .init ![0, 0, 0] ![2, 0, 0] ![0, 2, 0] ![0, 0, 2], .volume]
      = some t ∧ t.volumeM.1 = 4 / 3 := by
  refine ⟨_, rfl, ?_⟩
  decide +kernel

/-! ## C37 -/

/-- The four face volumes are the barycentric coordinates times the volume, with the sign reversed. -/
theorem faceVolumes {c : Fin 4 → Vec} {l : Fin 4 → ℚ} {p : Vec} (h : IsBary c l p) :
    signedVolume p (c 0) (c 1) (c 2) = -(l 3 * signedVolume (c 0) (c 1) (c 2) (c 3)) ∧
    signedVolume p (c 1) (c 3) (c 2) = -(l 0 * signedVolume (c 0) (c 1) (c 2) (c 3)) ∧
    signedVolume p (c 0) (c 3) (c 1) = -(l 2 * signedVolume (c 0) (c 1) (c 2) (c 3)) ∧
    signedVolume p (c 0) (c 2) (c 3) = -(l 1 * signedVolume (c 0) (c 1) (c 2) (c 3)) := by
  obtain ⟨hs, hp⟩ := h
  simp only [Fin.sum_univ_four] at hs hp
  have e : l 3 = 1 - l 0 - l 1 - l 2 := by linarith
  have p0 := hp 0
  have p1 := hp 1
  have p2 := hp 2
  rw [e] at p0 p1 p2
  refine ⟨?_, ?_, ?_, ?_⟩ <;>
  · simp only [signedVolume, Vec.dot, Vec.cross, Matrix.cons_val_zero, Matrix.cons_val_one, Matrix.cons_val, e]
    rw [p0, p1, p2]
    ring

/-- Every point has barycentric coordinates with respect to a non-flat tetrahedron. -/
theorem exists_bary {c : Fin 4 → Vec} (hV : signedVolume (c 0) (c 1) (c 2) (c 3) ≠ 0) (p : Vec) :
    ∃ l, IsBary c l p := by
  set V := signedVolume (c 0) (c 1) (c 2) (c 3) with hVd
  refine ⟨![-(signedVolume p (c 1) (c 3) (c 2)) / V, -(signedVolume p (c 0) (c 2) (c 3)) / V,
    -(signedVolume p (c 0) (c 3) (c 1)) / V, -(signedVolume p (c 0) (c 1) (c 2)) / V], ?_, ?_⟩
  · simp only [Fin.sum_univ_four, Matrix.cons_val_zero, Matrix.cons_val_one, Matrix.cons_val]
    rw [← add_div, ← add_div, ← add_div, div_eq_one_iff_eq hV, hVd]
    simp only [signedVolume, Vec.dot, Vec.cross, Matrix.cons_val_zero, Matrix.cons_val_one, Matrix.cons_val]
    ring
  · intro i
    simp only [Fin.sum_univ_four, Matrix.cons_val_zero, Matrix.cons_val_one, Matrix.cons_val]
    have : ∀ a b d e x y z w : ℚ, a / V * x + b / V * y + d / V * z + e / V * w =
        (a * x + b * y + d * z + e * w) / V := by intros; ring
    rw [this, eq_div_iff hV, hVd]
    have hi : i = 0 ∨ i = 1 ∨ i = 2 := by clear this; revert i; decide
    rcases hi with rfl | rfl | rfl <;>
    · simp only [signedVolume, Vec.dot, Vec.cross, Matrix.cons_val_zero, Matrix.cons_val_one, Matrix.cons_val]
      ring

theorem epsEq_self {x : ℚ} : epsEq x x eps = true := by
  unfold epsEq eps
  by_cases h : x = 0
  · simp [h]
  · simp [h]; norm_num

theorem contains_iff_sign {c : Fin 4 → Vec} {l : Fin 4 → ℚ} {p : Vec}
    (hV : signedVolume (c 0) (c 1) (c 2) (c 3) ≠ 0) (h : IsBary c l p) :
    containsWith c (tetVolume c) p = true ↔
      (signedVolume (c 0) (c 1) (c 2) (c 3) < 0 ∧ ∀ k, 0 ≤ l k) ∨
      (0 < signedVolume (c 0) (c 1) (c 2) (c 3) ∧ ∀ k, 0 < l k) := by
  obtain ⟨f3, f0, f2, f1⟩ := faceVolumes h
  have hs := h.1
  simp only [Fin.sum_univ_four] at hs
  rw [← abs_signedVolume]
  unfold containsWith
  simp only [f3, f0, f2, f1]
  set V := signedVolume (c 0) (c 1) (c 2) (c 3)
  have heps : (0 : ℚ) < eps := by unfold eps; norm_num
  -- the sign tests decide
  have fwd : (signbit (-(l 0 * V)) = signbit (-(l 3 * V)) ∧ signbit (-(l 2 * V)) = signbit (-(l 3 * V)) ∧
      signbit (-(l 1 * V)) = signbit (-(l 3 * V))) ↔ ((V < 0 ∧ ∀ k, 0 ≤ l k) ∨ (0 < V ∧ ∀ k, 0 < l k)) := by
    rcases lt_or_gt_of_ne hV with hneg | hpos
    · have e : ∀ x : ℚ, signbit (-(x * V)) = decide (x < 0) := by
        intro x
        unfold signbit
        congr 1
        rw [eq_iff_iff]
        constructor
        · intro h; by_contra hc; push Not at hc; nlinarith
        · intro h; nlinarith [mul_pos_of_neg_of_neg h hneg]
      simp only [e, decide_eq_decide]
      constructor
      · rintro ⟨a, b, d⟩
        left
        refine ⟨hneg, ?_⟩
        have h3 : ¬ l 3 < 0 := by intro hc; linarith [a.mpr hc, b.mpr hc, d.mpr hc]
        have h0 := mt a.mp h3
        have h2 := mt b.mp h3
        have h1 := mt d.mp h3
        intro k
        fin_cases k
        · exact not_lt.mp h0
        · exact not_lt.mp h1
        · exact not_lt.mp h2
        · exact not_lt.mp h3
      · rintro (⟨_, hk⟩ | ⟨hv, _⟩)
        · exact ⟨⟨fun h => absurd h (not_lt.mpr (hk 0)), fun h => absurd h (not_lt.mpr (hk 3))⟩,
            ⟨fun h => absurd h (not_lt.mpr (hk 2)), fun h => absurd h (not_lt.mpr (hk 3))⟩,
            ⟨fun h => absurd h (not_lt.mpr (hk 1)), fun h => absurd h (not_lt.mpr (hk 3))⟩⟩
        · linarith
    · have e : ∀ x : ℚ, signbit (-(x * V)) = decide (0 < x) := by
        intro x
        unfold signbit
        congr 1
        rw [eq_iff_iff]
        constructor
        · intro h; by_contra hc; push Not at hc; nlinarith
        · intro h; nlinarith [mul_pos h hpos]
      simp only [e, decide_eq_decide]
      constructor
      · rintro ⟨a, b, d⟩
        right
        refine ⟨hpos, ?_⟩
        have h3 : 0 < l 3 := by
          by_contra hc
          have := mt a.mp hc
          have := mt b.mp hc
          have := mt d.mp hc
          linarith
        intro k
        fin_cases k
        · exact a.mpr h3
        · exact d.mpr h3
        · exact b.mpr h3
        · exact h3
      · rintro (⟨hv, _⟩ | ⟨_, hk⟩)
        · linarith
        · exact ⟨⟨fun _ => hk 3, fun _ => hk 0⟩, ⟨fun _ => hk 3, fun _ => hk 2⟩, ⟨fun _ => hk 3, fun _ => hk 1⟩⟩
  constructor
  · intro hc
    refine fwd.mp ?_
    split at hc
    · exact absurd hc (by simp)
    · split at hc
      · exact absurd hc (by simp)
      · rename_i n1
        split at hc
        · exact absurd hc (by simp)
        · split at hc
          · exact absurd hc (by simp)
          · rename_i n2
            split at hc
            · exact absurd hc (by simp)
            · split at hc
              · exact absurd hc (by simp)
              · rename_i n3
                exact ⟨by simpa using n1, by simpa using n2, by simpa using n3⟩
  · intro hk
    obtain ⟨g0, g2, g1⟩ := fwd.mpr hk
    have hnn : ∀ k, 0 ≤ l k := by
      rcases hk with ⟨_, h⟩ | ⟨_, h⟩
      · exact h
      · exact fun k => (h k).le
    have ha : ∀ k, |-(l k * V)| = l k * |V| := by
      intro k; rw [abs_neg, abs_mul, abs_of_nonneg (hnn k)]
    have hVp : 0 < |V| := abs_pos.mpr hV
    have u0 := mul_nonneg (hnn 0) hVp.le
    have u1 := mul_nonneg (hnn 1) hVp.le
    have u2 := mul_nonneg (hnn 2) hVp.le
    have u3 := mul_nonneg (hnn 3) hVp.le
    have ut : l 0 * |V| + l 1 * |V| + l 2 * |V| + l 3 * |V| = |V| := by
      rw [← add_mul, ← add_mul, ← add_mul, hs, one_mul]
    have ue : |V| < |V| * (1 + eps) := by nlinarith
    rw [if_neg (by rw [ha]; linarith), if_neg (by simp [g0]), if_neg (by rw [ha, ha]; linarith),
      if_neg (by simp [g2]), if_neg (by rw [ha, ha, ha]; linarith), if_neg (by simp [g1])]
    rw [ha, ha, ha, ha]
    rw [show l 1 * |V| + (l 3 * |V| + l 0 * |V| + l 2 * |V|) = |V| by linarith]
    exact epsEq_self

theorem nonDegenerate_iff (c : Fin 4 → Vec) :
    NonDegenerate c ↔ signedVolume (c 0) (c 1) (c 2) (c 3) ≠ 0 := by
  unfold NonDegenerate
  rw [← abs_signedVolume, abs_ne_zero]

theorem isBary_unique {c : Fin 4 → Vec} (hV : NonDegenerate c) {l m : Fin 4 → ℚ} {p : Vec}
    (hl : IsBary c l p) (hm : IsBary c m p) : l = m := by
  have hV := (nonDegenerate_iff c).mp hV
  obtain ⟨a3, a0, a2, a1⟩ := faceVolumes hl
  obtain ⟨b3, b0, b2, b1⟩ := faceVolumes hm
  funext k
  fin_cases k
  · exact mul_right_cancel₀ hV (neg_injective (a0.symm.trans b0))
  · exact mul_right_cancel₀ hV (neg_injective (a1.symm.trans b1))
  · exact mul_right_cancel₀ hV (neg_injective (a2.symm.trans b2))
  · exact mul_right_cancel₀ hV (neg_injective (a3.symm.trans b3))

/-- `Contains` accepts every point strictly inside a non-flat tetrahedron, whatever calls came before. -/
theorem C37_accepts_interior (c0 c1 c2 c3 : Vec) (ops : List TetraOp) (t : Tetra)
    (h : runOps (newTetra c0 c1 c2 c3) ops = some t)
    (hV : NonDegenerate (lastCorners ![c0, c1, c2, c3] ops)) (p : Vec)
    (hp : InSimplexInterior (lastCorners ![c0, c1, c2, c3] ops) p) : (t.containsM p).1 = true := by
  rw [C38_contains c0 c1 c2 c3 ops t h]
  obtain ⟨l, hl, hl0⟩ := hp
  rw [nonDegenerate_iff] at hV
  rw [contains_iff_sign hV hl]
  rcases lt_or_gt_of_ne hV with h | h
  · exact Or.inl ⟨h, fun k => (hl0 k).le⟩
  · exact Or.inr ⟨h, hl0⟩

/-- `Contains` rejects every point outside a non-flat tetrahedron, whatever calls came before. -/
theorem C37_rejects_exterior (c0 c1 c2 c3 : Vec) (ops : List TetraOp) (t : Tetra)
    (h : runOps (newTetra c0 c1 c2 c3) ops = some t)
    (hV : NonDegenerate (lastCorners ![c0, c1, c2, c3] ops)) (p : Vec)
    (hp : ¬ InSimplex (lastCorners ![c0, c1, c2, c3] ops) p) : (t.containsM p).1 = false := by
  rw [C38_contains c0 c1 c2 c3 ops t h]
  rw [nonDegenerate_iff] at hV
  obtain ⟨l, hl⟩ := exists_bary hV p
  rw [Bool.eq_false_iff]
  intro hc
  rw [contains_iff_sign hV hl] at hc
  refine hp ⟨l, hl, ?_⟩
  rcases hc with ⟨_, h⟩ | ⟨_, h⟩
  · exact h
  · exact fun k => (h k).le

/-- The exact answer: closed tetrahedron when the corners are right-handed (determinant positive), open when they are
left-handed. The property also asks that boundary points get the same answer for both orderings; that part
is false. -/
theorem C37_contains_partial (c0 c1 c2 c3 p : Vec) (hV : NonDegenerate ![c0, c1, c2, c3]) :
    ((newTetra c0 c1 c2 c3).containsM p).1 = true ↔
      (0 < Matrix.det (Matrix.of ![c1 - c0, c2 - c0, c3 - c0]) ∧ InSimplex ![c0, c1, c2, c3] p) ∨
      (Matrix.det (Matrix.of ![c1 - c0, c2 - c0, c3 - c0]) < 0 ∧ InSimplexInterior ![c0, c1, c2, c3] p) := by
  have e := C38_contains c0 c1 c2 c3 [] _ rfl p
  have hd := signedVolume_det ![c0, c1, c2, c3]
  rw [e]
  have hV' := hV
  rw [nonDegenerate_iff] at hV'
  obtain ⟨l, hl⟩ := exists_bary hV' p
  show containsWith ![c0, c1, c2, c3] (tetVolume ![c0, c1, c2, c3]) p = true ↔ _
  rw [contains_iff_sign hV' hl, hd]
  simp only [Matrix.cons_val_zero, Matrix.cons_val_one, Matrix.cons_val]
  set D := Matrix.det (Matrix.of ![c1 - c0, c2 - c0, c3 - c0])
  have i1 : (∀ k, 0 ≤ l k) ↔ InSimplex ![c0, c1, c2, c3] p := by
    constructor
    · intro h; exact ⟨l, hl, h⟩
    · rintro ⟨m, hm, h⟩; rw [isBary_unique hV hl hm]; exact h
  have i2 : (∀ k, 0 < l k) ↔ InSimplexInterior ![c0, c1, c2, c3] p := by
    constructor
    · intro h; exact ⟨l, hl, h⟩
    · rintro ⟨m, hm, h⟩; rw [isBary_unique hV hl hm]; exact h
  rw [i1, i2]
  have j1 : -(D / 6) < 0 ↔ 0 < D := by constructor <;> intro h <;> linarith
  have j2 : 0 < -(D / 6) ↔ D < 0 := by constructor <;> intro h <;> linarith
  rw [j1, j2]

/-- The same tetrahedron and the same point on its boundary, with two corners exchanged: different
answers. -/
theorem C37_ordering_counterexample :
    ((newTetra ![0, 0, 0] ![1, 0, 0] ![0, 1, 0] ![0, 0, 1]).containsM ![1/4, 1/4, 0]).1 = true ∧
    ((newTetra ![1, 0, 0] ![0, 0, 0] ![0, 1, 0] ![0, 0, 1]).containsM ![1/4, 1/4, 0]).1 = false := by
  decide +kernel

/-- A flat tetrahedron accepts every point of its plane, however far away. -/
theorem C37_degenerate :
    ((newTetra ![0, 0, 0] ![1, 0, 0] ![0, 1, 0] ![1, 1, 0]).containsM ![100, 100, 0]).1 = true := by
  decide +kernel

example : NonDegenerate ![![0, 0, 0], ![1, 0, 0], ![0, 1, 0], ![0, 0, 1]] ∧
    InSimplexInterior ![![0, 0, 0], ![1, 0, 0], ![0, 1, 0], ![0, 0, 1]] ![1/4, 1/4, 1/4] ∧
    ¬ InSimplex ![![0, 0, 0], ![1, 0, 0], ![0, 1, 0], ![0, 0, 1]] ![1, 1, 0] := by
  refine ⟨?_, ?_, ?_⟩
  · rw [nonDegenerate_iff]; decide +kernel
  · refine ⟨fun _ => 1/4, ⟨by simp, ?_⟩, by simp⟩
    intro i; fin_cases i <;> simp [Fin.sum_univ_four]
  · rintro ⟨l, ⟨hs, hp⟩, h⟩
    have p0 := hp 0
    have p1 := hp 1
    simp [Fin.sum_univ_four] at hs p0 p1
    have := h 0
    have := h 3
    linarith

/-! ## C39 -/

/-- `Barycenter` leaves out the fourth corner. -/
theorem C39_barycenter_counterexample :
    (newTetra ![0, 0, 0] ![0, 0, 0] ![0, 0, 0] ![4, 0, 0]).barycenterM.1 ≠
      meanCorner ![![0, 0, 0], ![0, 0, 0], ![0, 0, 0], ![4, 0, 0]] := by
  decide +kernel

/-- What is returned: the mean of the corners minus a quarter of the fourth corner; it is the mean iff the
fourth corner is the origin of coordinates. -/
theorem C39_barycenter_partial (c0 c1 c2 c3 : Vec) :
    (∀ i, (newTetra c0 c1 c2 c3).barycenterM.1 i = meanCorner ![c0, c1, c2, c3] i - c3 i / 4) ∧
    ((newTetra c0 c1 c2 c3).barycenterM.1 = meanCorner ![c0, c1, c2, c3] ↔ c3 = 0) := by
  have h : ∀ i, (newTetra c0 c1 c2 c3).barycenterM.1 i = meanCorner ![c0, c1, c2, c3] i - c3 i / 4 := by
    intro i
    rw [(barycenterM_spec (newTetra_coherent c0 c1 c2 c3)).1]
    simp [codeBary, meanCorner, newTetra, Tetra.init]
    ring
  refine ⟨h, ?_, ?_⟩
  · intro e
    funext i
    have := h i
    rw [e] at this
    show c3 i = 0
    linarith
  · intro e
    funext i
    rw [h i, e]
    simp

example : (newTetra ![4, 0, 0] ![0, 4, 0] ![0, 0, 4] ![0, 0, 0]).barycenterM.1 = ![1, 1, 1] := by
  decide +kernel

/-! ## C40 -/

/-- The points produced do not depend on the barycenter used. -/
theorem cornerSum_eq (c : Fin 4 → Vec) (b : Vec) (s t u : ℚ) (j : Fin 3) :
    cornerSum c b s t u j = s * c 0 j + t * c 1 j + u * c 2 j + (1 - s - t - u) * c 3 j := by
  unfold cornerSum; ring

/-- The folded point lies in the unit tetrahedron. -/
theorem fold_mem (s t u : ℚ) (hs : 0 ≤ s ∧ s ≤ 1) (ht : 0 ≤ t ∧ t ≤ 1) (hu : 0 ≤ u ∧ u ≤ 1) :
    0 ≤ (fold s t u).1 ∧ 0 ≤ (fold s t u).2.1 ∧ 0 ≤ (fold s t u).2.2 ∧
      (fold s t u).1 + (fold s t u).2.1 + (fold s t u).2.2 ≤ 1 := by
  unfold fold
  dsimp only
  split_ifs <;> simp only <;> refine ⟨?_, ?_, ?_, ?_⟩ <;> linarith

theorem cornerSum_inSimplex (c : Fin 4 → Vec) (b : Vec) {s t u : ℚ} (hs : 0 ≤ s) (ht : 0 ≤ t) (hu : 0 ≤ u)
    (h : s + t + u ≤ 1) : InSimplex c (cornerSum c b s t u) := by
  refine ⟨![s, t, u, 1 - s - t - u], ⟨?_, ?_⟩, ?_⟩
  · simp [Fin.sum_univ_four]
  · intro j; rw [cornerSum_eq]; simp [Fin.sum_univ_four]
  · intro k; fin_cases k <;> simp <;> linarith

/-- The loop shared by the `Distribute` functions. -/
theorem fill_spec {n : Nat} (F : Nat → Vec) (buf : List Vec) (hn : n ≤ buf.length)
    (body : Int → List Vec → Option (List Vec))
    (hb : ∀ (i : Nat) (st : List Vec), i < n → body (i : Int) st = wr st (i : Int) (F i)) :
    ∃ out, forRange 0 (n : Int) body buf = some out ∧ out.length = buf.length ∧
      ∀ i, out[i]? = if i < n then some (F i) else buf[i]? := by
  have := forRange_fill F (lo := 0) (hi := n) (n := buf.length) (Nat.zero_le _) hn buf rfl body
    (by intro k st _ hk _ _; exact hb k st hk)
  rw [Nat.cast_zero] at this
  obtain ⟨out, e, hl, h⟩ := this
  refine ⟨out, e, hl, fun i => ?_⟩
  rw [h i]; simp

theorem distribute_eq (t : Tetra) (xs ys zs : List ℚ) (buf : List Vec) (hx : buf.length ≤ xs.length)
    (hy : buf.length ≤ ys.length) (hz : buf.length ≤ zs.length) :
    ∃ out, t.distribute xs ys zs buf = some (out, t.barycenterM.2) ∧ out.length = buf.length ∧
      ∀ (i : Nat) (x y z : ℚ), i < buf.length → xs[i]? = some x → ys[i]? = some y → zs[i]? = some z →
        out[i]? = some (cornerSum t.corners t.barycenterM.1 (fold x y z).1 (fold x y z).2.1 (fold x y z).2.2) := by
  have gx : ∀ i < xs.length, xs[i]? = some (xs.getD i 0) := fun i hi => by simp [hi]
  have gy : ∀ i < ys.length, ys[i]? = some (ys.getD i 0) := fun i hi => by simp [hi]
  have gz : ∀ i < zs.length, zs[i]? = some (zs.getD i 0) := fun i hi => by simp [hi]
  obtain ⟨out, e, hl, ho⟩ := fill_spec (n := buf.length)
    (fun i => let f := fold (xs.getD i 0) (ys.getD i 0) (zs.getD i 0)
      cornerSum t.barycenterM.2.corners t.barycenterM.1 f.1 f.2.1 f.2.2) buf le_rfl
    (fun i (buf : List Vec) => do
      let s ← rd xs i
      let t1 ← rd ys i
      let u ← rd zs i
      let f := fold s t1 u
      wr buf i (cornerSum t.barycenterM.2.corners t.barycenterM.1 f.1 f.2.1 f.2.2)) (by
      intro i st hi
      have a1 : rd xs (i : Int) = some (xs.getD i 0) := rd_fn_nat gx i rfl (by omega)
      have a2 : rd ys (i : Int) = some (ys.getD i 0) := rd_fn_nat gy i rfl (by omega)
      have a3 : rd zs (i : Int) = some (zs.getD i 0) := rd_fn_nat gz i rfl (by omega)
      simp only [a1, a2, a3, bind, Option.bind_some])
  refine ⟨out, ?_, hl, ?_⟩
  · unfold Tetra.distribute
    exact bind_of e rfl
  · intro i x y z hi ex ey ez
    rw [ho i, if_pos hi]
    simp only [List.getD, ex, ey, ez, Option.getD_some, barycenterM_corners]

/-- `Distribute` on a tetrahedron in any state, with points of the unit cube: no panic, same number of points,
each a convex combination of the corners that does not depend on the cached barycenter. -/
theorem C40_distribute (t : Tetra) (xs ys zs : List ℚ) (buf : List Vec) (hx : buf.length ≤ xs.length)
    (hy : buf.length ≤ ys.length) (hz : buf.length ≤ zs.length)
    (ux : ∀ x ∈ xs, 0 ≤ x ∧ x ≤ 1) (uy : ∀ x ∈ ys, 0 ≤ x ∧ x ≤ 1) (uz : ∀ x ∈ zs, 0 ≤ x ∧ x ≤ 1) :
    ∃ out t', t.distribute xs ys zs buf = some (out, t') ∧ t'.corners = t.corners ∧
      out.length = buf.length ∧ (∀ p ∈ out, InSimplex t.corners p) ∧
      ∀ b vv ba, Option.map (·.1) (Tetra.distribute { t with bary := b, volumeValid := vv, baryValid := ba }
        xs ys zs buf) = some out := by
  obtain ⟨out, e, hl, ho⟩ := distribute_eq t xs ys zs buf hx hy hz
  refine ⟨out, _, e, barycenterM_corners t, hl, ?_, ?_⟩
  · intro p hp
    obtain ⟨i, hi, rfl⟩ := List.mem_iff_getElem.mp hp
    have h1 : i < xs.length := by omega
    have h2 : i < ys.length := by omega
    have h3 : i < zs.length := by omega
    have := ho i xs[i] ys[i] zs[i] (by omega) (by simp [h1]) (by simp [h2]) (by simp [h3])
    rw [List.getElem?_eq_getElem hi, Option.some.injEq] at this
    rw [this]
    obtain ⟨f1, f2, f3, f4⟩ := fold_mem xs[i] ys[i] zs[i] (ux _ (List.getElem_mem h1))
      (uy _ (List.getElem_mem h2)) (uz _ (List.getElem_mem h3))
    exact cornerSum_inSimplex _ _ f1 f2 f3 f4
  · intro b vv ba
    obtain ⟨out2, e2, hl2, ho2⟩ := distribute_eq { t with bary := b, volumeValid := vv, baryValid := ba }
      xs ys zs buf hx hy hz
    rw [e2]
    simp only [Option.map_some, Option.some.injEq]
    refine List.ext_getElem (by omega) fun i g1 g2 => ?_
    have h1 : i < xs.length := by omega
    have h2 : i < ys.length := by omega
    have h3 : i < zs.length := by omega
    have u1 := ho i xs[i] ys[i] zs[i] (by omega) (by simp [h1]) (by simp [h2]) (by simp [h3])
    have u2 := ho2 i xs[i] ys[i] zs[i] (by omega) (by simp [h1]) (by simp [h2]) (by simp [h3])
    rw [List.getElem?_eq_getElem g2, Option.some.injEq] at u1
    rw [List.getElem?_eq_getElem g1, Option.some.injEq] at u2
    rw [u1, u2]
    funext j
    simp only [cornerSum_eq]

example : ((newTetra ![0, 0, 0] ![1, 0, 0] ![0, 1, 0] ![0, 0, 1]).distribute [1/2, 3/4] [1/4, 3/4] [1/8, 1]
    [fun _ => 0, fun _ => 0]).map (·.1) = some [![1/4, 1/8, 1/8], ![0, 1/2, 1/4]] := by
  decide +kernel

/-- `RandomSample` with a buffer of the right length filled with numbers of the unit interval puts every point
inside the tetrahedron; with a buffer of any other length it panics. -/
theorem C40_randomSample (t : Tetra) (rand : List ℚ) (buf : List Vec) :
    (rand.length ≠ buf.length * 3 → t.randomSample rand buf = none) ∧
    (rand.length = buf.length * 3 → (∀ x ∈ rand, 0 ≤ x ∧ x ≤ 1) →
      ∃ out t', t.randomSample rand buf = some (out, t') ∧ out.length = buf.length ∧
        ∀ p ∈ out, InSimplex t.corners p) := by
  constructor
  · intro h; unfold Tetra.randomSample; simp only; rw [if_pos h]
  · intro h hr
    obtain ⟨out, t', e, _, hl, hin, _⟩ := C40_distribute t (rand.take buf.length)
      ((rand.drop buf.length).take buf.length) ((rand.drop (2 * buf.length)).take buf.length) buf
      (by simp; omega) (by simp; omega) (by simp; omega)
      (fun x hx => hr x (List.mem_of_mem_take hx))
      (fun x hx => hr x (List.mem_of_mem_drop (List.mem_of_mem_take hx)))
      (fun x hx => hr x (List.mem_of_mem_drop (List.mem_of_mem_take hx)))
    refine ⟨out, t', ?_, hl, hin⟩
    unfold Tetra.randomSample; simp only; rw [if_neg (by omega)]; exact e

example : ((newTetra ![0, 0, 0] ![1, 0, 0] ![0, 1, 0] ![0, 0, 1]).randomSample [1/2, 3/4, 1/4, 3/4, 1/8, 1]
    [fun _ => 0, fun _ => 0]).map (·.1) = some [![1/4, 1/8, 1/8], ![0, 1/2, 1/4]] := by
  decide +kernel

/-- `DistributeTetra` on points of the unit tetrahedron: no panic, the rest of `out` is left alone, and each
point is a convex combination of the corners with the point's coordinates as weights. -/
theorem C40_distributeTetra (t : Tetra) (pts buf : List Vec) (hl : pts.length ≤ buf.length) :
    ∃ out t', t.distributeTetra pts buf = some (out, t') ∧ t'.corners = t.corners ∧ out.length = buf.length ∧
      (∀ i, pts.length ≤ i → out[i]? = buf[i]?) ∧
      ∀ (i : Nat) (p : Vec), pts[i]? = some p → ∃ q, out[i]? = some q ∧
        IsBary t.corners ![p 0, p 1, p 2, 1 - p 0 - p 1 - p 2] q := by
  have gp : ∀ i < pts.length, pts[i]? = some (pts.getD i 0) := fun i hi => by simp [hi]
  obtain ⟨out, e, hl2, ho⟩ := fill_spec (n := pts.length)
    (fun i => let p : Vec := pts.getD i 0
      cornerSum t.barycenterM.2.corners t.barycenterM.1 (p 0) (p 1) (p 2)) buf hl
    (fun i (buf : List Vec) => do
      let p ← rd pts i
      wr buf i (cornerSum t.barycenterM.2.corners t.barycenterM.1 (p 0) (p 1) (p 2))) (by
      intro i st hi
      have a1 : rd pts (i : Int) = some (pts.getD i 0) := rd_fn_nat gp i rfl (by omega)
      simp only [a1, bind, Option.bind_some])
  refine ⟨out, t.barycenterM.2, ?_, barycenterM_corners t, hl2, ?_, ?_⟩
  · unfold Tetra.distributeTetra
    exact bind_of e rfl
  · intro i hi; rw [ho i, if_neg (by omega)]
  · intro i p hp
    have hi : i < pts.length := (List.getElem?_eq_some_iff.mp hp).1
    refine ⟨_, by rw [ho i, if_pos hi], ?_⟩
    simp only [List.getD, hp, Option.getD_some, barycenterM_corners]
    refine ⟨by simp [Fin.sum_univ_four], fun j => ?_⟩
    rw [cornerSum_eq]; simp [Fin.sum_univ_four]

example : ((newTetra ![0, 0, 0] ![2, 0, 0] ![0, 2, 0] ![0, 0, 2]).distributeTetra [![1/4, 1/4, 1/4]]
    [fun _ => 0, ![7, 7, 7]]).map (·.1) = some [![1/2, 1/2, 1/2], ![7, 7, 7]] := by
  decide +kernel

/-- `DistributeUnit` followed by `DistributeTetra` is `Distribute`. -/
theorem C40_unit_then_tetra (t : Tetra) (pts : List Vec) :
    (t.distributeTetra (distributeUnit pts) pts).map (·.1) =
      (t.distribute (pts.map (· 0)) (pts.map (· 1)) (pts.map (· 2)) pts).map (·.1) := by
  obtain ⟨o1, e1, l1, h1⟩ := distribute_eq t (pts.map (· 0)) (pts.map (· 1)) (pts.map (· 2)) pts
    (by simp) (by simp) (by simp)
  obtain ⟨o2, t2, e2, _, l2, _, h2⟩ := C40_distributeTetra t (distributeUnit pts) pts (by simp [distributeUnit])
  rw [e1, e2]
  simp only [Option.map_some, Option.some.injEq]
  refine List.ext_getElem (by omega) fun i g1 g2 => ?_
  have hi : i < pts.length := by omega
  have u1 := h1 i (pts[i] 0) (pts[i] 1) (pts[i] 2) hi (by simp [hi]) (by simp [hi]) (by simp [hi])
  obtain ⟨q, u2, hq⟩ := h2 i ![(fold (pts[i] 0) (pts[i] 1) (pts[i] 2)).1,
    (fold (pts[i] 0) (pts[i] 1) (pts[i] 2)).2.1, (fold (pts[i] 0) (pts[i] 1) (pts[i] 2)).2.2] (by
      simp only [distributeUnit, List.getElem?_map, List.getElem?_eq_getElem hi, Option.map_some])
  rw [List.getElem?_eq_getElem g1, Option.some.injEq] at u2
  rw [List.getElem?_eq_getElem g2, Option.some.injEq] at u1
  rw [u1, u2]
  funext j
  rw [cornerSum_eq, hq.2 j]
  simp [Fin.sum_univ_four]

/-- The folding as nested conditionals. -/
theorem fold_eq (s t u : ℚ) : fold s t u =
    if s + t > 1 then
      if 1 - t + u > 1 then (1 - s, 1 - u, 1 - (1 - s) - (1 - t))
      else if 1 - s + (1 - t) + u > 1 then (1 - (1 - t) - u, 1 - t, 1 - s + (1 - t) + u - 1)
      else (1 - s, 1 - t, u)
    else if t + u > 1 then (s, 1 - u, 1 - s - t)
    else if s + t + u > 1 then (1 - t - u, t, s + t + u - 1)
    else (s, t, u) := by
  unfold fold
  by_cases h : s + t > 1
  · simp only [if_pos h]
  · simp only [if_neg h]

theorem fin6_cases : ∀ j : Fin 6, j = 0 ∨ j = 1 ∨ j = 2 ∨ j = 3 ∨ j = 4 ∨ j = 5 := by decide

/-- The six preimages of a point of the unit tetrahedron under the folding. -/
def preimages (a b c : ℚ) : Fin 6 → ℚ × ℚ × ℚ := ![
  (a, b, c), (a + c, b, 1 - a - b), (a, 1 - a - c, 1 - b),
  (1 - a, 1 - b, c), (1 - (a + c), 1 - b, 1 - a - b), (1 - a, a + c, 1 - b)]

/-- Each interior point of the unit tetrahedron has exactly six preimages in the unit cube: the listed ones,
which are pairwise different. -/
theorem C40_six_preimages (a b c : ℚ) (ha : 0 < a) (hb : 0 < b) (hc : 0 < c) (h : a + b + c < 1) :
    Function.Injective (preimages a b c) ∧
    ∀ s t u : ℚ, ((0 ≤ s ∧ s ≤ 1 ∧ 0 ≤ t ∧ t ≤ 1 ∧ 0 ≤ u ∧ u ≤ 1) ∧ fold s t u = (a, b, c)) ↔
      ∃ k, (s, t, u) = preimages a b c k := by
  constructor
  · intro j k hjk
    have hj := fin6_cases j
    have hk := fin6_cases k
    rcases hj with rfl | rfl | rfl | rfl | rfl | rfl <;> rcases hk with rfl | rfl | rfl | rfl | rfl | rfl <;>
      first
        | rfl
        | (exfalso
           simp only [preimages, Matrix.cons_val_zero, Matrix.cons_val_one, Matrix.cons_val, Prod.mk.injEq] at hjk
           obtain ⟨e1, e2, e3⟩ := hjk
           linarith)
  · intro s t u
    constructor
    · rintro ⟨⟨_, _, _, _, _, _⟩, hf⟩
      rw [fold_eq] at hf
      split_ifs at hf with h1 h2 h3 h2 h3 <;> simp only [Prod.mk.injEq] at hf <;> obtain ⟨e1, e2, e3⟩ := hf
      · exact ⟨5, by simp only [preimages, Matrix.cons_val, Prod.mk.injEq]; refine ⟨?_, ?_, ?_⟩ <;> linarith⟩
      · exact ⟨4, by simp only [preimages, Matrix.cons_val, Prod.mk.injEq]; refine ⟨?_, ?_, ?_⟩ <;> linarith⟩
      · exact ⟨3, by simp only [preimages, Matrix.cons_val, Prod.mk.injEq]; refine ⟨?_, ?_, ?_⟩ <;> linarith⟩
      · exact ⟨2, by simp only [preimages, Matrix.cons_val, Prod.mk.injEq]; refine ⟨?_, ?_, ?_⟩ <;> linarith⟩
      · exact ⟨1, by
          simp only [preimages, Matrix.cons_val, Matrix.cons_val_one, Prod.mk.injEq]
          refine ⟨?_, ?_, ?_⟩ <;> linarith⟩
      · exact ⟨0, by
          simp only [preimages, Matrix.cons_val_zero, Prod.mk.injEq]
          refine ⟨?_, ?_, ?_⟩ <;> linarith⟩
    · rintro ⟨k, hk⟩
      have hk' := fin6_cases k
      rcases hk' with rfl | rfl | rfl | rfl | rfl | rfl <;>
        simp only [preimages, Matrix.cons_val_zero, Matrix.cons_val_one, Matrix.cons_val, Prod.mk.injEq] at hk <;>
        obtain ⟨rfl, rfl, rfl⟩ := hk <;>
        refine ⟨⟨by linarith, by linarith, by linarith, by linarith, by linarith, by linarith⟩, ?_⟩ <;>
        rw [fold_eq] <;> split_ifs <;>
        first
          | (exfalso; linarith)
          | (rw [Prod.mk.injEq, Prod.mk.injEq]; exact ⟨by linarith, by linarith, by linarith⟩)

/-- The folding is made of six affine pieces, each with determinant ±1 (volume preserving): there are six
matrices and offsets such that every point is mapped by one of them, and which one is used depends only on
the linear conditions of the code. -/
theorem C40_volume_preserving :
    ∃ (A : Fin 6 → _root_.Matrix (Fin 3) (Fin 3) ℚ) (b : Fin 6 → Vec) (region : ℚ → ℚ → ℚ → Fin 6),
      (∀ k, (A k).det = 1 ∨ (A k).det = -1) ∧
      ∀ s t u : ℚ, ![(fold s t u).1, (fold s t u).2.1, (fold s t u).2.2] =
        (A (region s t u)).mulVec ![s, t, u] + b (region s t u) := by
  refine ⟨![!![1, 0, 0; 0, 1, 0; 0, 0, 1], !![0, -1, -1; 0, 1, 0; 1, 1, 1], !![1, 0, 0; 0, 0, -1; -1, -1, 0],
    !![-1, 0, 0; 0, -1, 0; 0, 0, 1], !![0, 1, -1; 0, -1, 0; -1, -1, 1], !![-1, 0, 0; 0, 0, -1; 1, 1, 0]],
    ![![0, 0, 0], ![1, 0, -1], ![0, 1, 1], ![1, 1, 0], ![0, 1, 1], ![1, 1, -1]],
    fun s t u =>
      if s + t > 1 then
        if 1 - t + u > 1 then 5 else if 1 - s + (1 - t) + u > 1 then 4 else 3
      else if t + u > 1 then 2 else if s + t + u > 1 then 1 else 0, ?_, ?_⟩
  · intro k
    fin_cases k <;> simp [Matrix.det_fin_three]
  · intro s t u
    rw [fold_eq]
    beta_reduce
    split_ifs <;> funext i <;> fin_cases i <;> simp <;> ring

example : fold (3/4) (3/4) 1 = (1/4, 0, 1/2) ∧ fold (1/2) (1/8) (3/4) = (1/8, 1/8, 3/8) := by decide +kernel

/-! ## C41 -/

theorem minMaxStep_spec {m : ℚ × ℚ} (h : m.1 ≤ m.2) (x : ℚ) :
    (minMaxStep m x).1 ≤ (minMaxStep m x).2 ∧ (minMaxStep m x).1 ≤ m.1 ∧ m.2 ≤ (minMaxStep m x).2 ∧
      (minMaxStep m x).1 ≤ x ∧ x ≤ (minMaxStep m x).2 ∧
      ((minMaxStep m x).1 = m.1 ∨ (minMaxStep m x).1 = x) ∧
      ((minMaxStep m x).2 = m.2 ∨ (minMaxStep m x).2 = x) := by
  unfold minMaxStep
  split_ifs with a b
  · exact ⟨by linarith, a.le, le_refl _, le_refl _, by linarith, Or.inr rfl, Or.inl rfl⟩
  · exact ⟨by linarith, le_refl _, b.le, by linarith, le_refl _, Or.inl rfl, Or.inr rfl⟩
  · exact ⟨h, le_refl _, le_refl _, not_lt.mp a, not_lt.mp b, Or.inl rfl, Or.inl rfl⟩

theorem cornerMinMax_spec (c : Fin 4 → Vec) (i : Fin 3) :
    (∀ k, (cornerMinMax c i).1 ≤ c k i ∧ c k i ≤ (cornerMinMax c i).2) ∧
      (∃ k, (cornerMinMax c i).1 = c k i) ∧ (∃ k, (cornerMinMax c i).2 = c k i) := by
  unfold cornerMinMax
  obtain ⟨a1, a2, a3, a4, a5, a6, a7⟩ := minMaxStep_spec (m := (c 0 i, c 0 i)) le_rfl (c 1 i)
  obtain ⟨b1, b2, b3, b4, b5, b6, b7⟩ := minMaxStep_spec a1 (c 2 i)
  obtain ⟨d1, d2, d3, d4, d5, d6, d7⟩ := minMaxStep_spec b1 (c 3 i)
  generalize minMaxStep (c 0 i, c 0 i) (c 1 i) = m1 at *
  generalize minMaxStep m1 (c 2 i) = m2 at *
  generalize minMaxStep m2 (c 3 i) = m3 at *
  simp only at a2 a3 a6 a7
  refine ⟨?_, ?_, ?_⟩
  · intro k
    fin_cases k
    · exact ⟨by show m3.1 ≤ c 0 i; linarith, by show c 0 i ≤ m3.2; linarith⟩
    · exact ⟨by show m3.1 ≤ c 1 i; linarith, by show c 1 i ≤ m3.2; linarith⟩
    · exact ⟨by show m3.1 ≤ c 2 i; linarith, by show c 2 i ≤ m3.2; linarith⟩
    · exact ⟨by show m3.1 ≤ c 3 i; linarith, by show c 3 i ≤ m3.2; linarith⟩
  · rcases d6 with e | e
    · rcases b6 with f | f
      · rcases a6 with g | g
        · exact ⟨0, by rw [e, f, g]⟩
        · exact ⟨1, by rw [e, f, g]⟩
      · exact ⟨2, by rw [e, f]⟩
    · exact ⟨3, e⟩
  · rcases d7 with e | e
    · rcases b7 with f | f
      · rcases a7 with g | g
        · exact ⟨0, by rw [e, f, g]⟩
        · exact ⟨1, by rw [e, f, g]⟩
      · exact ⟨2, by rw [e, f]⟩
    · exact ⟨3, e⟩

theorem inSimplex_corner (c : Fin 4 → Vec) (k : Fin 4) : InSimplex c (c k) := by
  refine ⟨fun j => if j = k then 1 else 0, ⟨by simp, fun i => by simp⟩, fun j => by
    show (0 : ℚ) ≤ if j = k then 1 else 0
    split_ifs <;> norm_num⟩

/-- Cell containing a position. -/
def cellOf (cellWidth : ℚ) (p : Vec) : IVec := fun i => ⌊p i / cellWidth⌋

/-- Every point of the tetrahedron lies in a cell of the returned box. -/
theorem C41_covers (t : Tetra) (cw : ℚ) (hcw : 0 < cw) (p : Vec) (hp : InSimplex t.corners p) :
    InBox (t.cellBounds cw) (cellOf cw p) := by
  intro i
  obtain ⟨l, ⟨hs, hq⟩, hl⟩ := hp
  obtain ⟨hm, _, _⟩ := cornerMinMax_spec t.corners i
  have h1 : (cornerMinMax t.corners i).1 ≤ p i := by
    rw [hq i]
    calc (cornerMinMax t.corners i).1 = ∑ k, l k * (cornerMinMax t.corners i).1 := by
          rw [← Finset.sum_mul, hs, one_mul]
      _ ≤ _ := Finset.sum_le_sum fun k _ => mul_le_mul_of_nonneg_left (hm k).1 (hl k)
  have h2 : p i ≤ (cornerMinMax t.corners i).2 := by
    rw [hq i]
    calc _ ≤ ∑ k, l k * (cornerMinMax t.corners i).2 :=
          Finset.sum_le_sum fun k _ => mul_le_mul_of_nonneg_left (hm k).2 (hl k)
      _ = (cornerMinMax t.corners i).2 := by rw [← Finset.sum_mul, hs, one_mul]
  simp only [Tetra.cellBounds, cellOf]
  have f1 := Int.floor_mono (div_le_div_of_nonneg_right h1 hcw.le)
  have f2 := Int.floor_mono (div_le_div_of_nonneg_right h2 hcw.le)
  rw [sub_add_cancel]
  omega

/-- Any box of cells that contains all points of the tetrahedron contains the returned box. -/
theorem C41_minimal (t : Tetra) (cw : ℚ) (cb : CellBounds)
    (h : ∀ p, InSimplex t.corners p → InBox cb (cellOf cw p)) (c : IVec) (hc : InBox (t.cellBounds cw) c) :
    InBox cb c := by
  intro i
  obtain ⟨_, ⟨k, hk⟩, ⟨j, hj⟩⟩ := cornerMinMax_spec t.corners i
  have a := h _ (inSimplex_corner t.corners k) i
  have b := h _ (inSimplex_corner t.corners j) i
  have d := hc i
  simp only [Tetra.cellBounds, cellOf] at a b d
  rw [sub_add_cancel, hk, hj] at d
  omega

example : ((newTetra ![1/2, 0, 0] ![3, 0, 0] ![0, 5/2, 0] ![0, 0, -1]).cellBounds 1).origin = ![0, 0, -1] ∧
    ((newTetra ![1/2, 0, 0] ![3, 0, 0] ![0, 5/2, 0] ![0, 0, -1]).cellBounds 1).width = ![4, 3, 2] := by
  decide +kernel

end Verif.Geom
