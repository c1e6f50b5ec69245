import Verif.Geom.Grid
import Mathlib.Algebra.BigOperators.Fin

/-! Tetrahedron indices: properties C35 and C36. -/

set_option autoImplicit false

namespace Verif.Geom

open Verif.Go

/-! ## Specification -/

/-- Lattice coordinates of particle number `j` in a cubic lattice of `n` particles per side, the first
coordinate running fastest. -/
def lattice (n j : ℤ) : IVec := ![j % n, j / n % n, j / n / n]

/-- Particle number of a lattice point. -/
def particle (n : ℤ) (c : IVec) : ℤ := c 0 + c 1 * n + c 2 * n * n

/-- The lattice point lies in the lattice of `n` particles per side. -/
def InLattice (n : ℤ) (c : IVec) : Prop := ∀ i, 0 ≤ c i ∧ c i < n

/-- `p` is the combination of the points `c` with the barycentric coordinates `l`. -/
def IsBary (c : Fin 4 → Vec) (l : Fin 4 → ℚ) (p : Vec) : Prop :=
  ∑ k, l k = 1 ∧ ∀ i, p i = ∑ k, l k * c k i

/-- `p` belongs to the closed tetrahedron with corners `c`. -/
def InSimplex (c : Fin 4 → Vec) (p : Vec) : Prop := ∃ l, IsBary c l p ∧ ∀ k, 0 ≤ l k

/-- `p` belongs to the interior of the tetrahedron with corners `c`. -/
def InSimplexInterior (c : Fin 4 → Vec) (p : Vec) : Prop := ∃ l, IsBary c l p ∧ ∀ k, 0 < l k

/-- `p` belongs to the closed cube with lowest corner `b` and side `s`. -/
def InCube (b : IVec) (s : ℤ) (p : Vec) : Prop := ∀ i, (b i : ℚ) ≤ p i ∧ p i ≤ (b i : ℚ) + s

/-- The positions of four particles on the undisturbed lattice. -/
def positions (n : ℤ) (idxs : Fin 4 → ℤ) : Fin 4 → Vec := fun k i => (lattice n (idxs k) i : ℚ)

/-! ## Lattice arithmetic -/

theorem lattice_particle {n : ℤ} {c : IVec} (h : InLattice n c) : lattice n (particle n c) = c := by
  have h0 := h 0
  have h1 := h 1
  have h2 := h 2
  have hn : 0 < n := by omega
  have e : particle n c = c 0 + n * (c 1 + n * c 2) := by unfold particle; ring
  have e1 : particle n c % n = c 0 := by
    rw [e, Int.add_mul_emod_self_left]; exact Int.emod_eq_of_lt (by omega) (by omega)
  have e2 : particle n c / n = c 1 + n * c 2 := by
    rw [e, Int.add_mul_ediv_left _ _ hn.ne', Int.ediv_eq_zero_of_lt (by omega) (by omega), zero_add]
  funext i
  fin_cases i
  · simpa [lattice] using e1
  · simp [lattice, e2, Int.add_mul_emod_self_left]
    exact Int.emod_eq_of_lt (by omega) (by omega)
  · simp [lattice, e2, Int.add_mul_ediv_left _ _ hn.ne']
    exact Int.ediv_eq_zero_of_lt (by omega) (by omega)

theorem particle_range {n : ℤ} {c : IVec} (h : InLattice n c) :
    0 ≤ particle n c ∧ particle n c < n * n * n := by
  have h0 := h 0
  have h1 := h 1
  have h2 := h 2
  have hn : 0 < n := by omega
  unfold particle
  have p1 : c 1 * n ≤ (n - 1) * n := mul_le_mul_of_nonneg_right (by omega) hn.le
  have p2 : c 2 * (n * n) ≤ (n - 1) * (n * n) := mul_le_mul_of_nonneg_right (by omega) (by positivity)
  have q1 : 0 ≤ c 1 * n := mul_nonneg (by omega) hn.le
  have q2 : 0 ≤ c 2 * (n * n) := mul_nonneg (by omega) (by positivity)
  constructor
  · nlinarith
  · nlinarith

theorem lattice_inLattice {n j : ℤ} (hn : 0 < n) (h0 : 0 ≤ j) (h1 : j < n * n * n) :
    InLattice n (lattice n j) ∧ particle n (lattice n j) = j := by
  have a1 := Int.emod_nonneg j hn.ne'
  have a2 := Int.emod_lt_of_pos j hn
  have b1 := Int.emod_nonneg (j / n) hn.ne'
  have b2 := Int.emod_lt_of_pos (j / n) hn
  have c1 := Int.ediv_nonneg (Int.ediv_nonneg h0 hn.le) hn.le
  have c2 : j / n / n < n := by
    refine Int.ediv_lt_of_lt_mul hn (Int.ediv_lt_of_lt_mul hn ?_)
    exact h1
  constructor
  · intro i
    fin_cases i <;> simp [lattice] <;> omega
  · simp only [particle, lattice, Matrix.cons_val_zero, Matrix.cons_val_one, Matrix.cons_val]
    have e1 := Int.emod_add_mul_ediv j n
    have e2 := Int.emod_add_mul_ediv (j / n) n
    linear_combination e1 + n * e2

/-- The coordinates the code extracts from an index. -/
theorem split_index {n j : ℤ} (h0 : 0 ≤ j) :
    j.tmod n = lattice n j 0 ∧ (j.tmod (n * n)).tdiv n = lattice n j 1 ∧ j.tdiv (n * n) = lattice n j 2 ∨
      n ≤ 0 := by
  by_cases hn : n ≤ 0
  · exact Or.inr hn
  left
  push Not at hn
  have hm : 0 ≤ j % (n * n) := Int.emod_nonneg _ (by positivity)
  refine ⟨?_, ?_, ?_⟩
  · rw [Int.tmod_eq_emod_of_nonneg h0]; rfl
  · rw [Int.tmod_eq_emod_of_nonneg h0, Int.tdiv_eq_ediv_of_nonneg hm]
    show _ = j / n % n
    have e1 := Int.emod_add_mul_ediv j n
    have e2 := Int.emod_add_mul_ediv (j / n) n
    have d1 : j / (n * n) = j / n / n := Int.ediv_ediv_of_nonneg hn.le |>.symm
    have e3 := Int.emod_add_mul_ediv j (n * n)
    have e4 : j % (n * n) = j % n + n * (j / n % n) := by
      rw [d1] at e3; linear_combination e3 - e1 - n * e2
    rw [e4, Int.add_mul_ediv_left _ _ hn.ne',
      Int.ediv_eq_zero_of_lt (Int.emod_nonneg _ hn.ne') (Int.emod_lt_of_pos _ hn), zero_add]
  · rw [Int.tdiv_eq_ediv_of_nonneg h0]
    exact Int.ediv_ediv_of_nonneg hn.le |>.symm

/-! ## The six tetrahedra of the unit cube -/

/-- Corner `k` of the tetrahedron of direction `d`, in units of the cube. -/
def unitCorner (d : Fin 6) : Fin 4 → IVec := ![dirs d 0, dirs d 1, ![1, 1, 1], ![0, 0, 0]]

theorem unitCorner_01 (d : Fin 6) (k : Fin 4) (i : Fin 3) : unitCorner d k i = 0 ∨ unitCorner d k i = 1 := by
  revert d k i; decide +kernel

/-- Corners of the unit tetrahedra as rational vectors. -/
def unitCornerQ (d : Fin 6) : Fin 4 → Vec := fun k i => (unitCorner d k i : ℚ)

theorem unit_cover (q : Vec) (h : ∀ i, 0 ≤ q i ∧ q i ≤ 1) : ∃ d, InSimplex (unitCornerQ d) q := by
  have h0 := h 0
  have h1 := h 1
  have h2 := h 2
  have mk : ∀ (d : Fin 6) (a b c e : ℚ), 0 ≤ a → 0 ≤ b → 0 ≤ c → 0 ≤ e → a + b + c + e = 1 →
      (∀ i, q i = a * unitCornerQ d 0 i + b * unitCornerQ d 1 i + c * unitCornerQ d 2 i +
        e * unitCornerQ d 3 i) → ∃ d, InSimplex (unitCornerQ d) q := by
    intro d a b c e ha hb hc he hs hq
    refine ⟨d, ![a, b, c, e], ⟨?_, ?_⟩, ?_⟩
    · simp [Fin.sum_univ_four]; linarith
    · intro i; rw [hq i]; simp [Fin.sum_univ_four]
    · intro k; fin_cases k <;> simp <;> assumption
  rcases le_total (q 1) (q 0) with a | a <;> rcases le_total (q 2) (q 1) with b | b <;>
    rcases le_total (q 2) (q 0) with c | c
  · exact mk 0 (q 0 - q 1) (q 1 - q 2) (q 2) (1 - q 0) (by linarith) (by linarith) (by linarith)
      (by linarith) (by ring) (by intro i; fin_cases i <;> simp [unitCornerQ, unitCorner, dirs])
  · exact mk 0 (q 0 - q 1) (q 1 - q 2) (q 2) (1 - q 0) (by linarith) (by linarith) (by linarith)
      (by linarith) (by ring) (by intro i; fin_cases i <;> simp [unitCornerQ, unitCorner, dirs])
  · exact mk 1 (q 0 - q 2) (q 2 - q 1) (q 1) (1 - q 0) (by linarith) (by linarith) (by linarith)
      (by linarith) (by ring) (by intro i; fin_cases i <;> simp [unitCornerQ, unitCorner, dirs])
  · exact mk 3 (q 2 - q 0) (q 0 - q 1) (q 1) (1 - q 2) (by linarith) (by linarith) (by linarith)
      (by linarith) (by ring) (by intro i; fin_cases i <;> simp [unitCornerQ, unitCorner, dirs])
  · exact mk 2 (q 1 - q 0) (q 0 - q 2) (q 2) (1 - q 1) (by linarith) (by linarith) (by linarith)
      (by linarith) (by ring) (by intro i; fin_cases i <;> simp [unitCornerQ, unitCorner, dirs])
  · exact mk 4 (q 1 - q 2) (q 2 - q 0) (q 0) (1 - q 1) (by linarith) (by linarith) (by linarith)
      (by linarith) (by ring) (by intro i; fin_cases i <;> simp [unitCornerQ, unitCorner, dirs])
  · exact mk 5 (q 2 - q 1) (q 1 - q 0) (q 0) (1 - q 2) (by linarith) (by linarith) (by linarith)
      (by linarith) (by ring) (by intro i; fin_cases i <;> simp [unitCornerQ, unitCorner, dirs])
  · exact mk 5 (q 2 - q 1) (q 1 - q 0) (q 0) (1 - q 2) (by linarith) (by linarith) (by linarith)
      (by linarith) (by ring) (by intro i; fin_cases i <;> simp [unitCornerQ, unitCorner, dirs])

theorem unit_overlap (d e : Fin 6) (l m : Fin 4 → ℚ) (q : Vec) (hl : IsBary (unitCornerQ d) l q)
    (hm : IsBary (unitCornerQ e) m q) (hl0 : ∀ k, 0 ≤ l k) (hm0 : ∀ k, 0 ≤ m k) (k : Fin 4) :
    l k = 0 ∨ ∃ j, unitCorner d k = unitCorner e j ∧ l k = m j := by
  obtain ⟨ls, lq⟩ := hl
  obtain ⟨ms, mq⟩ := hm
  have l0 := hl0 0
  have l1 := hl0 1
  have l2 := hl0 2
  have l3 := hl0 3
  have m0 := hm0 0
  have m1 := hm0 1
  have m2 := hm0 2
  have m3 := hm0 3
  have x0 := (lq 0).symm.trans (mq 0)
  have x1 := (lq 1).symm.trans (mq 1)
  have x2 := (lq 2).symm.trans (mq 2)
  simp only [Fin.sum_univ_four] at ls ms x0 x1 x2
  clear lq mq hl0 hm0
  have hk : k = 0 ∨ k = 1 ∨ k = 2 ∨ k = 3 := by revert k; decide
  fin_cases d <;> fin_cases e <;> simp [unitCornerQ, unitCorner, dirs] at x0 x1 x2 <;>
    rcases hk with rfl | rfl | rfl | rfl <;>
    first
      | (left; linarith)
      | (right; exact ⟨0, by decide +kernel, by linarith⟩)
      | (right; exact ⟨1, by decide +kernel, by linarith⟩)
      | (right; exact ⟨2, by decide +kernel, by linarith⟩)
      | (right; exact ⟨3, by decide +kernel, by linarith⟩)

theorem unit_distinct : ∀ d e : Fin 6, (∀ k, ∃ j, unitCorner d k = unitCorner e j) → d = e := by
  decide +kernel

/-! ## C35 -/

/-- What `Init` returns for the cube with lowest corner `b`: the particle numbers of four corners of the
cube. -/
theorem initIdxs_eq {n skip : ℤ} {b : IVec} (hb : InLattice n b) (d : Fin 6) :
    initIdxs (particle n b) n skip (d.val : ℤ) =
      some (fun k => particle n (fun i => b i + skip * unitCorner d k i)) := by
  have hn : 0 < n := by have := hb 0; omega
  have hd := d.isLt
  unfold initIdxs
  rw [dif_pos (by omega), if_neg hn.ne']
  rcases split_index (particle_range hb).1 (n := n) with ⟨e0, e1, e2⟩ | h
  swap
  · omega
  dsimp only
  rw [e0, e1, e2, lattice_particle hb]
  congr 1
  funext k
  have hdd : (⟨((d.val : ℤ)).toNat, by omega⟩ : Fin 6) = d := by ext; simp
  rw [hdd]
  fin_cases k
  · simp [compressCoords, particle, unitCorner]
  · simp [compressCoords, particle, unitCorner]
  · simp [compressCoords, particle, unitCorner]
  · simp [particle, unitCorner]

theorem corner_inLattice {n skip : ℤ} {b : IVec} (hs : 0 ≤ skip)
    (hb : ∀ i, 0 ≤ b i ∧ b i + skip < n) (d : Fin 6) (k : Fin 4) :
    InLattice n (fun i => b i + skip * unitCorner d k i) := by
  intro i
  have := hb i
  rcases unitCorner_01 d k i with h | h
  · simp [h]; omega
  · simp [h]; omega

/-- The tetrahedra returned by `Init` have corners of the cube as vertices (four different ones), with
indices inside the particle grid. -/
theorem C35_vertices (n skip : ℤ) (b : IVec) (hs : 0 < skip) (hb : ∀ i, 0 ≤ b i ∧ b i + skip < n)
    (dir : ℤ) (hd : 0 ≤ dir ∧ dir < 6) :
    ∃ idxs, initIdxs (particle n b) n skip dir = some idxs ∧ (∀ k, 0 ≤ idxs k ∧ idxs k < n * n * n) ∧
      Function.Injective idxs ∧
      ∀ k i, lattice n (idxs k) i = b i ∨ lattice n (idxs k) i = b i + skip := by
  have hbl : InLattice n b := fun i => by have := hb i; omega
  obtain ⟨d, rfl⟩ : ∃ d : Fin 6, dir = (d.val : ℤ) := ⟨⟨dir.toNat, by omega⟩, by simp; omega⟩
  refine ⟨_, initIdxs_eq hbl d, ?_, ?_, ?_⟩
  · intro k; exact particle_range (corner_inLattice hs.le hb d k)
  · intro k j h
    have h2 := congrArg (lattice n) h
    simp only at h2
    rw [lattice_particle (corner_inLattice hs.le hb d k), lattice_particle (corner_inLattice hs.le hb d j)] at h2
    have h3 : unitCorner d k = unitCorner d j := by
      funext i
      have := congrFun h2 i
      have : skip * unitCorner d k i = skip * unitCorner d j i := by linarith
      exact mul_left_cancel₀ hs.ne' this
    have key : ∀ (d : Fin 6) (k j : Fin 4), unitCorner d k = unitCorner d j → k = j := by decide +kernel
    exact key d k j h3
  · intro k i
    rw [lattice_particle (corner_inLattice hs.le hb d k)]
    rcases unitCorner_01 d k i with h | h
    · left; simp [h]
    · right; simp [h]

example : initIdxs (particle 4 ![1, 0, 1]) 4 2 3 = some ![49, 51, 59, 17] ∧
    (∀ i, (0 : ℤ) ≤ (![1, 0, 1] : IVec) i ∧ (![1, 0, 1] : IVec) i + 2 < 4) := by
  constructor
  · decide +kernel
  · intro i; fin_cases i <;> simp

/-- Any other direction stops the program. -/
theorem C35_unknown_direction (idx n skip dir : ℤ) (h : dir < 0 ∨ 6 ≤ dir) : initIdxs idx n skip dir = none := by
  unfold initIdxs; rw [dif_neg (by omega)]

theorem positions_eq {n skip : ℤ} {b : IVec} (hs : 0 ≤ skip) (hb : ∀ i, 0 ≤ b i ∧ b i + skip < n)
    (d : Fin 6) :
    positions n (fun k => particle n (fun i => b i + skip * unitCorner d k i)) =
      fun k i => (b i : ℚ) + skip * unitCornerQ d k i := by
  funext k i
  unfold positions
  rw [lattice_particle (corner_inLattice hs hb d k)]
  simp [unitCornerQ]

theorem isBary_scale {b : IVec} {skip : ℤ} (hs : 0 < skip) (d : Fin 6) (l : Fin 4 → ℚ) (p : Vec) :
    IsBary (fun k i => (b i : ℚ) + skip * unitCornerQ d k i) l p ↔
      IsBary (unitCornerQ d) l (fun i => (p i - b i) / skip) := by
  have hq : (skip : ℚ) ≠ 0 := by exact_mod_cast hs.ne'
  unfold IsBary
  constructor
  · rintro ⟨h1, h2⟩
    refine ⟨h1, fun i => ?_⟩
    show (p i - b i) / skip = _
    rw [h2 i, div_eq_iff hq]
    simp only [Fin.sum_univ_four] at *
    linear_combination (b i : ℚ) * h1
  · rintro ⟨h1, h2⟩
    refine ⟨h1, fun i => ?_⟩
    have := h2 i
    rw [div_eq_iff hq] at this
    simp only [Fin.sum_univ_four] at *
    linear_combination this - (b i : ℚ) * h1

/-- The six tetrahedra cover the cube. -/
theorem C35_cover (n skip : ℤ) (b : IVec) (hs : 0 < skip) (hb : ∀ i, 0 ≤ b i ∧ b i + skip < n)
    (p : Vec) (hp : InCube b skip p) :
    ∃ dir idxs, 0 ≤ dir ∧ dir < 6 ∧ initIdxs (particle n b) n skip dir = some idxs ∧
      InSimplex (positions n idxs) p := by
  have hbl : InLattice n b := fun i => by have := hb i; omega
  have hq : (0 : ℚ) < skip := by exact_mod_cast hs
  obtain ⟨d, l, hl, hl0⟩ := unit_cover (fun i => (p i - b i) / skip) (by
    intro i
    obtain ⟨h1, h2⟩ := hp i
    constructor
    · exact div_nonneg (by linarith) hq.le
    · rw [div_le_one hq]; linarith)
  refine ⟨(d.val : ℤ), _, by omega, by omega, initIdxs_eq hbl d, l, ?_, hl0⟩
  rw [positions_eq hs.le hb, isBary_scale hs]
  exact hl

/-- Each tetrahedron stays inside the cube. -/
theorem C35_inside (n skip : ℤ) (b : IVec) (hs : 0 < skip) (hb : ∀ i, 0 ≤ b i ∧ b i + skip < n)
    (dir : ℤ) (idxs : Fin 4 → ℤ) (h : initIdxs (particle n b) n skip dir = some idxs)
    (p : Vec) (hp : InSimplex (positions n idxs) p) : InCube b skip p := by
  have hbl : InLattice n b := fun i => by have := hb i; omega
  have hd : 0 ≤ dir ∧ dir < 6 := by
    by_contra hc
    rw [C35_unknown_direction _ _ _ _ (by omega)] at h
    exact absurd h (by simp)
  obtain ⟨idxs', h1, _, _, h4⟩ := C35_vertices n skip b hs hb dir hd
  rw [h] at h1
  obtain rfl := Option.some.inj h1
  obtain ⟨l, ⟨hsum, hc⟩, hl⟩ := hp
  intro i
  have hq : (0 : ℚ) < skip := by exact_mod_cast hs
  have hk : ∀ k, (b i : ℚ) ≤ positions n idxs k i ∧ positions n idxs k i ≤ (b i : ℚ) + skip := by
    intro k
    unfold positions
    rcases h4 k i with e | e <;> rw [e] <;> push_cast <;> constructor <;> linarith
  rw [hc i]
  constructor
  · calc (b i : ℚ) = ∑ k, l k * (b i : ℚ) := by rw [← Finset.sum_mul, hsum, one_mul]
      _ ≤ _ := Finset.sum_le_sum fun k _ => mul_le_mul_of_nonneg_left (hk k).1 (hl k)
  · calc _ ≤ ∑ k, l k * ((b i : ℚ) + skip) :=
          Finset.sum_le_sum fun k _ => mul_le_mul_of_nonneg_left (hk k).2 (hl k)
      _ = (b i : ℚ) + skip := by rw [← Finset.sum_mul, hsum, one_mul]

/-- Two tetrahedra overlap only in common faces: a point of both is a combination of their common vertices,
with the same weights. -/
theorem C35_overlap (n skip : ℤ) (b : IVec) (hs : 0 < skip) (hb : ∀ i, 0 ≤ b i ∧ b i + skip < n)
    (dir dir' : ℤ) (idxs idxs' : Fin 4 → ℤ) (h : initIdxs (particle n b) n skip dir = some idxs)
    (h' : initIdxs (particle n b) n skip dir' = some idxs')
    (p : Vec) (l l' : Fin 4 → ℚ) (hl : IsBary (positions n idxs) l p) (hl' : IsBary (positions n idxs') l' p)
    (h0 : ∀ k, 0 ≤ l k) (h0' : ∀ k, 0 ≤ l' k) (k : Fin 4) :
    l k = 0 ∨ ∃ j, idxs k = idxs' j ∧ l k = l' j := by
  have hbl : InLattice n b := fun i => by have := hb i; omega
  have hd : 0 ≤ dir ∧ dir < 6 := by
    by_contra hc
    rw [C35_unknown_direction _ _ _ _ (by omega)] at h
    exact absurd h (by simp)
  have hd' : 0 ≤ dir' ∧ dir' < 6 := by
    by_contra hc
    rw [C35_unknown_direction _ _ _ _ (by omega)] at h'
    exact absurd h' (by simp)
  obtain ⟨d, rfl⟩ : ∃ d : Fin 6, dir = (d.val : ℤ) := ⟨⟨dir.toNat, by omega⟩, by simp; omega⟩
  obtain ⟨d', rfl⟩ : ∃ d : Fin 6, dir' = (d.val : ℤ) := ⟨⟨dir'.toNat, by omega⟩, by simp; omega⟩
  rw [initIdxs_eq hbl] at h h'
  obtain rfl := Option.some.inj h
  obtain rfl := Option.some.inj h'
  rw [positions_eq hs.le hb, isBary_scale hs] at hl hl'
  rcases unit_overlap d d' l l' _ hl hl' h0 h0' k with e | ⟨j, e1, e2⟩
  · exact Or.inl e
  · exact Or.inr ⟨j, by simp only [e1], e2⟩

/-- In particular interiors are disjoint: a point in the interior of one tetrahedron is in no other one. -/
theorem C35_interiors_disjoint (n skip : ℤ) (b : IVec) (hs : 0 < skip) (hb : ∀ i, 0 ≤ b i ∧ b i + skip < n)
    (dir dir' : ℤ) (idxs idxs' : Fin 4 → ℤ) (h : initIdxs (particle n b) n skip dir = some idxs)
    (h' : initIdxs (particle n b) n skip dir' = some idxs') (p : Vec)
    (hp : InSimplexInterior (positions n idxs) p) (hp' : InSimplex (positions n idxs') p) : dir = dir' := by
  have hbl : InLattice n b := fun i => by have := hb i; omega
  have hd : 0 ≤ dir ∧ dir < 6 := by
    by_contra hc
    rw [C35_unknown_direction _ _ _ _ (by omega)] at h
    exact absurd h (by simp)
  have hd' : 0 ≤ dir' ∧ dir' < 6 := by
    by_contra hc
    rw [C35_unknown_direction _ _ _ _ (by omega)] at h'
    exact absurd h' (by simp)
  obtain ⟨d, rfl⟩ : ∃ d : Fin 6, dir = (d.val : ℤ) := ⟨⟨dir.toNat, by omega⟩, by simp; omega⟩
  obtain ⟨d', rfl⟩ : ∃ d : Fin 6, dir' = (d.val : ℤ) := ⟨⟨dir'.toNat, by omega⟩, by simp; omega⟩
  rw [initIdxs_eq hbl] at h h'
  obtain rfl := Option.some.inj h
  obtain rfl := Option.some.inj h'
  obtain ⟨l, hl, hl0⟩ := hp
  obtain ⟨l', hl', hl0'⟩ := hp'
  rw [positions_eq hs.le hb, isBary_scale hs] at hl hl'
  have : d = d' := by
    refine unit_distinct d d' fun k => ?_
    rcases unit_overlap d d' l l' _ hl hl' (fun k => (hl0 k).le) hl0' k with e | ⟨j, e1, _⟩
    · exact absurd e (hl0 k).ne'
    · exact ⟨j, e1⟩
  rw [this]

/-- Each of the six has a sixth of the cube's volume. -/
theorem C35_volume (n skip : ℤ) (b : IVec) (hs : 0 < skip) (hb : ∀ i, 0 ≤ b i ∧ b i + skip < n)
    (dir : ℤ) (idxs : Fin 4 → ℤ) (h : initIdxs (particle n b) n skip dir = some idxs) :
    |signedVolume (positions n idxs 0) (positions n idxs 1) (positions n idxs 2) (positions n idxs 3)| =
      (skip : ℚ) ^ 3 / 6 := by
  have hbl : InLattice n b := fun i => by have := hb i; omega
  have hd : 0 ≤ dir ∧ dir < 6 := by
    by_contra hc
    rw [C35_unknown_direction _ _ _ _ (by omega)] at h
    exact absurd h (by simp)
  obtain ⟨d, rfl⟩ : ∃ d : Fin 6, dir = (d.val : ℤ) := ⟨⟨dir.toNat, by omega⟩, by simp; omega⟩
  rw [initIdxs_eq hbl] at h
  obtain rfl := Option.some.inj h
  rw [positions_eq hs.le hb]
  have hq : (0 : ℚ) < (skip : ℚ) ^ 3 / 6 := by
    have : (0 : ℚ) < skip := by exact_mod_cast hs
    positivity
  rw [abs_eq hq.le]
  fin_cases d <;> simp [signedVolume, Vec.dot, Vec.cross, unitCornerQ, unitCorner, dirs] <;>
    first
      | (left; ring1)
      | (right; ring1)

/-- A cube away from the origin, subsampled by two. -/
example : InCube ![1, 0, 1] 2 ![2, 3/2, 5/4] ∧
    (∀ i, (0 : ℤ) ≤ (![1, 0, 1] : IVec) i ∧ (![1, 0, 1] : IVec) i + 2 < 4) ∧
    initIdxs (particle 4 ![1, 0, 1]) 4 2 0 = some ![19, 27, 59, 17] ∧
    InSimplexInterior (positions 4 ![19, 27, 59, 17]) ![13/5, 7/5, 6/5] := by
  refine ⟨?_, ?_, by decide +kernel, ?_⟩
  · intro i; fin_cases i <;> simp <;> norm_num
  · intro i; fin_cases i <;> simp
  · refine ⟨![1/10, 6/10, 1/10, 2/10], ⟨?_, ?_⟩, ?_⟩
    · simp [Fin.sum_univ_four]; norm_num
    · intro i; fin_cases i <;> simp [Fin.sum_univ_four, positions, lattice] <;> norm_num
    · intro k; fin_cases k <;> simp

/-- `InitCartesian` gives the same indices as `Init` with skip 1. -/
theorem C35_cartesian (n : ℤ) (b : IVec) (hb : InLattice n b) (dir : ℤ) :
    initCartesian (b 0) (b 1) (b 2) n dir = initIdxs (particle n b) n 1 dir := by
  by_cases hd : 0 ≤ dir ∧ dir < 6
  · obtain ⟨d, rfl⟩ : ∃ d : Fin 6, dir = (d.val : ℤ) := ⟨⟨dir.toNat, by omega⟩, by simp; omega⟩
    rw [initIdxs_eq hb]
    unfold initCartesian
    rw [dif_pos (by omega)]
    have hdd : (⟨((d.val : ℤ)).toNat, by omega⟩ : Fin 6) = d := by ext; simp
    rw [hdd]
    dsimp only
    congr 1
    funext k
    fin_cases k
    · simp [compressCoords, particle, unitCorner]
    · simp [compressCoords, particle, unitCorner]
    · simp [compressCoords, particle, unitCorner]
    · simp [particle, unitCorner]; ring
  · rw [C35_unknown_direction _ _ _ _ (by omega)]
    unfold initCartesian
    rw [dif_neg hd]

example : initCartesian 1 2 3 5 4 = some ![91, 116, 117, 86] := by decide +kernel

/-! ## C36 -/

/-- `InitCentered` accepts tetrahedra that leave the particle grid along the second or third axis. -/
theorem C36_counterexample :
    ∃ (idx n skip dir : ℤ) (idxs : Fin 4 → ℤ), 0 ≤ idx ∧ idx < n * n * n ∧ 0 < skip ∧
      initCentered (fun _ => 0) idx n skip dir = some (idxs, true) ∧ ∃ k, n * n * n ≤ idxs k := by
  refine ⟨62, 4, 1, 0, ![78, 66, 63, 62], by decide, by decide, by decide, by decide +kernel, 0, by decide +kernel⟩

/-- It even accepts a tetrahedron with a negative index. -/
theorem C36_negative_counterexample :
    ∃ (idx n skip dir : ℤ) (idxs : Fin 4 → ℤ), 0 ≤ idx ∧ idx < n * n * n ∧ 0 < skip ∧
      initCentered (fun _ => 0) idx n skip dir = some (idxs, true) ∧ ∃ k, idxs k < 0 := by
  refine ⟨1, 4, 1, 6, ![-15, -3, 2, 1], by decide, by decide, by decide, by decide +kernel, 0, by decide +kernel⟩

/-- What the answer does mean: `ok` is exactly "every vertex stays in the grid along the first axis"; and
when `ok`, the vertices are the centre and its three neighbours in the octant. The full property also
requires the second and third axis, which are not checked. -/
theorem C36_centered_partial (old : Fin 4 → ℤ) (idx n skip : ℤ) (d : Fin 8) (hn : 0 < n) (h0 : 0 ≤ idx) :
    ∃ idxs ok, initCentered old idx n skip (d.val : ℤ) = some (idxs, ok) ∧
      (ok = true ↔ ∀ k, 0 ≤ lattice n idx 0 + skip * centers d k 0 ∧
        lattice n idx 0 + skip * centers d k 0 < n) ∧
      (ok = true → idxs 3 = idx ∧ ∀ k : Fin 3,
        idxs k.castSucc = particle n (fun i => lattice n idx i + skip * centers d k i)) := by
  have hd := d.isLt
  rcases split_index h0 (n := n) with ⟨e0, e1, e2⟩ | h
  swap
  · omega
  have hdd : (⟨((d.val : ℤ)).toNat, by omega⟩ : Fin 8) = d := by ext; simp
  have hc : ∀ k : Fin 3, (compressCoordsCheck (lattice n idx 0) (lattice n idx 1) (lattice n idx 2)
      (skip * centers d k 0) (skip * centers d k 1) (skip * centers d k 2) n) =
      if 0 ≤ lattice n idx 0 + skip * centers d k 0 ∧ lattice n idx 0 + skip * centers d k 0 < n then
        (particle n (fun i => lattice n idx i + skip * centers d k i), true) else (-1, false) := by
    intro k
    unfold compressCoordsCheck
    dsimp only
    by_cases hk : 0 ≤ lattice n idx 0 + skip * centers d k 0 ∧ lattice n idx 0 + skip * centers d k 0 < n
    · rw [if_neg (by omega), if_neg (by omega), if_neg (by omega), if_pos hk]
      rfl
    · rw [if_pos (by omega), if_neg hk]
  unfold initCentered
  rw [dif_pos (by omega), if_neg hn.ne']
  dsimp only
  rw [e0, e1, e2, hdd, hc 0, hc 1, hc 2]
  by_cases k0 : 0 ≤ lattice n idx 0 + skip * centers d 0 0 ∧ lattice n idx 0 + skip * centers d 0 0 < n
  · by_cases k1 : 0 ≤ lattice n idx 0 + skip * centers d 1 0 ∧ lattice n idx 0 + skip * centers d 1 0 < n
    · by_cases k2 : 0 ≤ lattice n idx 0 + skip * centers d 2 0 ∧ lattice n idx 0 + skip * centers d 2 0 < n
      · simp only [if_pos k0, if_pos k1, if_pos k2]
        refine ⟨_, _, rfl, ⟨fun _ k => ?_, fun _ => rfl⟩, fun _ => ⟨rfl, fun k => ?_⟩⟩
        · fin_cases k <;> assumption
        · fin_cases k <;> rfl
      · simp only [if_pos k0, if_pos k1, if_neg k2]
        exact ⟨_, _, rfl, ⟨fun h => absurd h (by simp), fun h => absurd (h 2) k2⟩, fun h => absurd h (by simp)⟩
    · simp only [if_pos k0, if_neg k1]
      exact ⟨_, _, rfl, ⟨fun h => absurd h (by simp), fun h => absurd (h 1) k1⟩, fun h => absurd h (by simp)⟩
  · simp only [if_neg k0]
    exact ⟨_, _, rfl, ⟨fun h => absurd h (by simp), fun h => absurd (h 0) k0⟩, fun h => absurd h (by simp)⟩

/-- For centres at least `skip` away from the faces of the second and third axis the answer is right: `ok`
exactly when all four vertices are particles of the grid. -/
theorem C36_interior_partial (old : Fin 4 → ℤ) (idx n skip : ℤ) (d : Fin 8) (hn : 0 < n) (h0 : 0 ≤ idx)
    (h1 : idx < n * n * n) (hs : 0 ≤ skip)
    (hy : skip ≤ lattice n idx 1 ∧ lattice n idx 1 + skip < n)
    (hz : skip ≤ lattice n idx 2 ∧ lattice n idx 2 + skip < n) :
    ∃ idxs ok, initCentered old idx n skip (d.val : ℤ) = some (idxs, ok) ∧
      (ok = true ↔ ∀ k, InLattice n (fun i => lattice n idx i + skip * centers d k i)) ∧
      (ok = true → ∀ k, 0 ≤ idxs k ∧ idxs k < n * n * n) := by
  obtain ⟨idxs, ok, e, h2, h3⟩ := C36_centered_partial old idx n skip d hn h0
  have hx : ∀ k, InLattice n (fun i => lattice n idx i + skip * centers d k i) ↔
      0 ≤ lattice n idx 0 + skip * centers d k 0 ∧ lattice n idx 0 + skip * centers d k 0 < n := by
    intro k
    constructor
    · intro h; exact h 0
    · intro h i
      have hc : ∀ (d : Fin 8) (k i : Fin 3), centers d k i = 0 ∨ centers d k i = 1 ∨ centers d k i = -1 := by
        decide +kernel
      fin_cases i
      · exact h
      · show 0 ≤ lattice n idx 1 + skip * centers d k 1 ∧ lattice n idx 1 + skip * centers d k 1 < n
        rcases hc d k 1 with e | e | e <;> rw [e] <;> constructor <;> omega
      · show 0 ≤ lattice n idx 2 + skip * centers d k 2 ∧ lattice n idx 2 + skip * centers d k 2 < n
        rcases hc d k 2 with e | e | e <;> rw [e] <;> constructor <;> omega
  refine ⟨idxs, ok, e, ?_, ?_⟩
  · rw [h2]; exact forall_congr' fun k => (hx k).symm
  · intro hok k
    obtain ⟨e3, ek⟩ := h3 hok
    have hx2 := fun k => (hx k).mpr (h2.mp hok k)
    refine Fin.lastCases ?_ (fun j => ?_) k
    · show 0 ≤ idxs 3 ∧ idxs 3 < n * n * n
      rw [e3]; exact ⟨h0, h1⟩
    · rw [ek j]; exact particle_range (hx2 j)

example : (1 : ℤ) ≤ lattice 4 21 1 ∧ lattice 4 21 1 + 1 < 4 ∧ (1 : ℤ) ≤ lattice 4 21 2 ∧ lattice 4 21 2 + 1 < 4 ∧
    initCentered (fun _ => 0) 21 4 1 7 = some (![5, 17, 20, 21], true) := by
  decide +kernel

end Verif.Geom
