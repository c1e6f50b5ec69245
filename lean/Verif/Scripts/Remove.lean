import Verif.Scripts.ProfileModel
import Verif.Halo.Bounds

/-!
# C113: the profile program blanks exactly the cells that subhalos touch
-/

set_option autoImplicit false

namespace Verif.Scripts

open Verif.Go Verif.Halo

/-! ## Rounding -/

theorem round_spec (x : ℚ) : (round x : ℚ) - 1 / 2 ≤ x ∧ x < (round x : ℚ) + 1 / 2 := by
  have h1 := Int.floor_le x
  have h2 := Int.lt_floor_add_one x
  unfold round
  split_ifs with h
  · rw [trunc_intCast]
    rw [abs_lt] at h
    constructor <;> linarith [h.1]
  · rw [trunc_intCast]
    have h3 : ¬ (x - ⌊x⌋ < 1 / 2) := by
      intro h4
      apply h
      rw [abs_lt]
      constructor <;> linarith
    have h5 : (⌈x⌉ : ℚ) = ⌊x⌋ + 1 := by
      have : ⌈x⌉ = ⌊x⌋ + 1 := by
        rw [Int.ceil_eq_iff]
        push_cast
        constructor <;> linarith
      rw [this]; push_cast; ring
    rw [h5]
    constructor <;> linarith

theorem round_intCast (n : ℤ) : round (n : ℚ) = n := by
  obtain ⟨h1, h2⟩ := round_spec (n : ℚ)
  have h3 : (round (n : ℚ) : ℚ) < n + 1 := by linarith
  have h4 : (n : ℚ) < round (n : ℚ) + 1 := by linarith
  have h5 : round (n : ℚ) < n + 1 := by exact_mod_cast h3
  have h6 : n < round (n : ℚ) + 1 := by exact_mod_cast h4
  omega

/-! ## Loops that blank cells -/

/-- `g'` is `g` with NaN at the indices in `P`. -/
def Blanks (g g' : List Fl) (P : ℤ → Prop) : Prop :=
  g'.length = g.length ∧ ∀ i : ℤ, 0 ≤ i → i < g.length → (P i → rd g' i = some .nan) ∧ (¬ P i → rd g' i = rd g i)

theorem Blanks.refl (g : List Fl) : Blanks g g (fun _ => False) := ⟨rfl, fun _ _ _ => ⟨False.elim, fun _ => rfl⟩⟩

theorem Blanks.congr {g g' : List Fl} {P Q : ℤ → Prop} (h : Blanks g g' P) (e : ∀ i, P i ↔ Q i) : Blanks g g' Q :=
  ⟨h.1, fun i h0 h1 => ⟨fun q => (h.2 i h0 h1).1 ((e i).2 q), fun q => (h.2 i h0 h1).2 fun p => q ((e i).1 p)⟩⟩

theorem Blanks.trans {g g' g'' : List Fl} {P Q : ℤ → Prop} (h : Blanks g g' P) (k : Blanks g' g'' Q) :
    Blanks g g'' (fun i => P i ∨ Q i) := by
  refine ⟨k.1.trans h.1, fun i h0 h1 => ?_⟩
  have h2 : i < g'.length := by rw [h.1]; exact h1
  constructor
  · intro hp
    by_cases q : Q i
    · exact (k.2 i h0 h2).1 q
    · rw [(k.2 i h0 h2).2 q]
      exact (h.2 i h0 h1).1 (hp.resolve_right q)
  · intro hp
    rw [(k.2 i h0 h2).2 fun q => hp (.inr q)]
    exact (h.2 i h0 h1).2 fun q => hp (.inl q)

theorem Blanks.wr {g : List Fl} {k : ℤ} (h0 : 0 ≤ k) (h1 : k < g.length) :
    ∃ g', Verif.Go.wr g k .nan = some g' ∧ Blanks g g' (fun i => i = k) := by
  obtain ⟨k, rfl⟩ := Int.eq_ofNat_of_zero_le h0
  have h1 : k < g.length := by exact_mod_cast h1
  refine ⟨g.set k .nan, ?_, by simp, ?_⟩
  · exact wr_natCast h1
  · intro i i0 i1
    obtain ⟨i, rfl⟩ := Int.eq_ofNat_of_zero_le i0
    have i1 : i < g.length := by exact_mod_cast i1
    constructor
    · intro e
      have e : i = k := by exact_mod_cast e
      subst e
      rw [rd_natCast]
      simp [i1]
    · intro e
      have e : k ≠ i := by
        intro e'
        exact e (by rw [e'])
      rw [rd_natCast, rd_natCast]
      simp [List.getElem?_set, e]

theorem blank_loop {N : ℕ} (lo hi : ℤ) (body : ℤ → List Fl → Option (List Fl)) (P : ℤ → ℤ → Prop)
    (hb : ∀ x g, lo ≤ x → x < hi → g.length = N → ∃ g', body x g = some g' ∧ Blanks g g' (P x))
    (g : List Fl) (hg : g.length = N) :
    ∃ g', forRange lo hi body g = some g' ∧ Blanks g g' (fun i => ∃ x, lo ≤ x ∧ x < hi ∧ P x i) := by
  by_cases hle : lo ≤ hi
  · obtain ⟨g', e, h⟩ := forRange_spec (fun j s => Blanks g s (fun i => ∃ x, lo ≤ x ∧ x < j ∧ P x i)) hle body g
      ((Blanks.refl g).congr fun i => ⟨False.elim, fun ⟨x, a, b, _⟩ => by omega⟩) (by
        intro j s h0 h1 hs
        obtain ⟨s', e, h⟩ := hb j s h0 h1 (hs.1.trans hg)
        refine ⟨s', e, (hs.trans h).congr fun i => ?_⟩
        constructor
        · rintro (⟨x, a, b, c⟩ | c)
          · exact ⟨x, a, by omega, c⟩
          · exact ⟨j, h0, by omega, c⟩
        · rintro ⟨x, a, b, c⟩
          by_cases ex : x = j
          · subst ex; exact .inr c
          · exact .inl ⟨x, a, by omega, c⟩)
    exact ⟨g', e, h⟩
  · refine ⟨g, forRange_empty (by omega) _ _, (Blanks.refl g).congr fun i => ⟨False.elim, fun ⟨x, a, b, _⟩ => by omega⟩⟩

/-- The index in the grid of the cell of the bounds `b` at the position `p` within the bounds. -/
def cellIdx (b : Bounds) (p : Fin 3 → ℤ) : ℤ := p 2 * b.span 0 * b.span 1 + p 1 * b.span 0 + p 0

theorem cellIdx_lt {b : Bounds} {p : Fin 3 → ℤ} (h : ∀ j, 0 ≤ p j ∧ p j < b.span j) :
    0 ≤ cellIdx b p ∧ cellIdx b p < b.span 0 * b.span 1 * b.span 2 := by
  have h0 := h 0
  have h1 := h 1
  have h2 := h 2
  unfold cellIdx
  have s0 : 0 < b.span 0 := by omega
  have s1 : 0 < b.span 1 := by omega
  constructor
  · have := mul_nonneg (mul_nonneg h2.1 s0.le) s1.le
    have := mul_nonneg h1.1 s0.le
    omega
  · have a1 : p 1 * b.span 0 ≤ (b.span 1 - 1) * b.span 0 := by nlinarith
    have a2 : p 2 * (b.span 0 * b.span 1) ≤ (b.span 2 - 1) * (b.span 0 * b.span 1) := by
      have : 0 < b.span 0 * b.span 1 := mul_pos s0 s1
      nlinarith
    nlinarith

theorem cellIdx_inj {b : Bounds} {p q : Fin 3 → ℤ} (hp : ∀ j, 0 ≤ p j ∧ p j < b.span j)
    (hq : ∀ j, 0 ≤ q j ∧ q j < b.span j) (h : cellIdx b p = cellIdx b q) : p = q := by
  unfold cellIdx at h
  have s0 : 0 < b.span 0 := by have := hp 0; omega
  have s1 : 0 < b.span 1 := by have := hp 1; omega
  have a (v : Fin 3 → ℤ) : v 2 * b.span 0 * b.span 1 + v 1 * b.span 0 + v 0 =
      v 0 + b.span 0 * (v 1 + b.span 1 * v 2) := by ring
  rw [a p, a q] at h
  have e0 : p 0 = q 0 := by
    have := congrArg (· % b.span 0) h
    simpa [Int.add_mul_emod_self_left, Int.emod_eq_of_lt (hp 0).1 (hp 0).2,
      Int.emod_eq_of_lt (hq 0).1 (hq 0).2] using this
  have h' : p 1 + b.span 1 * p 2 = q 1 + b.span 1 * q 2 := by
    have : b.span 0 * (p 1 + b.span 1 * p 2) = b.span 0 * (q 1 + b.span 1 * q 2) := by omega
    exact mul_left_cancel₀ s0.ne' this
  have e1 : p 1 = q 1 := by
    have := congrArg (· % b.span 1) h'
    simpa [Int.add_mul_emod_self_left, Int.emod_eq_of_lt (hp 1).1 (hp 1).2,
      Int.emod_eq_of_lt (hq 1).1 (hq 1).2] using this
  have e2 : p 2 = q 2 := by
    have : b.span 1 * p 2 = b.span 1 * q 2 := by omega
    exact mul_left_cancel₀ s1.ne' this
  funext j
  fin_cases j <;> assumption

/-- The value of the grid at a cell given by its position within the bounds. -/
def cellOf (b : Bounds) (g : List Fl) (p : Fin 3 → ℤ) : Option Fl := rd g (cellIdx b p)

/-! ## One subhalo -/

theorem removeSubhalo_spec {bh bsh : Bounds} {g : List Fl} {width : ℤ} (hw : 0 < width)
    (h0 : ∀ j, bh.span j ≤ width)
    (hlo : ∀ j, bh.origin j - width ≤ bsh.origin j)
    (hhi : ∀ j, bsh.origin j + bsh.span j ≤ bh.origin j + width)
    (hg : (g.length : ℤ) = bh.span 0 * bh.span 1 * bh.span 2) :
    ∃ g', removeSubhalo bh bsh g width = some g' ∧ g'.length = g.length ∧
      ∀ p : Fin 3 → ℤ, (∀ j, 0 ≤ p j ∧ p j < bh.span j) →
        ((∀ j, ∃ k : ℤ, bsh.origin j ≤ bh.origin j + p j + k * width ∧
            bh.origin j + p j + k * width < bsh.origin j + bsh.span j) → cellOf bh g' p = some .nan) ∧
        ((¬ ∀ j, ∃ k : ℤ, bsh.origin j ≤ bh.origin j + p j + k * width ∧
            bh.origin j + p j + k * width < bsh.origin j + bsh.span j) → cellOf bh g' p = cellOf bh g p) := by
  -- what `Inside` and `ConvertIndices` do for the cells of the loop
  have key : ∀ (j : Fin 3) (v : ℤ), bsh.origin j ≤ v → v < bsh.origin j + bsh.span j →
      (0 ≤ bh.convert v width j ∧ (bh.inside v width j = true ↔ bh.convert v width j < bh.span j) ∧
        ∃ k : ℤ, bh.origin j + bh.convert v width j = v + k * width) := by
    intro j v a b
    have l := hlo j
    have u := hhi j
    have s := h0 j
    refine ⟨by unfold Bounds.convert; split_ifs <;> omega, ?_, ?_⟩
    · unfold Bounds.inside Bounds.convert
      dsimp only
      rw [decide_eq_true_iff]
      split_ifs <;> omega
    · unfold Bounds.convert
      split_ifs
      · exact ⟨1, by ring⟩
      · exact ⟨0, by ring⟩
  have run : ∃ g', removeSubhalo bh bsh g width = some g' ∧ Blanks g g' (fun i =>
      ∃ z, bsh.origin 2 ≤ z ∧ z < bsh.origin 2 + bsh.span 2 ∧ bh.inside z width 2 = true ∧
      ∃ y, bsh.origin 1 ≤ y ∧ y < bsh.origin 1 + bsh.span 1 ∧ bh.inside y width 1 = true ∧
      ∃ x, bsh.origin 0 ≤ x ∧ x < bsh.origin 0 + bsh.span 0 ∧ bh.inside x width 0 = true ∧
        i = cellIdx bh ![bh.convert x width 0, bh.convert y width 1, bh.convert z width 2]) := by
    unfold removeSubhalo
    refine blank_loop (N := g.length) _ _ _ (fun z i => bh.inside z width 2 = true ∧
      ∃ y, bsh.origin 1 ≤ y ∧ y < bsh.origin 1 + bsh.span 1 ∧ bh.inside y width 1 = true ∧
      ∃ x, bsh.origin 0 ≤ x ∧ x < bsh.origin 0 + bsh.span 0 ∧ bh.inside x width 0 = true ∧
        i = cellIdx bh ![bh.convert x width 0, bh.convert y width 1, bh.convert z width 2]) ?_ g rfl
    intro z g1 z0 z1 l1
    split_ifs with iz
    · exact ⟨g1, rfl, (Blanks.refl g1).congr fun i => by simp [iz]⟩
    have iz : bh.inside z width 2 = true := by simpa using iz
    obtain ⟨g2, e2, b2⟩ := blank_loop (N := g.length) (bsh.origin 1) (bsh.origin 1 + bsh.span 1) (fun y grid =>
      if bh.inside y width 1 = false then some grid else
      forRange (bsh.origin 0) (bsh.origin 0 + bsh.span 0) (fun x grid =>
        if bh.inside x width 0 = false then some grid else
        wr grid (bh.convert z width 2 * bh.span 0 * bh.span 1 + bh.convert y width 1 * bh.span 0 +
          bh.convert x width 0) .nan) grid) (fun y i => bh.inside y width 1 = true ∧
      ∃ x, bsh.origin 0 ≤ x ∧ x < bsh.origin 0 + bsh.span 0 ∧ bh.inside x width 0 = true ∧
        i = cellIdx bh ![bh.convert x width 0, bh.convert y width 1, bh.convert z width 2]) (by
      intro y g3 y0 y1 l3
      split_ifs with iy
      · exact ⟨g3, rfl, (Blanks.refl g3).congr fun i => by simp [iy]⟩
      have iy : bh.inside y width 1 = true := by simpa using iy
      obtain ⟨g4, e4, b4⟩ := blank_loop (N := g.length) (bsh.origin 0) (bsh.origin 0 + bsh.span 0) (fun x grid =>
        if bh.inside x width 0 = false then some grid else
        wr grid (bh.convert z width 2 * bh.span 0 * bh.span 1 + bh.convert y width 1 * bh.span 0 +
          bh.convert x width 0) .nan) (fun x i => bh.inside x width 0 = true ∧
            i = cellIdx bh ![bh.convert x width 0, bh.convert y width 1, bh.convert z width 2]) (by
        intro x g5 x0 x1 l5
        split_ifs with ix
        · exact ⟨g5, rfl, (Blanks.refl g5).congr fun i => by simp [ix]⟩
        have ix : bh.inside x width 0 = true := by simpa using ix
        have kz := key 2 z z0 z1
        have ky := key 1 y y0 y1
        have kx := key 0 x x0 x1
        have hlt := cellIdx_lt (b := bh) (p := ![bh.convert x width 0, bh.convert y width 1, bh.convert z width 2]) (by
          intro j
          fin_cases j
          · exact ⟨kx.1, kx.2.1.1 ix⟩
          · exact ⟨ky.1, ky.2.1.1 iy⟩
          · exact ⟨kz.1, kz.2.1.1 iz⟩)
        obtain ⟨g6, e6, b6⟩ := Blanks.wr (g := g5) hlt.1 (by rw [l5, hg]; exact hlt.2)
        exact ⟨g6, e6, b6.congr fun i => by simp [ix]⟩) g3 l3
      exact ⟨g4, e4, b4.congr fun i => by simp only [iy, true_and]⟩) g1 l1
    exact ⟨g2, e2, b2.congr fun i => by simp only [iz, true_and]⟩
  obtain ⟨g', e, hl, hb⟩ := run
  refine ⟨g', e, hl, fun p hp => ?_⟩
  have hlt := cellIdx_lt hp
  have hb := hb (cellIdx bh p) hlt.1 (by rw [hg]; exact hlt.2)
  have hiff : (∃ z, bsh.origin 2 ≤ z ∧ z < bsh.origin 2 + bsh.span 2 ∧ bh.inside z width 2 = true ∧
      ∃ y, bsh.origin 1 ≤ y ∧ y < bsh.origin 1 + bsh.span 1 ∧ bh.inside y width 1 = true ∧
      ∃ x, bsh.origin 0 ≤ x ∧ x < bsh.origin 0 + bsh.span 0 ∧ bh.inside x width 0 = true ∧
        cellIdx bh p = cellIdx bh ![bh.convert x width 0, bh.convert y width 1, bh.convert z width 2]) ↔
      ∀ j, ∃ k : ℤ, bsh.origin j ≤ bh.origin j + p j + k * width ∧
            bh.origin j + p j + k * width < bsh.origin j + bsh.span j := by
    have conv : ∀ (j : Fin 3) (k : ℤ), bsh.origin j ≤ bh.origin j + p j + k * width →
        bh.origin j + p j + k * width < bsh.origin j + bsh.span j →
        bh.convert (bh.origin j + p j + k * width) width j = p j ∧
          bh.inside (bh.origin j + p j + k * width) width j = true := by
      intro j k a b
      obtain ⟨c0, c1, k', c2⟩ := key j _ a b
      have l := hlo j
      have u := hhi j
      have s := h0 j
      have hpj := hp j
      have hc : bh.convert (bh.origin j + p j + k * width) width j < width := by
        unfold Bounds.convert
        split_ifs <;> omega
      have hk : (k + k') = 0 := by
        have e1 : bh.convert (bh.origin j + p j + k * width) width j = p j + (k + k') * width := by linarith
        rw [e1] at c0 hc
        have : -1 < k + k' := by
          by_contra h
          have : (k + k') * width ≤ (-1) * width := mul_le_mul_of_nonneg_right (by omega) hw.le
          omega
        have : k + k' < 1 := by
          by_contra h
          have : 1 * width ≤ (k + k') * width := mul_le_mul_of_nonneg_right (by omega) hw.le
          omega
        omega
      have e1 : bh.convert (bh.origin j + p j + k * width) width j = p j + (k + k') * width := by linarith
      rw [hk] at e1
      have e1 : bh.convert (bh.origin j + p j + k * width) width j = p j := by omega
      exact ⟨e1, c1.2 (by rw [e1]; exact hpj.2)⟩
    constructor
    · rintro ⟨z, z0, z1, iz, y, y0, y1, iy, x, x0, x1, ix, he⟩
      have kz := key 2 z z0 z1
      have ky := key 1 y y0 y1
      have kx := key 0 x x0 x1
      have hpe := cellIdx_inj hp (by
          intro j
          fin_cases j
          · exact ⟨kx.1, kx.2.1.1 ix⟩
          · exact ⟨ky.1, ky.2.1.1 iy⟩
          · exact ⟨kz.1, kz.2.1.1 iz⟩) he
      have fin : ∀ (j : Fin 3) (v : ℤ), bsh.origin j ≤ v → v < bsh.origin j + bsh.span j → p j = bh.convert v width j →
          (∃ k : ℤ, bh.origin j + bh.convert v width j = v + k * width) →
          ∃ k : ℤ, bsh.origin j ≤ bh.origin j + p j + k * width ∧
            bh.origin j + p j + k * width < bsh.origin j + bsh.span j := by
        rintro j v a b c ⟨k, d⟩
        refine ⟨-k, ?_, ?_⟩ <;> rw [c, d] <;> ring_nf <;> omega
      intro j
      fin_cases j
      · exact fin 0 x x0 x1 (by rw [hpe]; rfl) kx.2.2
      · exact fin 1 y y0 y1 (by rw [hpe]; rfl) ky.2.2
      · exact fin 2 z z0 z1 (by rw [hpe]; rfl) kz.2.2
    · intro h
      obtain ⟨k0, a0, b0⟩ := h 0
      obtain ⟨k1, a1, b1⟩ := h 1
      obtain ⟨k2, a2, b2⟩ := h 2
      have c0 := conv 0 k0 a0 b0
      have c1 := conv 1 k1 a1 b1
      have c2 := conv 2 k2 a2 b2
      refine ⟨_, a2, b2, c2.2, _, a1, b1, c1.2, _, a0, b0, c0.2, ?_⟩
      rw [c0.1, c1.1, c2.1]
      rfl
  exact ⟨fun h => hb.1 (hiff.2 h), fun h => hb.2 fun h' => h (hiff.1 h')⟩

/-! ## All subhalos -/

/-- Some point of the cube around the sphere is in the cell of the grid that the position `p` within the bounds stands for. -/
def Touches (width : ℚ) (cells : ℤ) (bh : Bounds) (sh : Sphere) (p : Fin 3 → ℤ) : Prop :=
  ∀ j, ∃ x, sh.pos j - sh.r ≤ x ∧ x ≤ sh.pos j + sh.r ∧ InCell width cells x (bh.origin j + p j)

/-- What the program can handle: a subhalo in the box that does not reach more than one period past the first cell of the
image. -/
structure Handled (width : ℚ) (cells : ℤ) (bh : Bounds) (sh : Sphere) : Prop where
  pos0 : ∀ j, 0 ≤ sh.pos j
  pos1 : ∀ j, sh.pos j < width
  r0 : 0 ≤ sh.r
  r1 : 2 * sh.r < width
  reach : ∀ j, (sphereBounds sh.pos sh.r (width / cells) width).origin j +
    (sphereBounds sh.pos sh.r (width / cells) width).span j ≤ bh.origin j + cells

/-- C113: for a grid of an image that starts inside the box and is not larger than the box, the program does not panic, and it
changes exactly those cells to NaN that the cube around one of the subhalos touches, periodic images included. Missing:
subhalos that reach more than one period past the first cell of the image, for which the program blanks other cells. -/
theorem C113_removed_partial (bh : Bounds) (width : ℚ) (cells : ℤ) (shs : List Sphere) (grid : List Fl) (hW : 0 < width)
    (hc : 0 < cells) (ho : ∀ j, bh.origin j < cells) (hs : ∀ j, bh.span j ≤ cells)
    (hg : (grid.length : ℤ) = bh.span 0 * bh.span 1 * bh.span 2) (hsh : ∀ sh ∈ shs, Handled width cells bh sh) :
    ∃ g', removeAll bh (width / cells) width shs grid = some g' ∧ g'.length = grid.length ∧
      ∀ p : Fin 3 → ℤ, (∀ j, 0 ≤ p j ∧ p j < bh.span j) →
        ((∃ sh ∈ shs, Touches width cells bh sh p) → cellOf bh g' p = some .nan) ∧
        ((¬ ∃ sh ∈ shs, Touches width cells bh sh p) → cellOf bh g' p = cellOf bh grid p) := by
  have hcq : (cells : ℚ) ≠ 0 := by exact_mod_cast hc.ne'
  have hr : round (width / (width / cells)) = cells := by
    rw [div_div_cancel₀ hW.ne', round_intCast]
  unfold removeAll
  rw [hr]
  induction shs generalizing grid with
  | nil => exact ⟨grid, rfl, rfl, fun p _ => ⟨by simp, fun _ => rfl⟩⟩
  | cons sh shs ih =>
    have hh := hsh sh (by simp)
    obtain ⟨g1, e1, l1, h1⟩ := removeSubhalo_spec (bh := bh) (bsh := sphereBounds sh.pos sh.r (width / cells) width)
      (g := grid) hc hs (by
        intro j
        have := (C75_bounds_partial sh.pos sh.r width cells hW hc hh.r0 hh.r1 j (hh.pos0 j) (hh.pos1 j)).2.1
        have := ho j
        omega) hh.reach hg
    obtain ⟨g', e, l, h⟩ := ih g1 (by rw [l1]; exact hg) fun s hs' => hsh s (by simp [hs'])
    refine ⟨g', ?_, l.trans l1, fun p hp => ?_⟩
    · rw [List.foldlM_cons]
      exact bind_of e1 e
    have ht : Touches width cells bh sh p ↔ ∀ j, ∃ k : ℤ,
        (sphereBounds sh.pos sh.r (width / cells) width).origin j ≤ bh.origin j + p j + k * cells ∧
            bh.origin j + p j + k * cells < (sphereBounds sh.pos sh.r (width / cells) width).origin j +
            (sphereBounds sh.pos sh.r (width / cells) width).span j := by
      unfold Touches
      refine forall_congr' fun j => ?_
      exact ((C75_bounds_partial sh.pos sh.r width cells hW hc hh.r0 hh.r1 j (hh.pos0 j) (hh.pos1 j)).1 _).symm
    obtain ⟨a1, a2⟩ := h1 p hp
    obtain ⟨b1, b2⟩ := h p hp
    rw [← ht] at a1 a2
    constructor
    · rintro ⟨s, hs', t⟩
      by_cases q : ∃ sh ∈ shs, Touches width cells bh sh p
      · exact b1 q
      · rw [b2 q]
        rcases List.mem_cons.1 hs' with rfl | hs'
        · exact a1 t
        · exact absurd ⟨s, hs', t⟩ q
    · intro hn
      rw [b2 fun ⟨s, hs', t⟩ => hn ⟨s, by simp [hs'], t⟩]
      exact a2 fun t => hn ⟨sh, by simp, t⟩

/-- An image of 4 x 4 x 4 cells in a box of 10 x 10 x 10 cells that starts at cell 8 and wraps around, and two subhalos. -/
def exBounds : Bounds := ⟨fun _ => 8, fun _ => 4⟩

def exSubs : List Sphere := [⟨![19 / 2, 19 / 2, 19 / 2], 1⟩, ⟨![3 / 2, 17 / 2, 1 / 2], 1 / 4⟩]

example : (∀ j, exBounds.origin j < 10) ∧ (∀ j, exBounds.span j ≤ 10) ∧ (∀ sh ∈ exSubs, Handled 10 10 exBounds sh) ∧
    (removeAll exBounds 1 10 exSubs (List.replicate 64 (.num 3))).map (fun g => (g.count .nan, g.length)) =
      some (28, 64) := by
  refine ⟨by decide, by decide, ?_, by decide +kernel⟩
  intro sh h
  simp only [exSubs, List.mem_cons, List.not_mem_nil, or_false] at h
  rcases h with rfl | rfl
  · exact ⟨by decide +kernel, by decide +kernel, by decide +kernel, by decide +kernel, by decide +kernel⟩
  · exact ⟨by decide +kernel, by decide +kernel, by decide +kernel, by decide +kernel, by decide +kernel⟩

/-- C113 fails when an image starts near the lower edge of the box and a subhalo lies across the upper edge: the cube around a
subhalo at `(9.5, 1, 1)` with radius 1 touches cell `(0, 1, 1)` of the image of the cells 0 to 3, which keeps its value, and
does not touch cell `(2, 2, 0)`, which the program blanks. -/
theorem C113_removed_counterexample :
    let bh : Bounds := ⟨fun _ => 0, fun _ => 4⟩
    let sh : Sphere := ⟨![19 / 2, 1, 1], 1⟩
    Touches 10 10 bh sh ![0, 1, 1] ∧ ¬ Touches 10 10 bh sh ![2, 2, 0] ∧
    ∃ g', removeAll bh 1 10 [sh] (List.replicate 64 (.num 3)) = some g' ∧
      cellOf bh g' ![0, 1, 1] = some (.num 3) ∧ cellOf bh g' ![2, 2, 0] = some .nan := by
  intro bh sh
  refine ⟨?_, ?_, ?_⟩
  · intro j
    fin_cases j
    · exact ⟨10, by norm_num [sh], by norm_num [sh], -1, by norm_num [bh], by norm_num [bh]⟩
    · exact ⟨1, by norm_num [sh], by norm_num [sh], 0, by norm_num [bh], by norm_num [bh]⟩
    · exact ⟨1, by norm_num [sh], by norm_num [sh], 0, by norm_num [bh], by norm_num [bh]⟩
  · intro h
    obtain ⟨x, a, b, k, c, d⟩ := h 0
    norm_num [sh] at a b
    norm_num [bh] at c d
    have k1 : (k : ℚ) < 0 := by linarith
    have k1 : k < 0 := by exact_mod_cast k1
    have k2 : (-1 : ℚ) < k := by linarith
    have k2 : -1 < k := by exact_mod_cast k2
    omega
  · have h : ((removeAll bh 1 10 [sh] (List.replicate 64 (.num 3))).bind fun g' => cellOf bh g' ![0, 1, 1]) =
        some (.num 3) ∧ ((removeAll bh 1 10 [sh] (List.replicate 64 (.num 3))).bind fun g' =>
          cellOf bh g' ![2, 2, 0]) = some .nan := by
      decide +kernel
    generalize removeAll bh 1 10 [sh] (List.replicate 64 (.num 3)) = o at h
    cases o with
    | none => simp at h
    | some g => exact ⟨g, rfl, h.1, h.2⟩

/-- C113: the same mistake makes the program panic when the index is past the end of the grid. -/
theorem C113_panic_counterexample :
    removeAll ⟨fun _ => 0, fun _ => 4⟩ 1 10 [⟨![1, 1, 19 / 2], 1⟩] (List.replicate 64 (.num 3)) = none := by
  decide +kernel

/-- C113: the number of cells of the box that the program works with is the integer nearest to the quotient of the widths, the
larger one for a half. -/
theorem C113_round (x : ℚ) (n : ℤ) : round x = n ↔ (n : ℚ) - 1 / 2 ≤ x ∧ x < n + 1 / 2 := by
  obtain ⟨h1, h2⟩ := round_spec x
  constructor
  · rintro rfl; exact ⟨h1, h2⟩
  · rintro ⟨a, b⟩
    have h3 : (round x : ℚ) < n + 1 := by linarith
    have h4 : (n : ℚ) < round x + 1 := by linarith
    have h5 : round x < n + 1 := by exact_mod_cast h3
    have h6 : n < round x + 1 := by exact_mod_cast h4
    omega

example : round (5 / 2) = 3 ∧ round (-5 / 2) = -2 ∧ round (1999 / 1000) = 2 := by
  refine ⟨?_, ?_, ?_⟩ <;> rw [C113_round] <;> norm_num

end Verif.Scripts
