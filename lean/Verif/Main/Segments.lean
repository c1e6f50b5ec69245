import Verif.Main.BBox
import Mathlib.Algebra.Order.Ring.Nat
import Mathlib.Data.List.Nodup
import Mathlib.Tactic.Ring

/-!
C79, C80, C82, C105: the sheet segments cut out of the particle grid by `copyToSegment` and `writeGrids`.
-/

set_option autoImplicit false

namespace Verif.Main
open Verif.Go Verif.Geom

/-! Specification. -/

/-- Index of the particle at `(X, Y, Z)` of the periodic grid with `N` particles on a side. -/
def particleAt (N X Y Z : ℕ) : ℕ := X % N + Y % N * N + Z % N * (N * N)

/-- Index of slot `(i, j, k)` of a segment with `g` particles on a side. -/
def slot (g i j k : ℕ) : ℕ := i + j * g + k * (g * g)

/-- `seg` is the block of `g` particles on a side of the grid `xs` whose low corner is `(X, Y, Z)`. -/
def IsBlock (N g X Y Z : ℕ) (xs seg : List Vec) : Prop :=
  seg.length = g * g * g ∧ ∀ i j k, i < g → j < g → k < g →
    ∃ x, xs[particleAt N (X + i) (Y + j) (Z + k)]? = some x ∧ seg[slot g i j k]? = some x

/-- The low corner of segment `m` along the three axes: segments are numbered x fastest. -/
def corner (c sw m : ℕ) : ℕ × ℕ × ℕ := (sw * (m % c), sw * (m / c % c), sw * (m / (c * c)))

/-! Proof. -/

theorem particleAt_lt {N : ℕ} (hN : 0 < N) (X Y Z : ℕ) : particleAt N X Y Z < N * N * N := by
  have hx := Nat.mod_lt X hN
  have hy := Nat.mod_lt Y hN
  have hz := Nat.mod_lt Z hN
  unfold particleAt
  have h1 : (Y % N + 1) * N ≤ N * N := Nat.mul_le_mul_right _ hy
  have h2 : (Z % N + 1) * (N * N) ≤ N * (N * N) := Nat.mul_le_mul_right _ hz
  rw [add_mul, one_mul] at h1 h2
  rw [mul_assoc]
  omega

/-- The grid index of slot number `n`. -/
def large (N g : ℕ) (o : ℕ × ℕ × ℕ) (n : ℕ) : ℕ :=
  particleAt N (o.1 + n % g) (o.2.1 + n / g % g) (o.2.2 + n / (g * g))

theorem large_slot {g i j k : ℕ} (N : ℕ) (o : ℕ × ℕ × ℕ) (hi : i < g) (hj : j < g) :
    large N g o (slot g i j k) = particleAt N (o.1 + i) (o.2.1 + j) (o.2.2 + k) := by
  have e : slot g i j k = i + g * (j + g * k) := by unfold slot; ring
  have hg : 0 < g := by omega
  have e1 : slot g i j k % g = i := by rw [e, Nat.add_mul_mod_self_left, Nat.mod_eq_of_lt hi]
  have e2 : slot g i j k / g = j + g * k := by
    rw [e, Nat.add_mul_div_left _ _ hg, Nat.div_eq_of_lt hi, zero_add]
  have e3 : slot g i j k / g % g = j := by rw [e2, Nat.add_mul_mod_self_left, Nat.mod_eq_of_lt hj]
  have e4 : slot g i j k / (g * g) = k := by
    rw [← Nat.div_div_eq_div_mul, e2, Nat.add_mul_div_left _ _ hg, Nat.div_eq_of_lt hj, zero_add]
  unfold large
  rw [e1, e3, e4]

theorem slot_lt {g i j k : ℕ} (hi : i < g) (hj : j < g) (hk : k < g) : slot g i j k < g * g * g := by
  unfold slot
  have h1 : (j + 1) * g ≤ g * g := Nat.mul_le_mul_right _ hj
  have h2 : (k + 1) * (g * g) ≤ g * (g * g) := Nat.mul_le_mul_right _ hk
  rw [add_mul, one_mul] at h1 h2
  rw [mul_assoc]
  omega

/-- The variables of `copyToSegment` after `n` slots. -/
structure Copied (xs vs : List Vec) (L : ℕ → ℕ) (total : ℕ) (b0 : BBox) (v0 : Vec) (n : ℕ) (s : Copy) : Prop where
  idx : s.smallIdx = n
  xlen : s.xsSeg.length = total
  vlen : s.vsSeg.length = total
  x : ∀ m < n, s.xsSeg[m]? = some (xs.getD (L m) 0)
  v : ∀ m < n, s.vsSeg[m]? = some (vs.getD (L m) 0)
  box : s.box = ((List.range n).map fun m => xs.getD (L m) 0).foldl BBox.add b0
  vle : ∀ d, s.vMin d ≤ s.vMax d
  vmin0 : ∀ d, s.vMin d ≤ v0 d ∧ v0 d ≤ s.vMax d
  vin : ∀ m < n, ∀ d, s.vMin d ≤ vs.getD (L m) 0 d ∧ vs.getD (L m) 0 d ≤ s.vMax d
  vtight : ∀ d, (s.vMin d = v0 d ∨ ∃ m < n, s.vMin d = vs.getD (L m) 0 d) ∧
    (s.vMax d = v0 d ∨ ∃ m < n, s.vMax d = vs.getD (L m) 0 d)

theorem vBound_spec {a b v : ℚ} (h : a ≤ b) :
    (vBound a b v).1 ≤ a ∧ b ≤ (vBound a b v).2 ∧ (vBound a b v).1 ≤ v ∧ v ≤ (vBound a b v).2 ∧
      ((vBound a b v).1 = a ∨ (vBound a b v).1 = v) ∧ ((vBound a b v).2 = b ∨ (vBound a b v).2 = v) := by
  unfold vBound
  split_ifs with h1 h2
  · exact ⟨h1.le, le_refl _, le_refl _, (h1.le.trans h), Or.inr rfl, Or.inl rfl⟩
  · exact ⟨le_refl _, le_of_lt h2, not_lt.mp h1, le_refl _, Or.inl rfl, Or.inr rfl⟩
  · exact ⟨le_refl _, le_refl _, not_lt.mp h1, not_lt.mp h2, Or.inl rfl, Or.inl rfl⟩

theorem copyStep_ok {xs vs : List Vec} {L : ℕ → ℕ} {total : ℕ} {b0 : BBox} {v0 : Vec} {n : ℕ} {s : Copy}
    (h : Copied xs vs L total b0 v0 n s) (hn : n < total) (hx : L n < xs.length) (hv : L n < vs.length) :
    ∃ s', copyStep xs vs (L n : ℕ) s = some s' ∧ Copied xs vs L total b0 v0 (n + 1) s' := by
  have ex : xs[L n] = xs.getD (L n) 0 := by simp [hx]
  have ev : vs[L n] = vs.getD (L n) 0 := by simp [hv]
  refine ⟨⟨s.smallIdx + 1, s.box.add (xs.getD (L n) 0),
    fun d => (vBound (s.vMin d) (s.vMax d) (vs.getD (L n) 0 d)).1,
    fun d => (vBound (s.vMin d) (s.vMax d) (vs.getD (L n) 0 d)).2,
    s.xsSeg.set n (xs.getD (L n) 0), s.vsSeg.set n (vs.getD (L n) 0)⟩, ?_, ?_⟩
  · unfold copyStep
    refine bind_of ((rd_of_lt hx).trans (by rw [ex])) ?_
    refine bind_of (by rw [h.idx]; exact wr_natCast (by rw [h.xlen]; exact hn)) ?_
    refine bind_of ((rd_of_lt hv).trans (by rw [ev])) ?_
    refine bind_of (by rw [h.idx]; exact wr_natCast (by rw [h.vlen]; exact hn)) ?_
    rfl
  · have hset : ∀ (l : List Vec) (f : ℕ → Vec), l.length = total → (∀ m < n, l[m]? = some (f m)) →
        ∀ m < n + 1, (l.set n (f n))[m]? = some (f m) := by
      intro l f hl hf m hm
      by_cases e : m = n
      · subst e
        rw [List.getElem?_set_self (by omega)]
      · rw [List.getElem?_set_ne (by omega), hf m (by omega)]
    have vb := fun d => vBound_spec (v := vs.getD (L n) 0 d) (h.vle d)
    refine ⟨?_, by simp [h.xlen], by simp [h.vlen], hset _ (fun m => xs.getD (L m) 0) h.xlen h.x,
      hset _ (fun m => vs.getD (L m) 0) h.vlen h.v, ?_, ?_, ?_, ?_, ?_⟩
    · simp only [h.idx]; push_cast; rfl
    · simp only [h.box]
      rw [List.range_succ, List.map_append, List.foldl_append]
      rfl
    · intro d
      exact (vb d).1.trans ((h.vle d).trans (vb d).2.1)
    · intro d
      exact ⟨(vb d).1.trans (h.vmin0 d).1, (h.vmin0 d).2.trans (vb d).2.1⟩
    · intro m hm d
      by_cases e : m = n
      · subst e
        exact ⟨(vb d).2.2.1, (vb d).2.2.2.1⟩
      · obtain ⟨h1, h2⟩ := h.vin m (by omega) d
        exact ⟨(vb d).1.trans h1, h2.trans (vb d).2.1⟩
    · intro d
      obtain ⟨h1, h2⟩ := h.vtight d
      constructor
      · rcases (vb d).2.2.2.2.1 with e | e
        · rcases h1 with h1 | ⟨m, hm, h1⟩
          · exact Or.inl (e.trans h1)
          · exact Or.inr ⟨m, by omega, e.trans h1⟩
        · exact Or.inr ⟨n, by omega, e⟩
      · rcases (vb d).2.2.2.2.2 with e | e
        · rcases h2 with h2 | ⟨m, hm, h2⟩
          · exact Or.inl (e.trans h2)
          · exact Or.inr ⟨m, by omega, e.trans h2⟩
        · exact Or.inr ⟨n, by omega, e⟩

theorem wrapIdx_eq {N a : ℕ} (hN : 0 < N) (h : a ≤ N) : wrapIdx N a = ((a % N : ℕ) : ℤ) := by
  unfold wrapIdx
  by_cases e : a = N
  · subst e; simp
  · rw [if_neg (by omega), Nat.mod_eq_of_lt (by omega)]

/-- What `copyToSegment` needs of its header. -/
structure HeaderOk (shd : Sheet) (N c sw m : ℕ) : Prop where
  cells : shd.cells = c
  countWidth : shd.countWidth = N
  segmentWidth : shd.segmentWidth = sw
  gridWidth : shd.gridWidth = sw + 1
  idx : shd.idx = m
  pos : 0 < N
  cpos : 0 < c
  fits : sw * c ≤ N
  inside : m < c * c * c

theorem corner_fits {N c sw m : ℕ} (hc : 0 < c) (hf : sw * c ≤ N) (hm : m < c * c * c) :
    (corner c sw m).1 + sw ≤ N ∧ (corner c sw m).2.1 + sw ≤ N ∧ (corner c sw m).2.2 + sw ≤ N := by
  have key : ∀ a, a < c → sw * a + sw ≤ N := by
    intro a ha
    have : sw * (a + 1) ≤ sw * c := Nat.mul_le_mul_left _ ha
    rw [mul_add, mul_one] at this
    omega
  refine ⟨key _ (Nat.mod_lt _ hc), key _ (Nat.mod_lt _ hc), key _ ?_⟩
  rw [Nat.div_lt_iff_lt_mul (Nat.mul_pos hc hc)]
  rw [mul_assoc] at hm
  exact hm

theorem copyToSegment_ok {shd : Sheet} {N c sw m : ℕ} (h : HeaderOk shd N c sw m) {xs vs xsSeg vsSeg : List Vec}
    (hx : xs.length = N * N * N) (hv : vs.length = N * N * N)
    (hxs : xsSeg.length = (sw + 1) * (sw + 1) * (sw + 1)) (hvs : vsSeg.length = (sw + 1) * (sw + 1) * (sw + 1)) :
    ∃ s, copyToSegment shd xs vs xsSeg vsSeg = some ({ shd with
        origin := (s.box.center.add s.box.toMin).mod shd.totalWidth
        width := s.box.toMax.scale 2
        velocityOrigin := s.vMin
        velocityWidth := fun d => s.vMax d - s.vMin d }, s.xsSeg, s.vsSeg) ∧
      Copied xs vs (large N (sw + 1) (corner c sw m)) ((sw + 1) * (sw + 1) * (sw + 1))
        (BBox.init (xs.getD (large N (sw + 1) (corner c sw m) 0) 0) shd.totalWidth) (vs.getD 0 0)
        ((sw + 1) * (sw + 1) * (sw + 1)) s := by
  obtain ⟨f1, f2, f3⟩ := corner_fits h.cpos h.fits h.inside
  have hN3 : 0 < N * N * N := Nat.mul_pos (Nat.mul_pos h.pos h.pos) h.pos
  set g := sw + 1 with hg
  set o := corner c sw m with ho
  have hox : o.1 = sw * (m % c) := rfl
  have hoy : o.2.1 = sw * (m / c % c) := rfl
  have hoz : o.2.2 = sw * (m / (c * c)) := rfl
  have ez0 : shd.segmentWidth * shd.idx.tdiv (shd.cells * shd.cells) = (o.2.2 : ℤ) := by
    rw [h.segmentWidth, h.idx, h.cells, hoz]
    push_cast
    rw [← Int.natCast_mul, ← Int.ofNat_tdiv]
    push_cast
    rfl
  have ey0 : shd.segmentWidth * (shd.idx.tdiv shd.cells).tmod shd.cells = (o.2.1 : ℤ) := by
    rw [h.segmentWidth, h.idx, h.cells, hoy, ← Int.ofNat_tdiv, ← Int.ofNat_tmod]
    push_cast
    rfl
  have ex0 : shd.segmentWidth * shd.idx.tmod shd.cells = (o.1 : ℤ) := by
    rw [h.segmentWidth, h.idx, h.cells, hox, ← Int.ofNat_tmod]
    push_cast
    rfl
  -- the first particle
  have lt1 : ∀ a b, a = sw * b → a + sw ≤ N → a < N := by
    intro a b hab hle
    have := h.pos
    rcases Nat.eq_zero_or_pos sw with e | e
    · rw [e, zero_mul] at hab; omega
    · omega
  have l1 := lt1 o.1 _ hox f1
  have l2 := lt1 o.2.1 _ hoy f2
  have l3 := lt1 o.2.2 _ hoz f3
  have hL0 : (o.1 : ℤ) + N * o.2.1 + N * N * o.2.2 = (large N g o 0 : ℕ) := by
    unfold large particleAt
    rw [Nat.zero_mod, Nat.zero_div, Nat.zero_mod, Nat.zero_div, add_zero, add_zero, add_zero, Nat.mod_eq_of_lt l1,
      Nat.mod_eq_of_lt l2, Nat.mod_eq_of_lt l3]
    push_cast
    ring
  have hlarge : ∀ n, large N g o n < N * N * N := fun n => particleAt_lt h.pos _ _ _
  have step : ∀ i j k (_ : i < g) (_ : j < g) (_ : k < g) (s : Copy),
      Copied xs vs (large N g o) (g * g * g) (BBox.init (xs.getD (large N g o 0) 0) shd.totalWidth) (vs.getD 0 0)
        (slot g i j k) s →
      ∃ s', copyStep xs vs (wrapIdx N ((o.1 + i : ℕ) : ℤ) + wrapIdx N ((o.2.1 + j : ℕ) : ℤ) * N +
          wrapIdx N ((o.2.2 + k : ℕ) : ℤ) * (N * N)) s = some s' ∧
        Copied xs vs (large N g o) (g * g * g) (BBox.init (xs.getD (large N g o 0) 0) shd.totalWidth) (vs.getD 0 0)
          (slot g i j k + 1) s' := by
    intro i j k hi hj hk s hs
    have := copyStep_ok hs (slot_lt hi hj hk) (by rw [hx]; exact hlarge _) (by rw [hv]; exact hlarge _)
    rw [wrapIdx_eq h.pos (by omega), wrapIdx_eq h.pos (by omega), wrapIdx_eq h.pos (by omega)]
    rw [large_slot N o hi hj] at this
    convert this using 4
    unfold particleAt
    push_cast
    ring_nf
  unfold copyToSegment
  rw [if_neg (by rw [h.cells]; have := h.cpos; omega)]
  simp only [ex0, ey0, ez0, h.countWidth, h.gridWidth]
  have first : Copied xs vs (large N g o) (g * g * g) (BBox.init (xs.getD (large N g o 0) 0) shd.totalWidth)
      (vs.getD 0 0) 0 ⟨0, BBox.init (xs.getD (large N g o 0) 0) shd.totalWidth, vs.getD 0 0, vs.getD 0 0, xsSeg,
        vsSeg⟩ :=
    ⟨rfl, hxs, hvs, fun m hm => absurd hm (Nat.not_lt_zero _), fun m hm => absurd hm (Nat.not_lt_zero _), rfl,
      fun d => le_refl _, fun d => ⟨le_refl _, le_refl _⟩, fun m hm => absurd hm (Nat.not_lt_zero _),
      fun d => ⟨Or.inl rfl, Or.inl rfl⟩⟩
  obtain ⟨s, e, hs⟩ := forRange_nat (fun z s => Copied xs vs (large N g o) (g * g * g)
      (BBox.init (xs.getD (large N g o 0) 0) shd.totalWidth) (vs.getD 0 0) (slot g 0 0 (z - o.2.2)) s)
    (lo := o.2.2) (hi := o.2.2 + g) (by omega)
    (fun z s =>
      forRange (o.2.1 : ℤ) ((o.2.1 : ℤ) + ((sw : ℤ) + 1)) (fun y s =>
        forRange (o.1 : ℤ) ((o.1 : ℤ) + ((sw : ℤ) + 1)) (fun x s =>
          copyStep xs vs (wrapIdx N x + wrapIdx N y * N + wrapIdx N z * (N * N)) s) s) s)
    ⟨0, BBox.init (xs.getD (large N g o 0) 0) shd.totalWidth, vs.getD 0 0, vs.getD 0 0, xsSeg, vsSeg⟩
    (by rw [Nat.sub_self]; exact (by simpa [slot] using first))
    (by
      intro z s hz0 hz1 hs
      obtain ⟨s', e, hs'⟩ := forRange_nat (fun y s => Copied xs vs (large N g o) (g * g * g)
          (BBox.init (xs.getD (large N g o 0) 0) shd.totalWidth) (vs.getD 0 0) (slot g 0 (y - o.2.1) (z - o.2.2)) s)
        (lo := o.2.1) (hi := o.2.1 + g) (by omega)
        (fun y s =>
          forRange (o.1 : ℤ) ((o.1 : ℤ) + ((sw : ℤ) + 1)) (fun x s =>
            copyStep xs vs (wrapIdx N x + wrapIdx N y * N + wrapIdx N z * (N * N)) s) s) s
        (by rw [Nat.sub_self]; exact hs)
        (by
          intro y s hy0 hy1 hs
          obtain ⟨s', e, hs'⟩ := forRange_nat (fun x s => Copied xs vs (large N g o) (g * g * g)
              (BBox.init (xs.getD (large N g o 0) 0) shd.totalWidth) (vs.getD 0 0)
              (slot g (x - o.1) (y - o.2.1) (z - o.2.2)) s)
            (lo := o.1) (hi := o.1 + g) (by omega)
            (fun x s => copyStep xs vs (wrapIdx N x + wrapIdx N y * N + wrapIdx N z * (N * N)) s) s
            (by rw [Nat.sub_self]; exact hs)
            (by
              intro x s hx0 hx1 hs
              obtain ⟨s', e, hs'⟩ := step (x - o.1) (y - o.2.1) (z - o.2.2) (by omega) (by omega) (by omega) s hs
              rw [show o.1 + (x - o.1) = x by omega, show o.2.1 + (y - o.2.1) = y by omega,
                show o.2.2 + (z - o.2.2) = z by omega] at e
              refine ⟨s', e, ?_⟩
              rwa [show slot g (x + 1 - o.1) (y - o.2.1) (z - o.2.2) = slot g (x - o.1) (y - o.2.1) (z - o.2.2) + 1 by
                unfold slot; omega])
          refine ⟨s', ?_, ?_⟩
          · rw [← e]
            push_cast
            rfl
          · rwa [show slot g 0 (y + 1 - o.2.1) (z - o.2.2) = slot g (o.1 + g - o.1) (y - o.2.1) (z - o.2.2) by
              unfold slot
              rw [show y + 1 - o.2.1 = (y - o.2.1) + 1 by omega, add_mul]
              omega])
      refine ⟨s', ?_, ?_⟩
      · rw [← e]
        push_cast
        rfl
      · rwa [show slot g 0 0 (z + 1 - o.2.2) = slot g 0 (o.2.1 + g - o.2.1) (z - o.2.2) by
          unfold slot
          rw [show z + 1 - o.2.2 = (z - o.2.2) + 1 by omega, add_mul, Nat.add_sub_cancel_left]
          omega])
  refine ⟨s, ?_, ?_⟩
  · refine bind_of (a := xs.getD (large N g o 0) 0) ?_ (bind_of (a := vs.getD 0 0) ?_ (bind_of (a := s) ?_ rfl))
    · rw [hL0, rd_of_lt (by rw [hx]; exact hlarge 0)]
      simp [hx, hlarge 0]
    · have : 0 < vs.length := by omega
      rw [show (0 : ℤ) = ((0 : ℕ) : ℤ) by rfl, rd_of_lt this]
      simp [this]
    · rw [← e]
      push_cast
      rfl
  · rwa [Nat.add_sub_cancel_left, show slot g 0 0 g = g * g * g by unfold slot; ring] at hs

/-- The slots of a finished copy are a block of the grid. -/
theorem Copied.block {xs vs : List Vec} {N c sw m : ℕ} {b0 : BBox} {v0 : Vec} {s : Copy} (hN : 0 < N)
    (hx : xs.length = N * N * N) (hv : vs.length = N * N * N)
    (h : Copied xs vs (large N (sw + 1) (corner c sw m)) ((sw + 1) * (sw + 1) * (sw + 1)) b0 v0
      ((sw + 1) * (sw + 1) * (sw + 1)) s) :
    IsBlock N (sw + 1) (corner c sw m).1 (corner c sw m).2.1 (corner c sw m).2.2 xs s.xsSeg ∧
      IsBlock N (sw + 1) (corner c sw m).1 (corner c sw m).2.1 (corner c sw m).2.2 vs s.vsSeg := by
  refine ⟨⟨h.xlen, fun i j k hi hj hk => ?_⟩, ⟨h.vlen, fun i j k hi hj hk => ?_⟩⟩
  · have := h.x _ (slot_lt hi hj hk)
    rw [large_slot N _ hi hj] at this
    refine ⟨_, ?_, this⟩
    have hl := particleAt_lt hN ((corner c sw m).1 + i) ((corner c sw m).2.1 + j) ((corner c sw m).2.2 + k)
    rw [List.getElem?_eq_getElem (by omega)]
    simp [hx, hl]
  · have := h.v _ (slot_lt hi hj hk)
    rw [large_slot N _ hi hj] at this
    refine ⟨_, ?_, this⟩
    have hl := particleAt_lt hN ((corner c sw m).1 + i) ((corner c sw m).2.1 + j) ((corner c sw m).2.2 + k)
    rw [List.getElem?_eq_getElem (by omega)]
    simp [hv, hl]

/-- C79: `copyToSegment` leaves in slot `(i, j, k)` of the segment the particle at the segment's low corner plus
`(i, j, k)` modulo the grid, positions and velocities alike, whatever the buffers held before. -/
theorem C79_block {shd : Sheet} {N c sw m : ℕ} (h : HeaderOk shd N c sw m) {xs vs xsSeg vsSeg : List Vec}
    (hx : xs.length = N * N * N) (hv : vs.length = N * N * N)
    (hxs : xsSeg.length = (sw + 1) * (sw + 1) * (sw + 1)) (hvs : vsSeg.length = (sw + 1) * (sw + 1) * (sw + 1)) :
    ∃ shd' xsSeg' vsSeg', copyToSegment shd xs vs xsSeg vsSeg = some (shd', xsSeg', vsSeg') ∧
      IsBlock N (sw + 1) (sw * (m % c)) (sw * (m / c % c)) (sw * (m / (c * c))) xs xsSeg' ∧
      IsBlock N (sw + 1) (sw * (m % c)) (sw * (m / c % c)) (sw * (m / (c * c))) vs vsSeg' := by
  obtain ⟨s, e, hs⟩ := copyToSegment_ok h hx hv hxs hvs
  obtain ⟨h1, h2⟩ := hs.block h.pos hx hv
  exact ⟨_, _, _, e, h1, h2⟩

/-- C82: the header written by `copyToSegment` bounds the segment: along each axis every particle of the
segment lies in the stored interval modulo the period, the origin lies in the periodic volume, and the width is
at most the period. -/
theorem C82_segment {shd : Sheet} {N c sw m : ℕ} (h : HeaderOk shd N c sw m) {xs vs xsSeg vsSeg : List Vec}
    (hx : xs.length = N * N * N) (hv : vs.length = N * N * N)
    (hxs : xsSeg.length = (sw + 1) * (sw + 1) * (sw + 1)) (hvs : vsSeg.length = (sw + 1) * (sw + 1) * (sw + 1))
    (hL : 0 < shd.totalWidth) (hin : ∀ x ∈ xs, ∀ d, 0 ≤ x d ∧ x d < shd.totalWidth) :
    ∃ shd' xsSeg' vsSeg', copyToSegment shd xs vs xsSeg vsSeg = some (shd', xsSeg', vsSeg') ∧
      ∀ d, (∀ x ∈ xsSeg', InPeriodic shd.totalWidth (shd'.origin d) (shd'.width d) (x d)) ∧
        (0 ≤ shd'.origin d ∧ shd'.origin d < shd.totalWidth) ∧ 0 ≤ shd'.width d ∧
        shd'.width d ≤ shd.totalWidth := by
  obtain ⟨s, e, hs⟩ := copyToSegment_ok h hx hv hxs hvs
  refine ⟨_, _, _, e, ?_⟩
  have hmem : ∀ n, xs.getD (large N (sw + 1) (corner c sw m) n) 0 ∈ xs := by
    intro n
    have hl : large N (sw + 1) (corner c sw m) n < xs.length := by rw [hx]; exact particleAt_lt h.pos _ _ _
    simp [hl]
  intro d
  have key := C82_contains shd.totalWidth hL (xs.getD (large N (sw + 1) (corner c sw m) 0) 0)
    (fun i => hin _ (hmem 0) i)
    ((List.range ((sw + 1) * (sw + 1) * (sw + 1))).map fun n => xs.getD (large N (sw + 1) (corner c sw m) n) 0)
    (by
      intro p hp i
      obtain ⟨n, -, rfl⟩ := List.mem_map.mp hp
      exact hin _ (hmem n) i) d
  rw [← hs.box] at key
  obtain ⟨k1, k2, k3⟩ := key
  have hw : s.box.width = shd.totalWidth := by
    rw [hs.box]
    exact (BBox.axis_foldl _ d _).2
  have e1 : s.box.stored.1 = (s.box.center.add s.box.toMin).mod shd.totalWidth := by
    unfold BBox.stored
    rw [hw]
  rw [e1] at k1 k2
  refine ⟨fun x hxm => k1 x (List.mem_cons_of_mem _ ?_), k2, k3.1, k3.2⟩
  obtain ⟨n, hn, rfl⟩ := List.getElem_of_mem hxm
  have hn' : n < (sw + 1) * (sw + 1) * (sw + 1) := by rw [← hs.xlen]; exact hn
  have := hs.x n hn'
  rw [List.getElem?_eq_getElem hn, Option.some.injEq] at this
  rw [this]
  exact List.mem_map.mpr ⟨n, List.mem_range.mpr hn', rfl⟩

/-- C105: the velocity bounds of the header contain the velocity of every particle of the segment, and each
bound is the velocity of a particle of the segment or of the first particle of the grid. -/
theorem C105_velocities {shd : Sheet} {N c sw m : ℕ} (h : HeaderOk shd N c sw m) {xs vs xsSeg vsSeg : List Vec}
    (hx : xs.length = N * N * N) (hv : vs.length = N * N * N)
    (hxs : xsSeg.length = (sw + 1) * (sw + 1) * (sw + 1)) (hvs : vsSeg.length = (sw + 1) * (sw + 1) * (sw + 1)) :
    ∃ shd' xsSeg' vsSeg', copyToSegment shd xs vs xsSeg vsSeg = some (shd', xsSeg', vsSeg') ∧
      ∀ d, (∀ v ∈ vsSeg', shd'.velocityOrigin d ≤ v d ∧ v d ≤ shd'.velocityOrigin d + shd'.velocityWidth d) ∧
        (∃ v, (v ∈ vsSeg' ∨ vs[0]? = some v) ∧ shd'.velocityOrigin d = v d) ∧
        (∃ v, (v ∈ vsSeg' ∨ vs[0]? = some v) ∧ shd'.velocityOrigin d + shd'.velocityWidth d = v d) := by
  obtain ⟨s, e, hs⟩ := copyToSegment_ok h hx hv hxs hvs
  refine ⟨_, _, _, e, ?_⟩
  have hmem : ∀ n, n < (sw + 1) * (sw + 1) * (sw + 1) →
      vs.getD (large N (sw + 1) (corner c sw m) n) 0 ∈ s.vsSeg := fun n hn => List.mem_of_getElem? (hs.v n hn)
  have h0 : vs[0]? = some (vs.getD 0 0) := by
    have : 0 < vs.length := by rw [hv]; exact Nat.mul_pos (Nat.mul_pos h.pos h.pos) h.pos
    rw [List.getElem?_eq_getElem this]
    simp [this]
  intro d
  simp only [add_sub_cancel]
  refine ⟨?_, ?_, ?_⟩
  · intro v hvm
    obtain ⟨n, hn, rfl⟩ := List.getElem_of_mem hvm
    have hn' : n < (sw + 1) * (sw + 1) * (sw + 1) := by rw [← hs.vlen]; exact hn
    have := hs.v n hn'
    rw [List.getElem?_eq_getElem hn, Option.some.injEq] at this
    rw [this]
    exact hs.vin n hn' d
  · rcases (hs.vtight d).1 with e | ⟨n, hn, e⟩
    · exact ⟨_, Or.inr h0, e⟩
    · exact ⟨_, Or.inl (hmem n hn), e⟩
  · rcases (hs.vtight d).2 with e | ⟨n, hn, e⟩
    · exact ⟨_, Or.inr h0, e⟩
    · exact ⟨_, Or.inl (hmem n hn), e⟩

/-- The grid used in the examples: eight particles with the positions below, velocity minus position. -/
def exGrid : List Vec :=
  [![0, 0, 0], ![5, 0, 1], ![0, 5, 0], ![5, 5, 0], ![0, 0, 5], ![5, 9, 5], ![0, 5, 5], ![5, 5, 6]]

/-- The last of eight segments, with one cell, of a grid of two particles on a side: it wraps around. -/
example :
    HeaderOk { sheetHeader ⟨8, 8, 2, 1, 10⟩ 2 with idx := 7 } 2 2 1 7 ∧
    (copyToSegment { sheetHeader ⟨8, 8, 2, 1, 10⟩ 2 with idx := 7 } exGrid (exGrid.map fun v => -v)
      (List.replicate 8 0) (List.replicate 8 0)).map (fun r => r.2.1) =
      some [![5, 5, 6], ![0, 5, 5], ![5, 9, 5], ![0, 0, 5], ![5, 5, 0], ![0, 5, 0], ![5, 0, 1], ![0, 0, 0]] ∧
    (copyToSegment { sheetHeader ⟨8, 8, 2, 1, 10⟩ 2 with idx := 7 } exGrid (exGrid.map fun v => -v)
      (List.replicate 8 0) (List.replicate 8 0)).map (fun r => (r.1.origin 2, r.1.width 2, r.1.velocityOrigin 1,
        r.1.velocityWidth 1)) = some (5, 6, -9, 9) := by
  refine ⟨⟨rfl, rfl, by decide, by decide, rfl, by decide, by decide, by decide, by decide⟩, ?_, ?_⟩
  · decide +kernel
  · decide +kernel

end Verif.Main
