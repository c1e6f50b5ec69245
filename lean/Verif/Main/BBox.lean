import Verif.Main.Model
import Mathlib.Algebra.Order.Field.Basic
import Mathlib.Data.Rat.Floor
import Mathlib.Tactic.Linarith
import Mathlib.Tactic.NormNum
import Mathlib.Tactic.FieldSimp

/-!
C82: the periodic bounding box of `render/main/main.go` contains every particle added to it.
-/

set_option autoImplicit false

namespace Verif.Main
open Verif.Go Verif.Geom

/-! Specification. -/

/-- Position `x` lies in the interval of width `w` at `o` in a box with period `L`. -/
def InPeriodic (L o w x : ℚ) : Prop := ∃ n : ℤ, o ≤ x + n * L ∧ x + n * L ≤ o + w

/-! Proof, one axis at a time. -/

/-- `SubAt` along one axis. render/geom/vec.go 82-103. -/
def subAxis (w a b : ℚ) : ℚ := subFold2 w (subFold1 w (a - b))

/-- One axis of a bounding box: centre, lower and upper displacement. render/main/main.go 418-422. -/
structure Axis where
  c : ℚ
  mn : ℚ
  mx : ℚ

def Axis.add (w : ℚ) (a : Axis) (p : ℚ) : Axis :=
  let m := minMax a.mn a.mx (subAxis w p a.c)
  let s := (m.2 + m.1) * (1 / 2)
  ⟨a.c + s, subAxis w m.1 s, subAxis w m.2 s⟩

def BBox.axis (b : BBox) (i : Fin 3) : Axis := ⟨b.center i, b.toMin i, b.toMax i⟩

theorem BBox.axis_add (b : BBox) (p : Vec) (i : Fin 3) : (b.add p).axis i = (b.axis i).add b.width (p i) := rfl

theorem BBox.add_width (b : BBox) (p : Vec) : (b.add p).width = b.width := rfl

theorem subAxis_small {w a b : ℚ} (hw : 0 < w) (h : |a - b| ≤ w / 2) : subAxis w a b = a - b := by
  have := abs_le.mp h
  unfold subAxis subFold1 subFold2
  simp only
  split_ifs <;> linarith

theorem subAxis_range {w a b : ℚ} (hw : 0 < w) (h : |a - b| ≤ 3 * w / 2) :
    |subAxis w a b| ≤ w / 2 ∧ ∃ n : ℤ, subAxis w a b = a - b + n * w := by
  have := abs_le.mp h
  unfold subAxis subFold1 subFold2
  simp only
  rw [abs_le]
  split_ifs
  all_goals first
    | exfalso; linarith
    | exact ⟨⟨by linarith, by linarith⟩, 0, by push_cast; ring1⟩
    | exact ⟨⟨by linarith, by linarith⟩, 1, by push_cast; ring1⟩
    | exact ⟨⟨by linarith, by linarith⟩, -1, by push_cast; ring1⟩

/-- The invariant of one axis: a symmetric interval of half width at most half the period, which holds the
first particle in place. -/
structure Good (w p0 : ℚ) (a : Axis) : Prop where
  sym : a.mn = -a.mx
  nonneg : 0 ≤ a.mx
  half : a.mx ≤ w / 2
  lo : a.c - a.mx ≤ p0
  hi : p0 ≤ a.c + a.mx

theorem Axis.add_good {w p0 p : ℚ} {a : Axis} (hw : 0 < w) (hp0 : 0 ≤ p0 ∧ p0 < w) (hp : 0 ≤ p ∧ p < w)
    (g : Good w p0 a) :
    Good w p0 (a.add w p) ∧ (a.add w p).c - (a.add w p).mx ≤ a.c - a.mx ∧
      a.c + a.mx ≤ (a.add w p).c + (a.add w p).mx ∧
      ∃ n : ℤ, (a.add w p).c - (a.add w p).mx ≤ p + n * w ∧ p + n * w ≤ (a.add w p).c + (a.add w p).mx ∧
        |p + n * w - a.c| ≤ w / 2 ∧
        ((a.add w p).c - (a.add w p).mx = a.c - a.mx ∨ (a.add w p).c - (a.add w p).mx = p + n * w) ∧
        ((a.add w p).c + (a.add w p).mx = a.c + a.mx ∨ (a.add w p).c + (a.add w p).mx = p + n * w) := by
  obtain ⟨gs, gn, gh, gl, gu⟩ := g
  obtain ⟨hd, n, hn⟩ := subAxis_range (a := p) (b := a.c) hw (by rw [abs_le]; constructor <;> linarith)
  have hd2 := abs_le.mp hd
  unfold Axis.add minMax
  generalize subAxis w p a.c = d at *
  simp only
  split_ifs with h1 h2
  · have e1 : subAxis w a.mn ((d + a.mn) * (1 / 2)) = a.mn - (d + a.mn) * (1 / 2) := by
      apply subAxis_small hw; rw [abs_le]; constructor <;> linarith
    have e2 : subAxis w d ((d + a.mn) * (1 / 2)) = d - (d + a.mn) * (1 / 2) := by
      apply subAxis_small hw; rw [abs_le]; constructor <;> linarith
    simp only [e1, e2]
    refine ⟨⟨by ring, by linarith, by linarith, by linarith, by linarith⟩, by linarith, by linarith, n,
      by linarith, by linarith, ?_, Or.inl (by linarith), Or.inr (by linarith)⟩
    rw [abs_le]; constructor <;> linarith
  · have e1 : subAxis w d ((a.mx + d) * (1 / 2)) = d - (a.mx + d) * (1 / 2) := by
      apply subAxis_small hw; rw [abs_le]; constructor <;> linarith
    have e2 : subAxis w a.mx ((a.mx + d) * (1 / 2)) = a.mx - (a.mx + d) * (1 / 2) := by
      apply subAxis_small hw; rw [abs_le]; constructor <;> linarith
    simp only [e1, e2]
    refine ⟨⟨by ring, by linarith, by linarith, by linarith, by linarith⟩, by linarith, by linarith, n,
      by linarith, by linarith, ?_, Or.inr (by linarith), Or.inl (by linarith)⟩
    rw [abs_le]; constructor <;> linarith
  · have e0 : (a.mx + a.mn) * (1 / 2) = 0 := by rw [gs]; ring
    have e1 : subAxis w a.mn ((a.mx + a.mn) * (1 / 2)) = a.mn := by
      rw [subAxis_small hw (by rw [abs_le]; constructor <;> linarith)]; linarith
    have e2 : subAxis w a.mx ((a.mx + a.mn) * (1 / 2)) = a.mx := by
      rw [subAxis_small hw (by rw [abs_le]; constructor <;> linarith)]; linarith
    rw [e1, e2, e0]
    refine ⟨⟨by linarith, by linarith, by linarith, by linarith, by linarith⟩, by linarith, by linarith, n,
      by linarith, by linarith, ?_, Or.inl (by linarith), Or.inl (by linarith)⟩
    rw [abs_le]; constructor <;> linarith

/-- All particles of a list along one axis. -/
def Axis.addAll (w : ℚ) (a : Axis) (ps : List ℚ) : Axis := ps.foldl (Axis.add w) a

theorem Axis.addAll_good {w p0 : ℚ} (hw : 0 < w) (hp0 : 0 ≤ p0 ∧ p0 < w) (ps : List ℚ) :
    ∀ (a : Axis), Good w p0 a → (∀ p ∈ ps, 0 ≤ p ∧ p < w) →
    Good w p0 (a.addAll w ps) ∧ (a.addAll w ps).c - (a.addAll w ps).mx ≤ a.c - a.mx ∧
      a.c + a.mx ≤ (a.addAll w ps).c + (a.addAll w ps).mx ∧
      ∀ p ∈ ps, ∃ n : ℤ, (a.addAll w ps).c - (a.addAll w ps).mx ≤ p + n * w ∧
        p + n * w ≤ (a.addAll w ps).c + (a.addAll w ps).mx := by
  induction ps with
  | nil => intro a g _; exact ⟨g, le_refl _, le_refl _, by simp⟩
  | cons q ps ih =>
    intro a g h
    obtain ⟨g1, l1, u1, n, hn1, hn2, -, -, -⟩ := Axis.add_good hw hp0 (h q (by simp)) g
    obtain ⟨g2, l2, u2, hall⟩ := ih (a.add w q) g1 (fun p hp => h p (by simp [hp]))
    refine ⟨g2, l2.trans l1, u1.trans u2, ?_⟩
    intro p hp
    rcases List.mem_cons.mp hp with rfl | hp
    · exact ⟨n, l2.trans hn1, hn2.trans u2⟩
    · exact hall p hp

theorem BBox.axis_foldl (ps : List Vec) (i : Fin 3) : ∀ b : BBox,
    (ps.foldl BBox.add b).axis i = (b.axis i).addAll b.width (ps.map (· i)) ∧
      (ps.foldl BBox.add b).width = b.width := by
  induction ps with
  | nil => intro b; exact ⟨rfl, rfl⟩
  | cons p ps ih =>
    intro b
    rw [List.foldl_cons]
    obtain ⟨h1, h2⟩ := ih (b.add p)
    rw [h1, h2]
    exact ⟨rfl, rfl⟩

/-- The axis of the box after `Init`. -/
theorem init_good {w p0 : ℚ} (hw : 0 < w) : Good w p0 ⟨p0, 0, 0⟩ :=
  ⟨by norm_num, le_refl _, by simp only; linarith, by simp, by simp⟩

/-- What `copyToSegment` reads off the box, main.go 511-513. -/
def BBox.stored (b : BBox) : Vec × Vec := ((b.center.add b.toMin).mod b.width, b.toMax.scale 2)

theorem stored_axis {w p0 : ℚ} {a : Axis} (hp0 : 0 ≤ p0 ∧ p0 < w) (g : Good w p0 a) :
    (0 ≤ modC w (a.c + a.mn) ∧ modC w (a.c + a.mn) < w) ∧ ∃ m : ℤ, modC w (a.c + a.mn) = a.c - a.mx + m * w := by
  obtain ⟨gs, gn, gh, gl, gu⟩ := g
  unfold modC
  rw [gs]
  split_ifs with h1 h2
  · exfalso; linarith
  · exact ⟨⟨by linarith, by linarith⟩, 1, by push_cast; ring⟩
  · exact ⟨⟨by linarith, by linarith⟩, 0, by push_cast; ring⟩

/-- C82: for every list of positions in the periodic volume, in every order, the box contains every particle
along every axis modulo the period; its origin lies in the periodic volume and it is no wider than the volume.
No bound on the spread of the particles is needed. -/
theorem C82_contains (L : ℚ) (hL : 0 < L) (p0 : Vec) (hp0 : ∀ i, 0 ≤ p0 i ∧ p0 i < L) (ps : List Vec)
    (hps : ∀ p ∈ ps, ∀ i, 0 ≤ p i ∧ p i < L) (i : Fin 3) :
    (∀ p ∈ p0 :: ps, InPeriodic L ((ps.foldl BBox.add (BBox.init p0 L)).stored.1 i)
      ((ps.foldl BBox.add (BBox.init p0 L)).stored.2 i) (p i)) ∧
    (0 ≤ (ps.foldl BBox.add (BBox.init p0 L)).stored.1 i ∧ (ps.foldl BBox.add (BBox.init p0 L)).stored.1 i < L) ∧
    (0 ≤ (ps.foldl BBox.add (BBox.init p0 L)).stored.2 i ∧ (ps.foldl BBox.add (BBox.init p0 L)).stored.2 i ≤ L) := by
  obtain ⟨e, ew⟩ := BBox.axis_foldl ps i (BBox.init p0 L)
  set b := ps.foldl BBox.add (BBox.init p0 L) with hb
  obtain ⟨g, -, -, hall⟩ := Axis.addAll_good hL (hp0 i) (ps.map (· i)) ⟨p0 i, 0, 0⟩ (init_good hL) (by
    intro p hp
    obtain ⟨q, hq, rfl⟩ := List.mem_map.mp hp
    exact hps q hq i)
  change b.axis i = Axis.addAll L ⟨p0 i, 0, 0⟩ _ at e
  rw [← e] at g hall
  change b.width = L at ew
  have e1 : b.stored.1 i = modC L ((b.axis i).c + (b.axis i).mn) := by
    unfold BBox.stored
    rw [ew]
    rfl
  have e2 : b.stored.2 i = (b.axis i).mx * 2 := rfl
  obtain ⟨hr, m, hm⟩ := stored_axis (hp0 i) g
  rw [e1, e2]
  refine ⟨?_, hr, by linarith [g.nonneg], by linarith [g.half]⟩
  intro p hp
  rw [hm]
  rcases List.mem_cons.mp hp with rfl | hp
  · exact ⟨m, by linarith [g.lo], by linarith [g.hi]⟩
  · obtain ⟨n, h1, h2⟩ := hall (p i) (List.mem_map.mpr ⟨p, hp, rfl⟩)
    refine ⟨n + m, ?_, ?_⟩ <;> push_cast <;> linarith

/-- Along one axis: while the lifts of all particles seen so far span less than half the period, the box is
their hull. -/
structure Hull (w : ℚ) (a : Axis) (us : List ℚ) : Prop where
  lo : ∀ u ∈ us, a.c - a.mx ≤ u
  hi : ∀ u ∈ us, u ≤ a.c + a.mx
  minMem : a.c - a.mx ∈ us
  maxMem : a.c + a.mx ∈ us

theorem Axis.add_hull {w p0 p u : ℚ} {a : Axis} {us : List ℚ} (hw : 0 < w) (hp0 : 0 ≤ p0 ∧ p0 < w)
    (hp : 0 ≤ p ∧ p < w) (g : Good w p0 a) (h : Hull w a us) (hu : ∃ k : ℤ, u = p + k * w)
    (hs : ∀ u' ∈ us, |u - u'| < w / 2) : Hull w (a.add w p) (us ++ [u]) := by
  obtain ⟨g1, l1, u1, n, hn1, hn2, hd, hlo, hhi⟩ := Axis.add_good hw hp0 hp g
  obtain ⟨k, hk⟩ := hu
  have s1 := abs_lt.mp (hs _ h.minMem)
  have s2 := abs_lt.mp (hs _ h.maxMem)
  have hd := abs_le.mp hd
  -- both the lift and the displacement found by `SubAt` are within half a period of the centre
  have hkn : k = n := by
    have h1 : |u - a.c| < w / 2 := by
      rw [abs_lt]; constructor <;> linarith [g.nonneg]
    have h1 := abs_lt.mp h1
    have a1 : ((k - n : ℤ) : ℚ) * w < 1 * w := by push_cast; linarith
    have a2 : (-1 : ℚ) * w < ((k - n : ℤ) : ℚ) * w := by push_cast; linarith
    have b1 := lt_of_mul_lt_mul_right a1 hw.le
    have b2 := lt_of_mul_lt_mul_right a2 hw.le
    have c1 : k - n < 1 := by exact_mod_cast b1
    have c2 : -1 < k - n := by exact_mod_cast b2
    omega
  subst hkn
  rw [← hk] at hn1 hn2 hlo hhi
  refine ⟨?_, ?_, ?_, ?_⟩
  · intro v hv
    rcases List.mem_append.mp hv with hv | hv
    · exact l1.trans (h.lo v hv)
    · rw [List.mem_singleton] at hv; rwa [hv]
  · intro v hv
    rcases List.mem_append.mp hv with hv | hv
    · exact (h.hi v hv).trans u1
    · rw [List.mem_singleton] at hv; rwa [hv]
  · rcases hlo with e | e <;> rw [e]
    · exact List.mem_append_left _ h.minMem
    · simp
  · rcases hhi with e | e <;> rw [e]
    · exact List.mem_append_left _ h.maxMem
    · simp

theorem Axis.addAll_hull {w p0 : ℚ} (hw : 0 < w) (hp0 : 0 ≤ p0 ∧ p0 < w) (lift : ℚ → ℚ) (ps : List ℚ)
    (hl : ∀ p ∈ ps, ∃ k : ℤ, lift p = p + k * w) (hps : ∀ p ∈ ps, 0 ≤ p ∧ p < w)
    (hs : ∀ p ∈ ps, ∀ q ∈ p0 :: ps, |lift p - lift q| < w / 2) : ∀ (done : List ℚ) (a : Axis),
    (∀ q ∈ done, q ∈ p0 :: ps) → Good w p0 a → Hull w a (done.map lift) →
    ∀ rest, (∀ q ∈ rest, q ∈ ps) → Hull w (a.addAll w rest) ((done ++ rest).map lift) := by
  intro done a hd g h rest
  induction rest generalizing done a with
  | nil => intro _; rw [List.append_nil]; exact h
  | cons q rest ih =>
    intro hr
    have hq := hr q (by simp)
    have h1 := Axis.add_hull (u := lift q) hw hp0 (hps q hq) g h (hl q hq) (by
      intro u' hu'
      obtain ⟨v, hv, rfl⟩ := List.mem_map.mp hu'
      exact hs q hq v (hd v hv))
    have := ih (done ++ [q]) (a.add w q) (by
      intro v hv
      rcases List.mem_append.mp hv with hv | hv
      · exact hd v hv
      · rw [List.mem_singleton] at hv; rw [hv]; exact List.mem_cons_of_mem _ hq)
      (Axis.add_good hw hp0 (hps q hq) g).1 (by rw [List.map_append]; exact h1) (fun v hv => hr v (by simp [hv]))
    rw [List.append_assoc] at this
    exact this

/-- C82: when the particles span less than half the period along an axis, that is, when they have periodic
images `lift` less than half a period apart, the box along that axis is the smallest: it reaches from the
lowest image to the highest one. -/
theorem C82_tight (L : ℚ) (hL : 0 < L) (p0 : Vec) (hp0 : ∀ i, 0 ≤ p0 i ∧ p0 i < L) (ps : List Vec)
    (hps : ∀ p ∈ ps, ∀ i, 0 ≤ p i ∧ p i < L) (i : Fin 3) (lift : ℚ → ℚ)
    (hl : ∀ p ∈ p0 :: ps, ∃ k : ℤ, lift (p i) = p i + k * L) (h0 : lift (p0 i) = p0 i)
    (hs : ∀ p ∈ p0 :: ps, ∀ q ∈ p0 :: ps, |lift (p i) - lift (q i)| < L / 2) :
    ∃ (m : ℤ) (q r : Vec), q ∈ p0 :: ps ∧ r ∈ p0 :: ps ∧
      (∀ p ∈ p0 :: ps, lift (q i) ≤ lift (p i) ∧ lift (p i) ≤ lift (r i)) ∧
      (ps.foldl BBox.add (BBox.init p0 L)).stored.1 i = lift (q i) + m * L ∧
      (ps.foldl BBox.add (BBox.init p0 L)).stored.2 i = lift (r i) - lift (q i) := by
  obtain ⟨e, ew⟩ := BBox.axis_foldl ps i (BBox.init p0 L)
  set b := ps.foldl BBox.add (BBox.init p0 L) with hb
  have hps' : ∀ p ∈ ps.map (· i), 0 ≤ p ∧ p < L := by
    intro p hp
    obtain ⟨q, hq, rfl⟩ := List.mem_map.mp hp
    exact hps q hq i
  obtain ⟨g, -, -, hall⟩ := Axis.addAll_good hL (hp0 i) (ps.map (· i)) ⟨p0 i, 0, 0⟩ (init_good hL) hps'
  have hu := Axis.addAll_hull hL (hp0 i) lift (ps.map (· i)) (by
      intro p hp
      obtain ⟨q, hq, rfl⟩ := List.mem_map.mp hp
      exact hl q (by simp [hq])) hps' (by
      intro p hp q hq
      obtain ⟨p, hp', rfl⟩ := List.mem_map.mp hp
      rw [← List.map_cons (f := fun v : Vec => v i)] at hq
      obtain ⟨q, hq', rfl⟩ := List.mem_map.mp hq
      exact hs p (by simp [hp']) q hq') [p0 i] ⟨p0 i, 0, 0⟩ (by simp) (init_good hL)
      ⟨by simp [h0], by simp [h0], by simp [h0], by simp [h0]⟩ (ps.map (· i)) (fun q hq => hq)
  change b.axis i = Axis.addAll L ⟨p0 i, 0, 0⟩ _ at e
  rw [← e] at g hu
  change b.width = L at ew
  have e1 : b.stored.1 i = modC L ((b.axis i).c + (b.axis i).mn) := by
    unfold BBox.stored
    rw [ew]
    rfl
  have e2 : b.stored.2 i = (b.axis i).mx * 2 := rfl
  obtain ⟨hr, m, hm⟩ := stored_axis (hp0 i) g
  have hmap : ([p0 i] ++ ps.map (· i)).map lift = (p0 :: ps).map fun v => lift (v i) := by
    rw [List.singleton_append, ← List.map_cons (f := fun v : Vec => v i), List.map_map]
    rfl
  rw [hmap] at hu
  obtain ⟨q, hq, eq⟩ := List.mem_map.mp hu.minMem
  obtain ⟨r, hr', er⟩ := List.mem_map.mp hu.maxMem
  refine ⟨m, q, r, hq, hr', ?_, ?_, ?_⟩
  · intro p hp
    have hp' : lift (p i) ∈ (p0 :: ps).map fun v => lift (v i) := List.mem_map.mpr ⟨p, hp, rfl⟩
    rw [eq, er]
    exact ⟨hu.lo _ hp', hu.hi _ hp'⟩
  · rw [e1, hm, eq]
  · rw [e2, eq, er]; ring

/-- Particles on both sides of the boundary: the box starts at 95 and is 10 wide. -/
example : let b := [![97, 3, 50], ![95, 4, 50], ![5, 5, 50]].foldl BBox.add (BBox.init ![99, 1, 50] 100)
    (b.stored.1 0, b.stored.2 0, b.stored.1 1, b.stored.2 1, b.stored.1 2, b.stored.2 2) =
      (95, 10, 1, 4, 50, 0) := by decide +kernel

end Verif.Main
