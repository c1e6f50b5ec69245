import Verif.Main.Grids
import Verif.Render.MonteCarlo

/-!
C88: the tetrahedra visited by the renderer over all files written by the conversion program.
-/

set_option autoImplicit false

namespace Verif.Main
open Verif.Go Verif.Geom Verif.Render

/-! Specification. -/

/-- Corner `k` of the tetrahedron of the unit cube that belongs to the order `π` of the axes: the path from one end of
the diagonal to the other along the axes in that order. -/
def pathCorner (π : Equiv.Perm (Fin 3)) (k : Fin 4) (i : Fin 3) : ℕ :=
  match k with
  | 0 => if i = π 0 then 1 else 0
  | 1 => if i = π 2 then 0 else 1
  | 2 => 1
  | 3 => 0

/-- Positions and velocities of the corners of a tetrahedron of the periodic particle grid with `N` particles on a
side, of the cube number `(X, Y, Z)` when cubes are `s` particles on a side. -/
def periodicTet (N s : ℕ) (xs vs : List Vec) (X Y Z : ℕ) (π : Equiv.Perm (Fin 3)) : Fin 4 → Vec × Vec := fun k =>
  let p := particleAt N (s * (X + pathCorner π k 0)) (s * (Y + pathCorner π k 1)) (s * (Z + pathCorner π k 2))
  (xs.getD p 0, vs.getD p 0)

/-! Model. -/

/-- The reads of four vectors, render/density/interpolator.go 115-120 and 128-133. -/
def readFour (xs : List Vec) (idxs : Fin 4 → ℤ) : Option (Fin 4 → Vec) := do
  let c0 ← rd xs (idxs 0)
  let c1 ← rd xs (idxs 1)
  let c2 ← rd xs (idxs 2)
  let c3 ← rd xs (idxs 3)
  some ![c0, c1, c2, c3]

/-- What `mcarlo.Interpolate` reads from the positions and velocities of a file at one visit,
render/density/interpolator.go 114-134. -/
def visitTet (skip : ℤ) (f : SheetFile) (v : TetVisit) : Option (Fin 4 → Vec × Vec) := do
  let idxs ← initIdxs v.1 (f.header.segmentWidth + 1) skip v.2
  let x ← readFour f.xs idxs
  let u ← readFour f.vs idxs
  some fun k => (x k, u k)

/-- Everything the workers visit in one file. render/render.go 267-278 and render/density/interpolator.go 110-121. -/
def fileVisits (skip : ℤ) (workers : ℕ) (f : SheetFile) : Multiset (Option (Fin 4 → Vec × Vec)) :=
  ∑ id ∈ Finset.range workers,
    (((workerVisits f.header.segmentWidth skip workers id).map (visitTet skip f) : List _) : Multiset _)

/-! Proof. -/

/-- The orders of the axes in the order of the table of directions. -/
def axisOrder : Fin 6 → Equiv.Perm (Fin 3) :=
  ![1, Equiv.swap 1 2, Equiv.swap 0 1, (finRotate 3)⁻¹, finRotate 3, Equiv.swap 0 2]

theorem axisOrder_bij : Function.Bijective axisOrder := by
  rw [Fintype.bijective_iff_injective_and_card]
  refine ⟨by decide +kernel, by decide +kernel⟩

theorem unitCorner_path : ∀ (d : Fin 6) (k : Fin 4) (i : Fin 3), unitCorner d k i = pathCorner (axisOrder d) k i := by
  decide +kernel

theorem sum_visits {β : Type} [AddCommMonoid β] {segWidth skip : ℤ} (h0 : 0 ≤ segWidth) (hs : 0 < skip) (workers : ℕ)
    (hw : 0 < workers) (g : TetVisit → β) :
    ∑ id ∈ Finset.range workers, ((workerVisits segWidth skip workers id).map g).sum =
      ∑ t ∈ tetras (segWidth / skip), g (cubeVisit segWidth skip t.1 t.2.1 t.2.2.1 (t.2.2.2.val : ℤ)) := by
  have hw' : (0 : ℤ) < workers := by omega
  set n := segWidth / skip with hn
  have hwk : ∀ t : ℤ × ℤ × ℤ × Fin 6, ((t.1 + n * (t.2.1 + n * t.2.2.1)) % (workers : ℤ)).toNat < workers := by
    intro t
    have := Int.emod_nonneg (t.1 + n * (t.2.1 + n * t.2.2.1)) hw'.ne'
    have := Int.emod_lt_of_pos (t.1 + n * (t.2.1 + n * t.2.2.1)) hw'
    omega
  rw [← Finset.sum_fiberwise_of_maps_to (s := tetras n) (t := Finset.range workers)
    (g := fun t => ((t.1 + n * (t.2.1 + n * t.2.2.1)) % (workers : ℤ)).toNat)
    (fun t _ => Finset.mem_range.mpr (hwk t))]
  refine Finset.sum_congr rfl fun id hid => ?_
  rw [Finset.mem_range] at hid
  rw [← List.sum_toFinset g (workerVisits_nodup h0 hs hw' (by omega : (0 : ℤ) ≤ id)),
    workerVisits_image h0 hs hw' id (by omega), Finset.sum_image]
  · rfl
  · intro t ht t' ht' e
    obtain ⟨a, b, c, d⟩ := cubeVisit_inj hs (mem_tetras.mp (Finset.mem_filter.mp ht).1)
      (mem_tetras.mp (Finset.mem_filter.mp ht').1) e
    exact Prod.ext a (Prod.ext b (Prod.ext c (Fin.ext (by exact_mod_cast d))))

theorem sum_Ico_nat {β : Type} [AddCommMonoid β] (n : ℕ) (f : ℤ → β) :
    ∑ i ∈ Finset.Ico (0 : ℤ) n, f i = ∑ i ∈ Finset.range n, f i := by
  refine Finset.sum_nbij' Int.toNat (fun i => (i : ℤ)) ?_ ?_ ?_ ?_ ?_
  · intro a ha; rw [Finset.mem_Ico] at ha; rw [Finset.mem_range]; omega
  · intro a ha; rw [Finset.mem_range] at ha; rw [Finset.mem_Ico]; omega
  · intro a ha; rw [Finset.mem_Ico] at ha; omega
  · intro a ha; simp
  · intro a ha; rw [Finset.mem_Ico] at ha; rw [Int.toNat_of_nonneg ha.1]

theorem sum_tetras {β : Type} [AddCommMonoid β] (n : ℕ) (f : ℤ → ℤ → ℤ → Fin 6 → β) :
    ∑ t ∈ tetras n, f t.1 t.2.1 t.2.2.1 t.2.2.2 =
      ∑ x ∈ Finset.range n, ∑ y ∈ Finset.range n, ∑ z ∈ Finset.range n, ∑ d, f x y z d := by
  unfold tetras
  rw [Finset.sum_product, sum_Ico_nat]
  refine Finset.sum_congr rfl fun x _ => ?_
  rw [Finset.sum_product, sum_Ico_nat]
  refine Finset.sum_congr rfl fun y _ => ?_
  rw [Finset.sum_product, sum_Ico_nat]

theorem sum_digits {β : Type} [AddCommMonoid β] (k n : ℕ) (F : ℕ → ℕ → β) :
    ∑ m ∈ Finset.range (k * n), F (m / n) (m % n) = ∑ a ∈ Finset.range k, ∑ x ∈ Finset.range n, F a x := by
  rw [← Finset.sum_product']
  refine Finset.sum_nbij' (fun m => (m / n, m % n)) (fun p => n * p.1 + p.2) ?_ ?_ ?_ ?_ ?_
  · intro m hm
    rw [Finset.mem_range] at hm
    have hn : 0 < n := Nat.pos_of_mul_pos_left (lt_of_le_of_lt (Nat.zero_le _) hm)
    simp only [Finset.mem_product, Finset.mem_range]
    exact ⟨(Nat.div_lt_iff_lt_mul hn).mpr hm, Nat.mod_lt _ hn⟩
  · rintro ⟨a, x⟩ h
    simp only [Finset.mem_product, Finset.mem_range] at h ⊢
    have : n * (a + 1) ≤ n * k := Nat.mul_le_mul_left _ h.1
    rw [mul_comm k]
    rw [mul_add, mul_one] at this
    omega
  · intro m _
    exact Nat.div_add_mod m n
  · rintro ⟨a, x⟩ h
    simp only [Finset.mem_product, Finset.mem_range] at h
    have hn : 0 < n := by omega
    simp only [Prod.mk.injEq]
    rw [Nat.mul_add_div hn, Nat.div_eq_of_lt h.2, add_zero, Nat.mul_add_mod, Nat.mod_eq_of_lt h.2]
    exact ⟨rfl, rfl⟩
  · intro m _
    rfl

theorem sum_blocks {β : Type} [AddCommMonoid β] (k n : ℕ) (F : ℕ → β) :
    ∑ a ∈ Finset.range k, ∑ x ∈ Finset.range n, F (n * a + x) = ∑ X ∈ Finset.range (k * n), F X := by
  rw [← sum_digits k n fun a x => F (n * a + x)]
  exact Finset.sum_congr rfl fun m _ => by rw [Nat.div_add_mod]

/-- Cubes of all segments are the cubes of the grid. -/
theorem sum_segments {β : Type} [AddCommMonoid β] (c n : ℕ) (F : ℕ → ℕ → ℕ → β) :
    ∑ m ∈ Finset.range (c * c * c), ∑ x ∈ Finset.range n, ∑ y ∈ Finset.range n, ∑ z ∈ Finset.range n,
      F (n * (m % c) + x) (n * (m / c % c) + y) (n * (m / (c * c)) + z) =
    ∑ X ∈ Finset.range (c * n), ∑ Y ∈ Finset.range (c * n), ∑ Z ∈ Finset.range (c * n), F X Y Z := by
  have e : ∀ m, m / (c * c) = m / c / c := fun m => (Nat.div_div_eq_div_mul m c c).symm
  simp only [e]
  rw [sum_digits (c * c) c fun q r => ∑ x ∈ Finset.range n, ∑ y ∈ Finset.range n, ∑ z ∈ Finset.range n,
      F (n * r + x) (n * (q % c) + y) (n * (q / c) + z),
    sum_digits c c fun s t => ∑ r ∈ Finset.range c, ∑ x ∈ Finset.range n, ∑ y ∈ Finset.range n, ∑ z ∈ Finset.range n,
      F (n * r + x) (n * t + y) (n * s + z)]
  simp only [← sum_blocks c n]
  rw [Finset.sum_comm' (t' := Finset.range c) (s' := fun _ => Finset.range c) (by simp)]
  have h1 : ∀ t, ∑ s ∈ Finset.range c, ∑ r ∈ Finset.range c, ∑ x ∈ Finset.range n, ∑ y ∈ Finset.range n,
      ∑ z ∈ Finset.range n, F (n * r + x) (n * t + y) (n * s + z) =
      ∑ r ∈ Finset.range c, ∑ x ∈ Finset.range n, ∑ y ∈ Finset.range n, ∑ s ∈ Finset.range c,
      ∑ z ∈ Finset.range n, F (n * r + x) (n * t + y) (n * s + z) := by
    intro t
    rw [Finset.sum_comm]
    refine Finset.sum_congr rfl fun r _ => ?_
    rw [Finset.sum_comm]
    refine Finset.sum_congr rfl fun x _ => ?_
    rw [Finset.sum_comm]
  simp only [h1]
  rw [Finset.sum_comm]
  refine Finset.sum_congr rfl fun r _ => ?_
  rw [Finset.sum_comm]

theorem coe_map_sum {α β : Type} (l : List α) (h : α → β) :
    ((l.map h : List β) : Multiset β) = (l.map fun a => ({h a} : Multiset β)).sum := by
  induction l with
  | nil => rfl
  | cons a l ih => rw [List.map_cons, List.map_cons, List.sum_cons, ← ih]; rfl

theorem readFour_some {xs : List Vec} {idxs : Fin 4 → ℤ} {c : Fin 4 → Vec} (h : ∀ k, rd xs (idxs k) = some (c k)) :
    readFour xs idxs = some c := by
  unfold readFour
  refine bind_of (h 0) (bind_of (h 1) (bind_of (h 2) (bind_of (h 3) ?_)))
  congr 1
  funext k
  fin_cases k <;> rfl

/-- What a slot of a block holds. -/
theorem IsBlock.read {N g X Y Z : ℕ} {xs seg : List Vec} (h : IsBlock N g X Y Z xs seg) {i j k : ℕ} (hi : i < g)
    (hj : j < g) (hk : k < g) :
    rd seg ((slot g i j k : ℕ) : ℤ) = some (xs.getD (particleAt N (X + i) (Y + j) (Z + k)) 0) := by
  obtain ⟨x, e1, e2⟩ := h.2 i j k hi hj hk
  rw [rd_natCast, e2, List.getD_eq_getElem?_getD, e1]
  rfl

theorem visitTet_eq {hd : Catalog} {N c sw m s : ℕ} {xs vs : List Vec} {f : SheetFile} (hs : 0 < s)
    (h : FileOk hd N c sw m xs vs f) (hsw : f.header.segmentWidth = sw) (hdvd : s ∣ sw) {x y z : ℕ} (hx : x < sw / s)
    (hy : y < sw / s) (hz : z < sw / s) (d : Fin 6) :
    visitTet s f (cubeVisit sw s x y z (d.val : ℤ)) =
      some (periodicTet N s xs vs (sw / s * (m % c) + x) (sw / s * (m / c % c) + y) (sw / s * (m / (c * c)) + z)
        (axisOrder d)) := by
  obtain ⟨n, rfl⟩ := hdvd
  rw [Nat.mul_div_cancel_left _ hs] at hx hy hz ⊢
  have hcube : IsCube (((s * n : ℕ) : ℤ) / (s : ℤ)) x y z := by
    rw [← Int.natCast_div, Nat.mul_div_cancel_left _ hs]
    unfold IsCube
    omega
  have hidx := (visit_idxs (by omega : (0 : ℤ) < s) hcube d).1
  have hle : ∀ k i, pathCorner (axisOrder d) k i ≤ 1 :=
    (by decide +kernel : ∀ (d : Fin 6) k i, pathCorner (axisOrder d) k i ≤ 1) d
  have hlt : ∀ (a : ℕ) k i, a < n → s * (a + pathCorner (axisOrder d) k i) < s * n + 1 := by
    intro a k i ha
    have : s * (a + pathCorner (axisOrder d) k i) ≤ s * n := Nat.mul_le_mul_left _ (by have := hle k i; omega)
    omega
  have hp : ∀ k, particle (((s * n : ℕ) : ℤ) + 1) (fun i => (s : ℤ) * ((![(x : ℤ), y, z] : IVec) i + unitCorner d k i)) =
      ((slot (s * n + 1) (s * (x + pathCorner (axisOrder d) k 0)) (s * (y + pathCorner (axisOrder d) k 1))
        (s * (z + pathCorner (axisOrder d) k 2)) : ℕ) : ℤ) := by
    intro k
    unfold particle slot
    simp only [unitCorner_path, Matrix.cons_val_zero, Matrix.cons_val_one, Matrix.cons_val]
    push_cast
    ring
  have hread : ∀ {ys seg : List Vec}, IsBlock N (s * n + 1) (corner c (s * n) m).1 (corner c (s * n) m).2.1
      (corner c (s * n) m).2.2 ys seg → ∀ k, rd seg (particle (((s * n : ℕ) : ℤ) + 1)
        (fun i => (s : ℤ) * ((![(x : ℤ), y, z] : IVec) i + unitCorner d k i))) =
      some (ys.getD (particleAt N (s * (n * (m % c) + x + pathCorner (axisOrder d) k 0))
        (s * (n * (m / c % c) + y + pathCorner (axisOrder d) k 1))
        (s * (n * (m / (c * c)) + z + pathCorner (axisOrder d) k 2))) 0) := by
    intro ys seg hb k
    rw [hp, hb.read (hlt x k 0 hx) (hlt y k 1 hy) (hlt z k 2 hz)]
    have ea : ∀ q a b, s * n * q + s * (a + b) = s * (n * q + a + b) := by intro q a b; ring
    simp only [corner, ea]
  unfold visitTet
  rw [hsw]
  exact bind_of hidx (bind_of (readFour_some (hread h.xblock)) (bind_of (readFour_some (hread h.vblock)) rfl))

theorem FileOk.segmentWidth {hd : Catalog} {N c sw m : ℕ} {xs vs : List Vec} {f : SheetFile}
    (hx : xs.length = N * N * N) (hv : vs.length = N * N * N) (h : FileOk hd N c sw m xs vs f) :
    f.header.segmentWidth = sw := by
  obtain ⟨s0, xsS, vsS, hh, -, l1, l2, e⟩ := h.head
  obtain ⟨r, e', -⟩ := copyToSegment_ok hh hx hv l1 l2
  rw [e, Option.some.injEq] at e'
  rw [(Prod.mk.inj e').1]
  exact hh.segmentWidth

/-- **C88**: when the number of cells divides the width of the particle grid and the length of subsampling the width of
a segment, the tetrahedra visited in all files by all workers are, each exactly once, the six tetrahedra of all cubes
of the periodic particle grid, with the positions and velocities of their corners. -/
theorem C88_each_once (hd : Catalog) (N c : ℕ) (hN : 0 < N) (hc : 0 < c) (hcw : hd.countWidth = N) (hdvd : c ∣ N)
    (xs vs : List Vec) (hx : xs.length = N * N * N) (hv : vs.length = N * N * N) (s : ℕ) (hs : 0 < s)
    (hsd : s ∣ N / c) (workers : ℕ) (hw : 0 < workers) :
    ∃ files, writeGrids hd c xs vs = some files ∧
      (files.map (fileVisits s workers)).sum =
        ∑ X ∈ Finset.range (N / s), ∑ Y ∈ Finset.range (N / s), ∑ Z ∈ Finset.range (N / s),
          ∑ π : Equiv.Perm (Fin 3), {some (periodicTet N s xs vs X Y Z π)} ∧
      (files.map (fileVisits s workers)).sum.card = 6 * (N / s) ^ 3 := by
  obtain ⟨files, e, hl, hfile⟩ := writeGrids_ok hd N c hN hc hcw xs vs hx hv
  refine ⟨files, e, ?_⟩
  have key : (files.map (fileVisits s workers)).sum =
        ∑ X ∈ Finset.range (N / s), ∑ Y ∈ Finset.range (N / s), ∑ Z ∈ Finset.range (N / s),
          ∑ π : Equiv.Perm (Fin 3), {some (periodicTet N s xs vs X Y Z π)} := by
    set sw := N / c with hswd
    have hNs : N / s = c * (sw / s) := by
      obtain ⟨n, hn⟩ := hsd
      obtain ⟨q, hq⟩ := hdvd
      have : sw = q := by rw [hswd, hq, Nat.mul_div_cancel_left _ hc]
      rw [hq, ← this, hn, Nat.mul_div_cancel_left _ hs, show c * (s * n) = s * (c * n) by ring,
        Nat.mul_div_cancel_left _ hs]
    rw [hNs, ← sum_segments]
    have hfs : files.map (fileVisits s workers) = (List.range (c * c * c)).map fun m =>
        ∑ x ∈ Finset.range (sw / s), ∑ y ∈ Finset.range (sw / s), ∑ z ∈ Finset.range (sw / s),
          ∑ π : Equiv.Perm (Fin 3), {some (periodicTet N s xs vs (sw / s * (m % c) + x) (sw / s * (m / c % c) + y)
            (sw / s * (m / (c * c)) + z) π)} := by
      refine List.ext_getElem? fun m => ?_
      by_cases hm : m < c * c * c
      · obtain ⟨f, ef, hok⟩ := hfile m hm
        have hsg := hok.segmentWidth hx hv
        rw [List.getElem?_map, ef, List.getElem?_map, List.getElem?_range hm, Option.map_some, Option.map_some,
          Option.some.injEq]
        unfold fileVisits
        simp only [coe_map_sum, hsg]
        rw [sum_visits (Int.natCast_nonneg _) (by omega) workers hw, ← Int.natCast_div,
          sum_tetras (sw / s) fun x y z d => ({visitTet s f (cubeVisit sw s x y z (d.val : ℤ))} : Multiset _)]
        refine Finset.sum_congr rfl fun x hx' => Finset.sum_congr rfl fun y hy' => Finset.sum_congr rfl fun z hz' => ?_
        rw [Finset.mem_range] at hx' hy' hz'
        rw [← Function.Bijective.sum_comp axisOrder_bij]
        exact Finset.sum_congr rfl fun d _ => by rw [visitTet_eq hs hok hsg hsd hx' hy' hz' d]
      · rw [List.getElem?_eq_none (by simp; omega), List.getElem?_eq_none (by simp; omega)]
    rw [hfs]
    rfl
  refine ⟨key, ?_⟩
  rw [key]
  simp only [Multiset.card_sum, Multiset.card_singleton, Finset.sum_const, Finset.card_range, Finset.card_univ,
    Fintype.card_perm, Fintype.card_fin, smul_eq_mul]
  simp [Nat.factorial]
  ring

/-- Two workers, 4 particles on a side in 2 cells on a side, without and with subsampling. -/
example (xs vs : List Vec) (hx : xs.length = 4 * 4 * 4) (hv : vs.length = 4 * 4 * 4) :
    ∃ files, writeGrids ⟨8, 64, 4, 1, 10⟩ 2 xs vs = some files ∧
      (files.map (fileVisits (1 : ℕ) 2)).sum.card = 384 ∧ (files.map (fileVisits (2 : ℕ) 2)).sum.card = 48 := by
  obtain ⟨f1, e1, -, c1⟩ := C88_each_once ⟨8, 64, 4, 1, 10⟩ 4 2 (by omega) (by omega) rfl (by decide) xs vs hx hv 1
    (by omega) (by decide) 2 (by omega)
  obtain ⟨f2, e2, -, c2⟩ := C88_each_once ⟨8, 64, 4, 1, 10⟩ 4 2 (by omega) (by omega) rfl (by decide) xs vs hx hv 2
    (by omega) (by decide) 2 (by omega)
  rw [e1, Option.some.injEq] at e2
  subst e2
  exact ⟨f1, e1, c1, c2⟩

end Verif.Main
