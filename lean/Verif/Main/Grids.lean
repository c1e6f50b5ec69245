import Verif.Main.Segments

/-!
C80: the segment files written by `writeGrids` cover the elementary cubes of the periodic particle grid.
-/

set_option autoImplicit false

namespace Verif.Main
open Verif.Go Verif.Geom

/-! Specification. -/

/-- The file `f` contains, as local cube `(i, j, k)` of a segment `sw` cubes wide, the elementary cube of the
periodic particle grid `xs` with low corner `(X, Y, Z)`: its eight corner slots hold the eight particles. -/
def HasCube (N sw X Y Z : ℕ) (xs : List Vec) (f : SheetFile) (i j k : ℕ) : Prop :=
  i < sw ∧ j < sw ∧ k < sw ∧ ∀ di dj dk, di ≤ 1 → dj ≤ 1 → dk ≤ 1 →
    ∃ x, xs[particleAt N (X + di) (Y + dj) (Z + dk)]? = some x ∧
      f.xs[slot (sw + 1) (i + di) (j + dj) (k + dk)]? = some x

/-! Proof. -/

/-- What `writeGrids` makes of segment `m`. -/
structure FileOk (hd : Catalog) (N c sw m : ℕ) (xs vs : List Vec) (f : SheetFile) : Prop where
  name : f.name = sheetName ((m % c : ℕ) : ℤ) ((m / c % c : ℕ) : ℤ) ((m / (c * c) : ℕ) : ℤ)
  xblock : IsBlock N (sw + 1) (corner c sw m).1 (corner c sw m).2.1 (corner c sw m).2.2 xs f.xs
  vblock : IsBlock N (sw + 1) (corner c sw m).1 (corner c sw m).2.1 (corner c sw m).2.2 vs f.vs
  head : ∃ s0 xsS vsS, HeaderOk s0 N c sw m ∧ s0.totalWidth = hd.totalWidth ∧
    xsS.length = (sw + 1) * (sw + 1) * (sw + 1) ∧ vsS.length = (sw + 1) * (sw + 1) * (sw + 1) ∧
    copyToSegment s0 xs vs xsS vsS = some (f.header, f.xs, f.vs)

/-- The variables of `writeGrids` before segment `m`. -/
structure Written (hd : Catalog) (N c sw : ℕ) (xs vs : List Vec) (m : ℕ) (s : Writing) : Prop where
  cells : s.shd.cells = c
  countWidth : s.shd.countWidth = N
  segmentWidth : s.shd.segmentWidth = sw
  gridWidth : s.shd.gridWidth = sw + 1
  idx : s.shd.idx = m
  total : s.shd.totalWidth = hd.totalWidth
  xlen : s.xsSeg.length = (sw + 1) * (sw + 1) * (sw + 1)
  vlen : s.vsSeg.length = (sw + 1) * (sw + 1) * (sw + 1)
  flen : s.files.length = m
  file : ∀ n < m, ∃ f, s.files[n]? = some f ∧ FileOk hd N c sw n xs vs f

theorem write_step {hd : Catalog} {N c sw m : ℕ} {xs vs : List Vec} {s : Writing} {i j k : ℕ} (hN : 0 < N)
    (hc : 0 < c) (hf : sw * c ≤ N) (hx : xs.length = N * N * N) (hv : vs.length = N * N * N)
    (hi : i < c) (hj : j < c) (hk : k < c) (hm : m = slot c i j k) (h : Written hd N c sw xs vs m s) :
    ∃ s', (do
      let (shd, xsSeg, vsSeg) ← copyToSegment s.shd xs vs s.xsSeg s.vsSeg
      some (⟨{ shd with idx := shd.idx + 1 }, xsSeg, vsSeg,
        s.files ++ [⟨sheetName i j k, shd, xsSeg, vsSeg⟩]⟩ : Writing)) = some s' ∧
      Written hd N c sw xs vs (m + 1) s' := by
  have hin : m < c * c * c := by rw [hm]; exact slot_lt hi hj hk
  have hh : HeaderOk s.shd N c sw m := ⟨h.cells, h.countWidth, h.segmentWidth, h.gridWidth, h.idx, hN, hc, hf, hin⟩
  obtain ⟨shd', xs', vs', e, b1, b2, k1, k2, k3, k4, k5, k6⟩ :
      ∃ shd' xs' vs', copyToSegment s.shd xs vs s.xsSeg s.vsSeg = some (shd', xs', vs') ∧
        IsBlock N (sw + 1) (corner c sw m).1 (corner c sw m).2.1 (corner c sw m).2.2 xs xs' ∧
        IsBlock N (sw + 1) (corner c sw m).1 (corner c sw m).2.1 (corner c sw m).2.2 vs vs' ∧
        shd'.cells = s.shd.cells ∧ shd'.countWidth = s.shd.countWidth ∧ shd'.segmentWidth = s.shd.segmentWidth ∧
        shd'.gridWidth = s.shd.gridWidth ∧ shd'.idx = s.shd.idx ∧ shd'.totalWidth = s.shd.totalWidth := by
    obtain ⟨r, e, hr⟩ := copyToSegment_ok hh hx hv h.xlen h.vlen
    obtain ⟨b1, b2⟩ := hr.block hN hx hv
    exact ⟨_, _, _, e, b1, b2, rfl, rfl, rfl, rfl, rfl, rfl⟩
  refine ⟨⟨{ shd' with idx := shd'.idx + 1 }, xs', vs', s.files ++ [⟨sheetName i j k, shd', xs', vs'⟩]⟩,
    bind_of e rfl, ⟨k1.trans h.cells, k2.trans h.countWidth, k3.trans h.segmentWidth, k4.trans h.gridWidth, ?_,
      k6.trans h.total, b1.1, b2.1, by simp [h.flen], ?_⟩⟩
  · change shd'.idx + 1 = _
    rw [k5, h.idx]
    push_cast
    rfl
  · intro n hn
    by_cases en : n = m
    · refine ⟨⟨sheetName i j k, shd', xs', vs'⟩, ?_, ⟨?_, ?_, ?_, ⟨s.shd, s.xsSeg, s.vsSeg, ?_, h.total, h.xlen,
        h.vlen, e⟩⟩⟩
      · change (s.files ++ _)[n]? = _
        rw [en, List.getElem?_append_right (by rw [h.flen]), h.flen, Nat.sub_self]
        rfl
      · change sheetName i j k = _
        have e : slot c i j k = i + c * (j + c * k) := by unfold slot; ring
        have e1 : slot c i j k % c = i := by rw [e, Nat.add_mul_mod_self_left, Nat.mod_eq_of_lt hi]
        have e2 : slot c i j k / c = j + c * k := by
          rw [e, Nat.add_mul_div_left _ _ hc, Nat.div_eq_of_lt hi, zero_add]
        have e3 : slot c i j k / c % c = j := by rw [e2, Nat.add_mul_mod_self_left, Nat.mod_eq_of_lt hj]
        have e4 : slot c i j k / (c * c) = k := by
          rw [← Nat.div_div_eq_div_mul, e2, Nat.add_mul_div_left _ _ hc, Nat.div_eq_of_lt hj, zero_add]
        rw [en, hm, e1, e3, e4]
      · rw [en]; exact b1
      · rw [en]; exact b2
      · rw [en]; exact hh
    · obtain ⟨f, hf1, hf2⟩ := h.file n (by omega)
      refine ⟨f, ?_, hf2⟩
      rw [List.getElem?_append_left (by rw [h.flen]; omega)]
      exact hf1

/-- `writeGrids` succeeds and writes one file per segment. -/
theorem writeGrids_ok (hd : Catalog) (N c : ℕ) (hN : 0 < N) (hc : 0 < c) (hcw : hd.countWidth = N)
    (xs vs : List Vec) (hx : xs.length = N * N * N) (hv : vs.length = N * N * N) :
    ∃ files, writeGrids hd c xs vs = some files ∧ files.length = c * c * c ∧
      ∀ m < c * c * c, ∃ f, files[m]? = some f ∧ FileOk hd N c (N / c) m xs vs f := by
  have hsw : hd.countWidth.tdiv (c : ℤ) = ((N / c : ℕ) : ℤ) := by rw [hcw, Int.ofNat_tdiv]
  set sw := N / c with hswd
  have hf : sw * c ≤ N := Nat.div_mul_le_self N c
  have hg : (sheetHeader hd c).gridCount = (((sw + 1) * (sw + 1) * (sw + 1) : ℕ) : ℤ) := by
    unfold sheetHeader
    simp only [hsw]
    push_cast
    rfl
  have hg0 : ¬ (sheetHeader hd c).gridCount < 0 := by rw [hg]; exact not_lt.mpr (Int.natCast_nonneg _)
  obtain ⟨s, e, hs⟩ := forRange_nat (fun z s => Written hd N c sw xs vs (slot c 0 0 z) s) (lo := 0) (hi := c)
    (Nat.zero_le _)
    (fun z (s : Writing) =>
      forRange 0 c (fun y (s : Writing) =>
        forRange 0 c (fun x (s : Writing) => do
          let (shd, xsSeg, vsSeg) ← copyToSegment s.shd xs vs s.xsSeg s.vsSeg
          some ⟨{ shd with idx := shd.idx + 1 }, xsSeg, vsSeg, s.files ++ [⟨sheetName x y z, shd, xsSeg, vsSeg⟩]⟩)
          s) s)
    ⟨sheetHeader hd c, List.replicate (sheetHeader hd c).gridCount.toNat 0,
      List.replicate (sheetHeader hd c).gridCount.toNat 0, []⟩
    (by
      have hz : slot c 0 0 0 = 0 := by simp [slot]
      refine ⟨rfl, hcw, hsw, ?_, ?_, rfl, ?_, ?_, ?_, ?_⟩
      · change hd.countWidth.tdiv (c : ℤ) + 1 = _
        rw [hsw]
      · rw [hz]; rfl
      · rw [List.length_replicate, hg, Int.toNat_natCast]
      · rw [List.length_replicate, hg, Int.toNat_natCast]
      · rw [hz]; rfl
      · intro n hn
        rw [hz] at hn
        omega)
    (by
      intro z s _ hz hs
      obtain ⟨s', e, hs'⟩ := forRange_nat (fun y s => Written hd N c sw xs vs (slot c 0 y z) s) (lo := 0) (hi := c)
        (Nat.zero_le _)
        (fun y (s : Writing) =>
          forRange 0 c (fun x (s : Writing) => do
            let (shd, xsSeg, vsSeg) ← copyToSegment s.shd xs vs s.xsSeg s.vsSeg
            some ⟨{ shd with idx := shd.idx + 1 }, xsSeg, vsSeg,
              s.files ++ [⟨sheetName x y z, shd, xsSeg, vsSeg⟩]⟩) s) s hs
        (by
          intro y s _ hy hs
          obtain ⟨s', e, hs'⟩ := forRange_nat (fun x s => Written hd N c sw xs vs (slot c x y z) s) (lo := 0)
            (hi := c) (Nat.zero_le _)
            (fun x (s : Writing) => do
              let (shd, xsSeg, vsSeg) ← copyToSegment s.shd xs vs s.xsSeg s.vsSeg
              some ⟨{ shd with idx := shd.idx + 1 }, xsSeg, vsSeg,
                s.files ++ [⟨sheetName x y z, shd, xsSeg, vsSeg⟩]⟩) s hs
            (by
              intro x s _ hxc hs
              obtain ⟨s', e, hs'⟩ := write_step hN hc hf hx hv hxc hy hz rfl hs
              refine ⟨s', e, ?_⟩
              rwa [show slot c (x + 1) y z = slot c x y z + 1 by unfold slot; omega])
          refine ⟨s', e, ?_⟩
          rwa [show slot c 0 (y + 1) z = slot c c y z by unfold slot; rw [add_mul]; omega])
      refine ⟨s', e, ?_⟩
      rwa [show slot c 0 0 (z + 1) = slot c 0 c z by unfold slot; rw [add_mul]; omega])
  rw [show slot c 0 0 c = c * c * c by unfold slot; ring] at hs
  refine ⟨s.files, ?_, hs.flen, hs.file⟩
  unfold writeGrids
  rw [if_neg (by omega)]
  simp only
  rw [if_neg hg0]
  exact bind_of e rfl

theorem particleAt_inj {N X Y Z X' Y' Z' : ℕ} (hX : X < N) (hY : Y < N) (hX' : X' < N) (hY' : Y' < N)
    (hZ : Z < N) (hZ' : Z' < N) (h : particleAt N X Y Z = particleAt N X' Y' Z') : X = X' ∧ Y = Y' ∧ Z = Z' := by
  have hN : 0 < N := by omega
  unfold particleAt at h
  rw [Nat.mod_eq_of_lt hX, Nat.mod_eq_of_lt hY, Nat.mod_eq_of_lt hZ, Nat.mod_eq_of_lt hX', Nat.mod_eq_of_lt hY',
    Nat.mod_eq_of_lt hZ'] at h
  have e : ∀ a b d, a + b * N + d * (N * N) = a + N * (b + N * d) := by intro a b d; ring
  rw [e, e] at h
  have h1 := congrArg (· % N) h
  simp only [Nat.add_mul_mod_self_left, Nat.mod_eq_of_lt hX, Nat.mod_eq_of_lt hX'] at h1
  subst h1
  have h2 : Y + N * Z = Y' + N * Z' := Nat.eq_of_mul_eq_mul_left hN (by omega)
  have h3 := congrArg (· % N) h2
  simp only [Nat.add_mul_mod_self_left, Nat.mod_eq_of_lt hY, Nat.mod_eq_of_lt hY'] at h3
  subst h3
  exact ⟨rfl, rfl, Nat.eq_of_mul_eq_mul_left hN (by omega)⟩

/-- The low corner of a cube found in a file, when the particles of the grid are distinct. -/
theorem cube_corner {hd : Catalog} {N c sw m X Y Z i j k : ℕ} {xs vs : List Vec} {f : SheetFile} (hN : 0 < N)
    (hc : 0 < c) (hf : sw * c ≤ N) (hm : m < c * c * c) (hx : xs.length = N * N * N) (hd' : xs.Nodup)
    (h : FileOk hd N c sw m xs vs f) (hX : X < N) (hY : Y < N) (hZ : Z < N)
    (hq : HasCube N sw X Y Z xs f i j k) :
    X = sw * (m % c) + i ∧ Y = sw * (m / c % c) + j ∧ Z = sw * (m / (c * c)) + k := by
  obtain ⟨hi, hj, hk, hcorner⟩ := hq
  obtain ⟨x, e1, e2⟩ := hcorner 0 0 0 (by omega) (by omega) (by omega)
  obtain ⟨y, e3, e4⟩ := h.xblock.2 i j k (by omega) (by omega) (by omega)
  simp only [add_zero] at e1 e2
  rw [e4, Option.some.injEq] at e2
  subst e2
  obtain ⟨f1, f2, f3⟩ := corner_fits hc hf hm
  have hlt := particleAt_lt hN X Y Z
  have heq := (List.getElem?_inj (by omega) hd').mp (e1.trans e3.symm)
  have := particleAt_inj hX hY (by omega) (by omega) hZ (by omega) heq
  exact this

/-- C80 (partial): when the number of cells divides the width of the particle grid, every elementary cube of the
periodic grid is found in exactly one file and at exactly one place of it (for distinct particles, so that places
can be told apart). Missing: widths which the number of cells does not divide. -/
theorem C80_cover_partial (hd : Catalog) (N c : ℕ) (hN : 0 < N) (hc : 0 < c) (hcw : hd.countWidth = N)
    (hdvd : c ∣ N) (xs vs : List Vec) (hx : xs.length = N * N * N) (hv : vs.length = N * N * N) (hnd : xs.Nodup) :
    ∃ files, writeGrids hd c xs vs = some files ∧ files.length = c * c * c ∧
      ∀ X Y Z, X < N → Y < N → Z < N →
        ∃! q : ℕ × ℕ × ℕ × ℕ, ∃ f, files[q.1]? = some f ∧ HasCube N (N / c) X Y Z xs f q.2.1 q.2.2.1 q.2.2.2 := by
  obtain ⟨files, e, hl, hfile⟩ := writeGrids_ok hd N c hN hc hcw xs vs hx hv
  refine ⟨files, e, hl, fun X Y Z hX hY hZ => ?_⟩
  obtain ⟨sw, rfl⟩ := hdvd
  have hsw : 0 < sw := Nat.pos_of_mul_pos_left hN
  rw [Nat.mul_div_cancel_left _ hc] at hfile ⊢
  have hf : sw * c ≤ c * sw := by rw [mul_comm]
  have hdiv : ∀ A, A < c * sw → A / sw < c := fun A hA => (Nat.div_lt_iff_lt_mul hsw).mpr hA
  have key : ∀ m i j k f, m < c * c * c → files[m]? = some f → HasCube (c * sw) sw X Y Z xs f i j k →
      X = sw * (m % c) + i ∧ Y = sw * (m / c % c) + j ∧ Z = sw * (m / (c * c)) + k := by
    intro m i j k f hm ef hq
    obtain ⟨f', ef', hok⟩ := hfile m hm
    rw [ef', Option.some.injEq] at ef
    subst ef
    exact cube_corner hN hc hf hm hx hnd hok hX hY hZ hq
  set m0 := slot c (X / sw) (Y / sw) (Z / sw) with hm0
  have hs0 : m0 < c * c * c := slot_lt (hdiv X hX) (hdiv Y hY) (hdiv Z hZ)
  have e0 : m0 = X / sw + c * (Y / sw + c * (Z / sw)) := by rw [hm0]; unfold slot; ring
  have e1 : m0 % c = X / sw := by rw [e0, Nat.add_mul_mod_self_left, Nat.mod_eq_of_lt (hdiv X hX)]
  have e2 : m0 / c = Y / sw + c * (Z / sw) := by
    rw [e0, Nat.add_mul_div_left _ _ hc, Nat.div_eq_of_lt (hdiv X hX), zero_add]
  have e3 : m0 / c % c = Y / sw := by rw [e2, Nat.add_mul_mod_self_left, Nat.mod_eq_of_lt (hdiv Y hY)]
  have e4 : m0 / (c * c) = Z / sw := by
    rw [← Nat.div_div_eq_div_mul, e2, Nat.add_mul_div_left _ _ hc, Nat.div_eq_of_lt (hdiv Y hY), zero_add]
  refine ⟨(m0, X % sw, Y % sw, Z % sw), ?_, ?_⟩
  · obtain ⟨f, ef, hok⟩ := hfile m0 hs0
    refine ⟨f, ef, Nat.mod_lt _ hsw, Nat.mod_lt _ hsw, Nat.mod_lt _ hsw, ?_⟩
    intro di dj dk hdi hdj hdk
    have hlt := fun A => Nat.mod_lt A hsw
    obtain ⟨x, h1, h2⟩ := hok.xblock.2 (X % sw + di) (Y % sw + dj) (Z % sw + dk) (by have := hlt X; omega)
      (by have := hlt Y; omega) (by have := hlt Z; omega)
    refine ⟨x, ?_, h2⟩
    have ex : (corner c sw m0).1 + (X % sw + di) = X + di := by
      change sw * (m0 % c) + _ = _
      rw [e1, ← add_assoc, Nat.div_add_mod]
    have ey : (corner c sw m0).2.1 + (Y % sw + dj) = Y + dj := by
      change sw * (m0 / c % c) + _ = _
      rw [e3, ← add_assoc, Nat.div_add_mod]
    have ez : (corner c sw m0).2.2 + (Z % sw + dk) = Z + dk := by
      change sw * (m0 / (c * c)) + _ = _
      rw [e4, ← add_assoc, Nat.div_add_mod]
    rw [ex, ey, ez] at h1
    exact h1
  · rintro ⟨m, i, j, k⟩ ⟨f, ef, hq⟩
    simp only at ef hq
    have hm : m < c * c * c := by
      rw [← hl]
      exact (List.getElem?_eq_some_iff.mp ef).1
    obtain ⟨kx, ky, kz⟩ := key m i j k f hm ef hq
    obtain ⟨hi, hj, hk, -⟩ := hq
    have dm : ∀ A q r, r < sw → A = sw * q + r → A / sw = q ∧ A % sw = r := by
      intro A q r hr hA
      subst hA
      rw [Nat.mul_add_div hsw, Nat.div_eq_of_lt hr, add_zero, Nat.mul_add_mod, Nat.mod_eq_of_lt hr]
      exact ⟨rfl, rfl⟩
    obtain ⟨x1, x2⟩ := dm X _ _ hi kx
    obtain ⟨y1, y2⟩ := dm Y _ _ hj ky
    obtain ⟨z1, z2⟩ := dm Z _ _ hk kz
    have hmm : m = m0 := by
      rw [e0, x1, y1, z1, ← Nat.div_div_eq_div_mul, Nat.mod_add_div, Nat.mod_add_div]
    rw [hmm, x2, y2, z2]

/-- Counterexample to C80: whenever the number of cells does not divide the width of the particle grid, the last
elementary cube is in no file. -/
theorem C80_counterexample (hd : Catalog) (N c : ℕ) (hN : 0 < N) (hc : 0 < c) (hcw : hd.countWidth = N)
    (hdvd : ¬ c ∣ N) (xs vs : List Vec) (hx : xs.length = N * N * N) (hv : vs.length = N * N * N) (hnd : xs.Nodup) :
    ∃ files, writeGrids hd c xs vs = some files ∧
      ∀ f ∈ files, ∀ i j k, ¬ HasCube N (N / c) (N - 1) (N - 1) (N - 1) xs f i j k := by
  obtain ⟨files, e, hl, hfile⟩ := writeGrids_ok hd N c hN hc hcw xs vs hx hv
  refine ⟨files, e, fun f hfm i j k hq => ?_⟩
  obtain ⟨m, hm, ef⟩ := List.getElem_of_mem hfm
  have hm' : m < c * c * c := by omega
  obtain ⟨f', ef', hok⟩ := hfile m hm'
  rw [List.getElem?_eq_getElem hm, ef, Option.some.injEq] at ef'
  subst ef'
  obtain ⟨h1, -, -⟩ := cube_corner hN hc (Nat.div_mul_le_self N c) hm' hx hnd hok (by omega) (by omega) (by omega) hq
  have hi := hq.1
  have h2 : N / c * (m % c + 1) ≤ N / c * c := Nat.mul_le_mul_left _ (Nat.mod_lt _ hc)
  have h3 := Nat.div_add_mod N c
  have h4 : 0 < N % c := Nat.pos_of_ne_zero fun h => hdvd (Nat.dvd_of_mod_eq_zero h)
  rw [mul_comm c] at h3
  rw [mul_add, mul_one] at h2
  omega

/-- A grid of two particles on a side in two cells per side: distinct particles, eight files. -/
example : exGrid.Nodup ∧ exGrid.length = 2 * 2 * 2 ∧
    (writeGrids ⟨8, 8, 2, 1, 10⟩ 2 exGrid exGrid).map (fun fs => fs.map (·.name)) =
      some ["sheet000.dat", "sheet100.dat", "sheet010.dat", "sheet110.dat", "sheet001.dat", "sheet101.dat",
        "sheet011.dat", "sheet111.dat"] := by
  refine ⟨by decide +kernel, rfl, by decide +kernel⟩

end Verif.Main
