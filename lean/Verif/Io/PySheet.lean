import Verif.Io.PySheetModel
import Verif.Io.Sheet
import Mathlib.Tactic.Ring
import Mathlib.Tactic.Linarith

/-!
Property C120: what the Python reader of sheet files returns.
-/

set_option autoImplicit false

namespace Verif.Io

open Verif.Go

/-! ## Spec -/

/-- An array indexed by z, y and x holds the particles of a grid `n` wide, which the file lists with x moving fastest, up to
`m` on every axis. -/
def HoldsZYX (a : NpGrid) (n m : ℕ) (ps : List V3) : Prop :=
  a.dim = (m, m, m) ∧ ∀ ix iy iz, ix < m → iy < m → iz < m → a.get iz iy ix = ps[ix + iy * n + iz * (n * n)]? ∧
    (a.get iz iy ix).isSome

/-- The same for an array indexed by x, y and z, as documented. -/
def HoldsXYZ (a : NpGrid) (n m : ℕ) (ps : List V3) : Prop :=
  a.dim = (m, m, m) ∧ ∀ ix iy iz, ix < m → iy < m → iz < m → a.get ix iy iz = ps[ix + iy * n + iz * (n * n)]? ∧
    (a.get ix iy iz).isSome

/-! ## The reader -/

theorem npReshape_holds {ps : List V3} {n : ℕ} (h : ps.length = n ^ 3) : HoldsZYX (npReshape ps n) n n ps := by
  refine ⟨rfl, fun ix iy iz hx hy hz => ?_⟩
  have e : (iz * n + iy) * n + ix = ix + iy * n + iz * (n * n) := by ring
  have hlt : ix + iy * n + iz * (n * n) < ps.length := by
    rw [h]
    have h1 : iy * n + n ≤ n * n := by nlinarith
    have h2 : iz * (n * n) + n * n ≤ n * (n * n) := by nlinarith
    have h3 : n ^ 3 = n * (n * n) := by ring
    omega
  have g : (npReshape ps n).get iz iy ix = ps[ix + iy * n + iz * (n * n)]? := by
    show (if iz < n ∧ iy < n ∧ ix < n then ps[(iz * n + iy) * n + ix]? else none) = _
    rw [if_pos ⟨hz, hy, hx⟩, e]
  refine ⟨g, ?_⟩
  rw [g, List.getElem?_eq_getElem hlt]
  rfl

theorem init_holds {a : NpGrid} {n : ℕ} {ps : List V3} (h : HoldsZYX a n n ps) : HoldsZYX a.init n (n - 1) ps := by
  obtain ⟨hd, hg⟩ := h
  have hd' : a.init.dim = (n - 1, n - 1, n - 1) := by
    show (a.dim.1 - 1, a.dim.2.1 - 1, a.dim.2.2 - 1) = _
    rw [hd]
  refine ⟨hd', fun ix iy iz hx hy hz => ?_⟩
  have e : a.init.get iz iy ix = a.get iz iy ix := by
    show (if iz < a.dim.1 - 1 ∧ iy < a.dim.2.1 - 1 ∧ ix < a.dim.2.2 - 1 then a.get iz iy ix else none) = _
    rw [hd, if_pos ⟨hz, hy, hx⟩]
  rw [e]
  exact hg ix iy iz (by omega) (by omega) (by omega)

theorem pyVecs_ok {r : Rdr} {ps : List V3} {tail : List Byte} (h : r.rest = ps.flatMap (encV .le) ++ tail) :
    ∃ r', pyVecs r ps.length = .ok (ps, r') ∧ r'.rest = tail := by
  obtain ⟨r', e, _, q⟩ := Rdr.readFull_ok h (n := 12 * ps.length) (by rw [flatMap_length (encV_length .le)])
  refine ⟨r', ?_, q⟩
  unfold pyVecs
  refine Res.bind_ok e ?_
  dsimp only
  rw [ofMem_flatMap (encV_length .le) (decV_encV .le)]

theorem pyItem_words (ws : List (Word 8)) {i : ℕ} {w : Word 8} (h : ws[i]? = some w) :
    pyItem (ws.flatMap (encode .le 8)) i = w := by
  unfold pyItem
  induction ws generalizing i with
  | nil => simp at h
  | cons a ws ih =>
    cases i with
    | zero =>
      simp only [List.getElem?_cons_zero, Option.some.injEq] at h
      rw [List.flatMap_cons, Nat.mul_zero, List.drop_zero, take_app (encode_length _ _ _), decode_encode, h]
    | succ i =>
      rw [List.getElem?_cons_succ] at h
      rw [List.flatMap_cons, show 8 * (i + 1) = 8 + 8 * i by ring, ← List.drop_drop, drop_app (encode_length _ _ _)]
      exact ih h

theorem pyVecItem_words (ws : List V3) {i : ℕ} {w : V3} (h : ws[i]? = some w) :
    pyVecItem (ws.flatMap (encV .le)) i = w := by
  unfold pyVecItem
  induction ws generalizing i with
  | nil => simp at h
  | cons a ws ih =>
    cases i with
    | zero =>
      simp only [List.getElem?_cons_zero, Option.some.injEq] at h
      rw [List.flatMap_cons, Nat.mul_zero, List.drop_zero, take_app (encV_length _ _), decV_encV, h]
    | succ i =>
      rw [List.getElem?_cons_succ] at h
      rw [List.flatMap_cons, show 12 * (i + 1) = 12 + 12 * i by ring, ← List.drop_drop, drop_app (encV_length _ _)]
      exact ih h

/-- What the reader returns for a file of the writer. -/
theorem pyReadSheet_ok (h : SheetHeader) (xs vs : List V3) {n : ℕ} (hn : h.gridWidth.toInt = n) (hx : xs.length = n ^ 3)
    (hv : vs.length = n ^ 3) : pyReadSheet (sheetBytes .le h xs vs) = .ok {
      z := h.z, scale := h.omegaM, omegaM := h.omegaL, h100 := h.h100
      count := h.count, countWidth := h.countWidth, segmentWidth := h.segmentWidth, gridWidth := h.gridWidth
      gridCount := h.gridCount, fileIdx := h.idx, fileCells := h.cells, boxWidth := h.totalWidth
      xWidth := h.segmentWidth, xnWidth := h.gridWidth
      xOrigin := h.origin, xSpan := h.width, vOrigin := h.velocityOrigin, vSpan := h.velocityWidth
      x := (npReshape xs n).init, xn := npReshape xs n, v := (npReshape vs n).init, vn := npReshape vs n } := by
  have hb : sheetBytes .le h xs vs =
      (encode .le 4 (flagOf .le) ++ encode .le 4 (BitVec.ofNat (8 * 4) headerSize)) ++
      ([h.z, h.omegaM, h.omegaL, h.h100].flatMap (encode .le 8) ++
      ([h.count, h.countWidth, h.segmentWidth, h.gridWidth, h.gridCount, h.idx, h.cells].flatMap (encode .le 8) ++
      ([h.mass, h.totalWidth].flatMap (encode .le 8) ++
      ([h.origin, h.width].flatMap (encV .le) ++
      ([h.velocityOrigin, h.velocityWidth].flatMap (encV .le) ++
      (xs.flatMap (encV .le) ++ (vs.flatMap (encV .le) ++ []))))))) := by
    simp only [sheetBytes, encHeader, List.flatMap_cons, List.flatMap_nil, List.append_assoc, List.append_nil]
  obtain ⟨r1, e1, _, q1⟩ := Rdr.readFull_ok (r := ⟨sheetBytes .le h xs vs, 0⟩) (n := 8) hb
    (by simp [encode_length])
  obtain ⟨r2, e2, _, q2⟩ := Rdr.readFull_ok q1 (n := 4 * 8) (by rw [flatMap_length (encode_length .le 8)]; rfl)
  obtain ⟨r3, e3, _, q3⟩ := Rdr.readFull_ok q2 (n := 7 * 8) (by rw [flatMap_length (encode_length .le 8)]; rfl)
  obtain ⟨r4, e4, _, q4⟩ := Rdr.readFull_ok q3 (n := 2 * 8) (by rw [flatMap_length (encode_length .le 8)]; rfl)
  obtain ⟨r5, e5, _, q5⟩ := Rdr.readFull_ok q4 (n := 6 * 4) (by rw [flatMap_length (encV_length .le)]; rfl)
  obtain ⟨r6, e6, _, q6⟩ := Rdr.readFull_ok q5 (n := 6 * 4) (by rw [flatMap_length (encV_length .le)]; rfl)
  obtain ⟨r7, e7, q7⟩ := pyVecs_ok q6
  obtain ⟨r8, e8, _⟩ := pyVecs_ok q7
  unfold pyReadSheet
  refine Res.bind_ok e1 (Res.bind_ok e2 (Res.bind_ok e3 (Res.bind_ok e4 (Res.bind_ok e5 (Res.bind_ok e6 ?_)))))
  have hg : pyItem ([h.count, h.countWidth, h.segmentWidth, h.gridWidth, h.gridCount, h.idx, h.cells].flatMap
      (encode .le 8)) 3 = h.gridWidth := pyItem_words _ rfl
  have hp : ((n : ℤ) ^ 3).toNat = n ^ 3 := by
    rw [show ((n : ℤ) ^ 3) = ((n ^ 3 : ℕ) : ℤ) by push_cast; rfl, Int.toNat_natCast]
  dsimp only
  rw [hg, hn, if_neg (not_lt.mpr (by positivity)), hp]
  rw [hx] at e7
  rw [hv] at e8
  refine Res.bind_ok e7 (Res.bind_ok e8 ?_)
  dsimp only
  rw [Int.toNat_natCast, pyItem_words [h.z, h.omegaM, h.omegaL, h.h100] (i := 0) rfl,
    pyItem_words [h.z, h.omegaM, h.omegaL, h.h100] (i := 1) rfl,
    pyItem_words [h.z, h.omegaM, h.omegaL, h.h100] (i := 2) rfl,
    pyItem_words [h.z, h.omegaM, h.omegaL, h.h100] (i := 3) rfl,
    pyItem_words [h.count, h.countWidth, h.segmentWidth, h.gridWidth, h.gridCount, h.idx, h.cells] (i := 0) rfl,
    pyItem_words [h.count, h.countWidth, h.segmentWidth, h.gridWidth, h.gridCount, h.idx, h.cells] (i := 1) rfl,
    pyItem_words [h.count, h.countWidth, h.segmentWidth, h.gridWidth, h.gridCount, h.idx, h.cells] (i := 2) rfl,
    pyItem_words [h.count, h.countWidth, h.segmentWidth, h.gridWidth, h.gridCount, h.idx, h.cells] (i := 4) rfl,
    pyItem_words [h.count, h.countWidth, h.segmentWidth, h.gridWidth, h.gridCount, h.idx, h.cells] (i := 5) rfl,
    pyItem_words [h.count, h.countWidth, h.segmentWidth, h.gridWidth, h.gridCount, h.idx, h.cells] (i := 6) rfl,
    pyItem_words [h.mass, h.totalWidth] (i := 1) rfl,
    pyVecItem_words [h.origin, h.width] (i := 0) rfl,
    pyVecItem_words [h.origin, h.width] (i := 1) rfl,
    pyVecItem_words [h.velocityOrigin, h.velocityWidth] (i := 0) rfl,
    pyVecItem_words [h.velocityOrigin, h.velocityWidth] (i := 1) rfl]

theorem writeSheet_bytes (sys : Order) (h : SheetHeader) (xs vs : List V3) {n : ℕ} (hn : h.gridWidth.toInt = n)
    (hc : h.gridCount.toInt = n ^ 3) (hx : xs.length = n ^ 3) (hv : vs.length = n ^ 3) :
    ∃ xs' vs', writeSheet sys h xs vs = .ok (sheetBytes .le h xs vs, xs', vs') := by
  obtain ⟨xs', ex, -⟩ := writeVecAsByte_ok sys .le xs
  obtain ⟨vs', ev, -⟩ := writeVecAsByte_ok sys .le vs
  have hw : h.gridWidth * h.gridWidth * h.gridWidth = h.gridCount := by
    have e1 : h.gridWidth = BitVec.ofInt 64 n := by rw [← hn, BitVec.ofInt_toInt]
    have e2 : h.gridCount = BitVec.ofInt 64 (n ^ 3) := by rw [← hc, BitVec.ofInt_toInt]
    rw [e1, e2, ← BitVec.ofInt_mul, ← BitVec.ofInt_mul]
    congr 1
    ring
  refine ⟨xs', vs', ?_⟩
  unfold writeSheet
  rw [if_neg (not_not.mpr (by rw [hc, hx]; push_cast; rfl)), if_neg (not_not.mpr (by rw [hc, hv]; push_cast; rfl)),
    if_neg (not_not.mpr hw)]
  refine Res.bind_ok (a := Order.le) rfl (Res.bind_ok ex (Res.bind_ok ev ?_))
  simp only [sheetBytes, flagOf, List.append_assoc]

/-! ## Property C120 -/

/-- C120: of a sheet file the Python reader returns the redshift, the Hubble parameter, all counts and indices, the width of
the box and the bounds as they were written; `xn` and `vn` hold the particles in order z, y, x, and `x` and `v` those that
belong to no other file. The wanted statement has the order x, y, z, and the matter density. -/
theorem C120_sheet_partial (sys : Order) (h : SheetHeader) (xs vs : List V3) {n : ℕ} (hn : h.gridWidth.toInt = n)
    (hc : h.gridCount.toInt = n ^ 3) (hx : xs.length = n ^ 3) (hv : vs.length = n ^ 3) :
    ∃ file xs' vs' p, writeSheet sys h xs vs = .ok (file, xs', vs') ∧ pyReadSheet file = .ok p ∧
      (p.z = h.z ∧ p.h100 = h.h100 ∧ p.count = h.count ∧ p.countWidth = h.countWidth ∧ p.xWidth = h.segmentWidth ∧
        p.xnWidth = h.gridWidth ∧ p.gridCount = h.gridCount ∧ p.fileIdx = h.idx ∧ p.fileCells = h.cells ∧
        p.boxWidth = h.totalWidth ∧ p.xOrigin = h.origin ∧ p.xSpan = h.width ∧ p.vOrigin = h.velocityOrigin ∧
        p.vSpan = h.velocityWidth) ∧
      HoldsZYX p.xn n n xs ∧ HoldsZYX p.vn n n vs ∧ HoldsZYX p.x n (n - 1) xs ∧ HoldsZYX p.v n (n - 1) vs := by
  obtain ⟨xs', vs', e⟩ := writeSheet_bytes sys h xs vs hn hc hx hv
  exact ⟨sheetBytes .le h xs vs, xs', vs', _, e, pyReadSheet_ok h xs vs hn hx hv, by simp, npReshape_holds hx,
    npReshape_holds hv, init_holds (npReshape_holds hx), init_holds (npReshape_holds hv)⟩

/-- A file of two particles on a side. -/
def exHeader2 : SheetHeader :=
  ⟨1, 2, 3, 4, 99, 8, 1, 2, 8, 5, 6, 7, 8, ⟨1, 2, 3⟩, ⟨4, 5, 6⟩, ⟨7, 8, 9⟩, ⟨10, 11, 12⟩⟩

def exParticles : List V3 := (List.range 8).map fun i => ⟨BitVec.ofNat _ i, 0, 0⟩

example : ∃ file xs' vs' p, writeSheet .le exHeader2 exParticles exParticles = .ok (file, xs', vs') ∧
    pyReadSheet file = .ok p ∧ p.xn.get 1 0 0 = some ⟨4, 0, 0⟩ := by
  obtain ⟨f, x, v, p, h1, h2, -, h3, -⟩ := C120_sheet_partial .le exHeader2 exParticles exParticles (n := 2) (by decide)
    (by decide) rfl rfl
  refine ⟨f, x, v, p, h1, h2, ?_⟩
  rw [(h3.2 0 0 1 (by decide) (by decide) (by decide)).1]
  rfl

/-- C120: the documented order of the axes is wrong. -/
theorem C120_axes_counterexample : ∃ file xs' vs' p,
    writeSheet .le exHeader2 exParticles exParticles = .ok (file, xs', vs') ∧ pyReadSheet file = .ok p ∧
    ¬ HoldsXYZ p.xn 2 2 exParticles := by
  obtain ⟨f, x, v, p, h1, h2, -, h3, -⟩ := C120_sheet_partial .le exHeader2 exParticles exParticles (n := 2) (by decide)
    (by decide) rfl rfl
  refine ⟨f, x, v, p, h1, h2, fun h => ?_⟩
  have a := (h3.2 0 0 1 (by decide) (by decide) (by decide)).1
  have b := (h.2 1 0 0 (by decide) (by decide) (by decide)).1
  rw [a] at b
  revert b
  decide

/-- C120: `omega_m` is always the density of the dark energy, and the matter density is found under the name `scale`. -/
theorem C120_omega_counterexample (sys : Order) (h : SheetHeader) (xs vs : List V3) {n : ℕ} (hn : h.gridWidth.toInt = n)
    (hc : h.gridCount.toInt = n ^ 3) (hx : xs.length = n ^ 3) (hv : vs.length = n ^ 3) :
    ∃ file xs' vs' p, writeSheet sys h xs vs = .ok (file, xs', vs') ∧ pyReadSheet file = .ok p ∧
      p.omegaM = h.omegaL ∧ p.scale = h.omegaM := by
  obtain ⟨xs', vs', e⟩ := writeSheet_bytes sys h xs vs hn hc hx hv
  exact ⟨sheetBytes .le h xs vs, xs', vs', _, e, pyReadSheet_ok h xs vs hn hx hv, rfl, rfl⟩

example : exHeader2.omegaL ≠ exHeader2.omegaM := by decide

end Verif.Io
