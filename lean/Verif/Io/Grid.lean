import Verif.Io.GridModel
import Verif.Io.Bytes
import Mathlib.Tactic.Ring
import Mathlib.Tactic.Linarith

/-!
# C65: grid files; C66: the endianness and version word; C98: the Python reader
-/

set_option autoImplicit false

namespace Verif.Io

open Verif.Go

/-! ## The header -/

theorem GridHeader.words_length (h : GridHeader) : h.words.length = 43 := rfl

theorem encGridHeader_length (h : GridHeader) : (encGridHeader h).length = 344 := by
  unfold encGridHeader
  rw [flatMap_length (encode_length .le 8), GridHeader.words_length]

theorem GridHeader.ofWords_words (h : GridHeader) : GridHeader.ofWords (fun i => h.words.getD i 0) = h := rfl

theorem decGridHeader_enc (h : GridHeader) (tail : List Byte) : decGridHeader (encGridHeader h ++ tail) = h := by
  have f : ∀ i, i < 43 → decode .le 8 (((encGridHeader h ++ tail).drop (8 * i)).take 8) = h.words.getD i 0 := by
    intro i hi
    have hw : h.words[i]? = some (h.words.getD i 0) := by
      rw [List.getD_eq_getElem?_getD, List.getElem?_eq_getElem (by rw [GridHeader.words_length]; exact hi)]
      rfl
    unfold encGridHeader
    rw [slice_flatMap (encode_length .le 8) _ _ hw, decode_encode]
  conv_rhs => rw [← GridHeader.ofWords_words h]
  unfold decGridHeader GridHeader.ofWords LocationInfo.ofWords
  simp only [f, Nat.reduceLT, Nat.reduceAdd]

/-! ## C66 -/

theorem bit_test (x : BitVec 64) (i : ℕ) : (1#64 &&& (x >>> i) = 1#64) ↔ x.getLsbD i = true := by
  constructor
  · intro h
    have := congrArg (fun y => y.getLsbD 0) h
    simpa using this
  · intro h
    apply BitVec.eq_of_getLsbD_eq
    intro j hj
    rw [BitVec.getLsbD_and, BitVec.getLsbD_ushiftRight, BitVec.getLsbD_one]
    by_cases h0 : j = 0
    · subst h0
      simp [h]
    · simp [h0]

theorem reverse_spec (x : BitVec 64) :
    ∃ y, reverse x = some y ∧ ∀ i, i < 64 → y.getLsbD i = x.getLsbD (63 - i) := by
  unfold reverse
  obtain ⟨y, e, h⟩ := forRange_nat (lo := 0) (hi := 64)
    (fun k y => ∀ i, i < 64 → y.getLsbD i = (decide (63 - i < k) && x.getLsbD (63 - i))) (by norm_num)
    (fun i out => some (if 1#64 &&& (x >>> i.toNat) = 1#64 then out ||| (1#64 <<< (63 - i.toNat)) else out)) 0
    (by intro i hi; simp) (by
      intro k y _ hk hy
      refine ⟨_, rfl, fun i hi => ?_⟩
      rw [Int.toNat_natCast]
      have hone : (1#64 <<< (63 - k)).getLsbD i = decide (i = 63 - k) := by
        rw [BitVec.getLsbD_shiftLeft, BitVec.getLsbD_one]
        by_cases e : i = 63 - k
        · subst e
          simp [hi]
        · by_cases l : i < 63 - k
          · simp [l, e]
          · have : i - (63 - k) ≠ 0 := by omega
            simp [this, e]
      by_cases hb : x.getLsbD k = true
      · rw [if_pos ((bit_test x k).mpr hb), BitVec.getLsbD_or, hy i hi, hone]
        by_cases e : i = 63 - k
        · have : 63 - i = k := by omega
          simp [e, show 63 - (63 - k) = k by omega, hb]
        · rw [show decide (i = 63 - k) = false by simpa using e, Bool.or_false,
            show decide (63 - i < k + 1) = decide (63 - i < k) by simp only [decide_eq_decide]; omega]
      · rw [if_neg (fun h => hb ((bit_test x k).mp h)), hy i hi]
        by_cases e : 63 - i = k
        · rw [e]
          simp [hb]
        · rw [show decide (63 - i < k + 1) = decide (63 - i < k) by simp only [decide_eq_decide]; omega])
  refine ⟨y, e, fun i hi => ?_⟩
  rw [h i hi]
  have : 63 - i < 64 := by omega
  simp [this]

/-- The flag is its own mirror image, which is why it can be recognised in both byte orders. -/
theorem C66_symmetric (version : BitVec 64) (o : Order) :
    ∃ flag, endiannessVersionFlag version o = some flag ∧
      ∀ i, i < 64 → flag.getLsbD i = flag.getLsbD (63 - i) := by
  obtain ⟨y, e, h⟩ := reverse_spec (version - 1)
  unfold endiannessVersionFlag
  rw [e]
  refine ⟨_, rfl, fun i hi => ?_⟩
  have h1 := h i hi
  have h2 := h (63 - i) (by omega)
  rw [show 63 - (63 - i) = i by omega] at h2
  have hi' : 63 - i < 64 := by omega
  cases o
  · simp only [if_true]
    rw [BitVec.getLsbD_not, BitVec.getLsbD_not, BitVec.getLsbD_or, BitVec.getLsbD_or, h1, h2, Bool.or_comm]
    simp [hi, hi']
  · simp only [reduceCtorEq, if_false]
    rw [BitVec.getLsbD_or, BitVec.getLsbD_or, h1, h2, Bool.or_comm]

/-- The low 32 bits of the flag. -/
theorem flag_low {v : ℕ} (h1 : 1 ≤ v) (h2 : v < 2 ^ 31) (o : Order) :
    ∃ flag, endiannessVersionFlag (BitVec.ofNat 64 v) o = some flag ∧
      flag.toNat % 2 ^ 32 = if o = .le then 2 ^ 32 - 1 - (v - 1) else v - 1 := by
  have hv : BitVec.ofNat 64 v - 1 = BitVec.ofNat 64 (v - 1) := by
    apply BitVec.eq_of_toNat_eq
    rw [BitVec.toNat_sub_of_le]
    · simp only [BitVec.toNat_ofNat]
      rw [Nat.mod_eq_of_lt (by omega), Nat.mod_eq_of_lt (by omega)]
      rfl
    · rw [BitVec.le_def]
      simp only [BitVec.toNat_ofNat]
      rw [Nat.mod_eq_of_lt (show v < 2 ^ 64 by omega)]
      exact h1
  obtain ⟨y, e, h⟩ := reverse_spec (BitVec.ofNat 64 (v - 1))
  unfold endiannessVersionFlag
  rw [hv, e]
  refine ⟨_, rfl, ?_⟩
  have hlow : (y ||| BitVec.ofNat 64 (v - 1)).toNat % 2 ^ 32 = v - 1 := by
    apply Nat.eq_of_testBit_eq
    intro i
    rw [Nat.testBit_mod_two_pow, BitVec.testBit_toNat, BitVec.getLsbD_or]
    by_cases hi : i < 32
    · rw [h i (by omega), BitVec.getLsbD_ofNat, BitVec.getLsbD_ofNat]
      have hz : (v - 1).testBit (63 - i) = false := Nat.testBit_lt_two_pow (lt_of_lt_of_le (by omega : v - 1 < 2 ^ 31)
        (Nat.pow_le_pow_right (by norm_num) (by omega)))
      rw [hz]
      simp [hi, show i < 64 by omega]
    · have hz : (v - 1).testBit i = false := Nat.testBit_lt_two_pow (lt_of_lt_of_le (by omega : v - 1 < 2 ^ 31)
        (Nat.pow_le_pow_right (by norm_num) (by omega)))
      rw [hz]
      simp [hi]
  cases o
  · simp only [if_true]
    rw [BitVec.toNat_not]
    have hlt := (y ||| BitVec.ofNat 64 (v - 1)).isLt
    omega
  · simp only [reduceCtorEq, if_false]
    exact hlow

/-- C66 for files in little endian order: the Python reader recovers byte order and version from the first eight bytes.
Missing: big endian files (`C66_big_endian_counterexample`). -/
theorem C66_little_endian_partial (v : ℕ) (h1 : 1 ≤ v) (h2 : v < 2 ^ 31) :
    ∃ flag, endiannessVersionFlag (BitVec.ofNat 64 v) .le = some flag ∧
      pyEndiannessVersion .le (encode .le 8 flag) = (-1, v) := by
  obtain ⟨flag, e, h⟩ := flag_low h1 h2 .le
  refine ⟨flag, e, ?_⟩
  simp only [if_true] at h
  unfold pyEndiannessVersion
  rw [decode_encode]
  dsimp only
  rw [h, if_pos (show (2 ^ 32 - 1 - (v - 1)) / 2 ^ 31 ≠ 0 by omega)]
  rw [if_pos (by norm_num), Prod.mk.injEq]
  exact ⟨rfl, by omega⟩

example : ∃ flag, endiannessVersionFlag 2 .le = some flag ∧ pyEndiannessVersion .le (encode .le 8 flag) = (-1, 2) :=
  C66_little_endian_partial 2 (by norm_num) (by norm_num)

/-- C66 fails for big endian files: even on a machine of that byte order the reader is off by one for every version. -/
theorem C66_big_endian_counterexample (v : ℕ) (h1 : 1 ≤ v) (h2 : v < 2 ^ 31) :
    ∃ flag, endiannessVersionFlag (BitVec.ofNat 64 v) .be = some flag ∧
      pyEndiannessVersion .be (encode .be 8 flag) = (0, v - 1) := by
  obtain ⟨flag, e, h⟩ := flag_low h1 h2 .be
  refine ⟨flag, e, ?_⟩
  simp only [reduceCtorEq, if_false] at h
  unfold pyEndiannessVersion
  rw [decode_encode]
  dsimp only
  rw [h, if_neg (show ¬ (v - 1) / 2 ^ 31 ≠ 0 by omega), if_neg (by norm_num)]

example : ∃ flag, endiannessVersionFlag 2 .be = some flag ∧ pyEndiannessVersion .be (encode .be 8 flag) = (0, 1) :=
  C66_big_endian_counterexample 2 (by norm_num) (by norm_num)

/-! ## C65 -/

/-- The header as `WriteBuffer` leaves it in the file. -/
def writtenHeader (flag quantity : Word 8) (cosmo : CosmoInfo) (render : RenderInfo) (loc : LocationInfo) : GridHeader :=
  ⟨flag, ⟨344, quantity, 0⟩, cosmo, render, loc, ⟨⟨0, 0, 0⟩, ⟨0, 0, 0⟩, ⟨0, 0, 0⟩, ⟨0, 0, 0⟩, 0⟩⟩

/-- The data after the header. -/
def Finalized.bytes : Finalized → List Byte
  | .scalar xs => xs.flatMap (encode .le 4)
  | .vector xs ys zs => xs.flatMap (encode .le 4) ++ (ys.flatMap (encode .le 4) ++ zs.flatMap (encode .le 4))
  | .neither => []

theorem writeBuffer_eq (quantity : Word 8) (buf : Finalized) (cosmo : CosmoInfo) (render : RenderInfo)
    (loc : LocationInfo) (hb : buf ≠ .neither) :
    ∃ flag, endiannessVersionFlag gridVersion .le = some flag ∧
      writeBuffer quantity buf cosmo render loc =
        .ok (encGridHeader (writtenHeader flag quantity cosmo render loc) ++ buf.bytes) := by
  obtain ⟨flag, e, _⟩ := flag_low (v := 2) (by norm_num) (by norm_num) .le
  refine ⟨flag, e, ?_⟩
  unfold writeBuffer
  refine Res.bind_ok (a := flag) (by rw [show endiannessVersionFlag gridVersion .le = some flag from e]; rfl) ?_
  cases buf with
  | scalar xs => rfl
  | vector xs ys zs =>
    dsimp only [Finalized.bytes]
    rw [List.append_assoc, List.append_assoc]
    rfl
  | neither => exact absurd rfl hb

/-- C65: `ReadGridHeader` gives back the quantity, cosmology, rendering parameters and location, and the size of the
header, for scalar and vector grids alike. -/
theorem C65_header (quantity : Word 8) (buf : Finalized) (cosmo : CosmoInfo) (render : RenderInfo)
    (loc : LocationInfo) {file : List Byte} (e : writeBuffer quantity buf cosmo render loc = .ok file) :
    ∃ hd, readGridHeader file = .ok hd ∧ hd.type.headerSize.toNat = 344 ∧ hd.type.gridType = quantity ∧
      hd.cosmo = cosmo ∧ hd.render = render ∧ hd.loc = loc := by
  have hb : buf ≠ .neither := by
    rintro rfl
    obtain ⟨flag, e', _⟩ := flag_low (v := 2) (by norm_num) (by norm_num) .le
    unfold writeBuffer at e
    rw [show endiannessVersionFlag gridVersion .le = some flag from e'] at e
    simp [Res.ofOption, bind, Res.bind] at e
  obtain ⟨flag, _, e'⟩ := writeBuffer_eq quantity buf cosmo render loc hb
  rw [e', Res.ok.injEq] at e
  subst e
  refine ⟨writtenHeader flag quantity cosmo render loc, ?_, rfl, rfl, rfl, rfl, rfl⟩
  obtain ⟨r, e1, _, _⟩ := Rdr.readFull_ok (r := ⟨_, 0⟩) (bytes := encGridHeader (writtenHeader flag quantity cosmo render loc))
    (tail := buf.bytes) rfl (encGridHeader_length _)
  unfold readGridHeader
  refine Res.bind_ok e1 ?_
  have := decGridHeader_enc (writtenHeader flag quantity cosmo render loc) []
  rw [List.append_nil] at this
  dsimp only
  rw [this]

/-- What `ReadGrid` does after `WriteBuffer`. -/
theorem readGrid_eq (widen : Word 4 → Word 8) (quantity : Word 8) (buf : Finalized) (cosmo : CosmoInfo)
    (render : RenderInfo) (loc : LocationInfo) {file : List Byte}
    (e : writeBuffer quantity buf cosmo render loc = .ok file) (hb : buf ≠ .neither) (n : ℕ)
    (hn : (loc.pixelSpan.a * loc.pixelSpan.b * loc.pixelSpan.c).toInt = n) :
    (buf.bytes.length < 4 * n → readGrid widen file = .err) ∧
    (∀ (xs : List (Word 4)) (tail : List Byte), buf.bytes = xs.flatMap (encode .le 4) ++ tail → xs.length = n →
      readGrid widen file = .ok (xs.map widen)) := by
  obtain ⟨flag, _, e'⟩ := writeBuffer_eq quantity buf cosmo render loc hb
  rw [e', Res.ok.injEq] at e
  subst e
  obtain ⟨r, e1, _, q1⟩ := Rdr.readFull_ok (r := ⟨_, 0⟩) (bytes := encGridHeader (writtenHeader flag quantity cosmo render loc))
    (tail := buf.bytes) rfl (encGridHeader_length _)
  have hd := decGridHeader_enc (writtenHeader flag quantity cosmo render loc) []
  rw [List.append_nil] at hd
  have hnn : (loc.pixelSpan.a * loc.pixelSpan.b * loc.pixelSpan.c).toNat = n := by
    have h := hn
    rw [BitVec.toInt_eq_toNat_cond] at h
    split_ifs at h with hc
    · exact_mod_cast h
    · have hlt := (loc.pixelSpan.a * loc.pixelSpan.b * loc.pixelSpan.c).isLt
      omega
  constructor
  · intro hl
    unfold readGrid
    refine Res.bind_ok e1 ?_
    dsimp only
    rw [hd, if_neg (show ¬ (writtenHeader flag quantity cosmo render loc).type.isVectorGrid = 1 from
      show ¬ (0 : Word 8) = 1 by decide), show (writtenHeader flag quantity cosmo render loc).loc = loc from rfl,
      if_neg (by rw [hn]; omega), hnn]
    have : r.readFull (4 * n) = .err := by
      unfold Rdr.readFull
      rw [if_neg]
      intro hc
      rw [show List.drop r.pos r.data = r.rest from rfl, q1, List.length_take] at hc
      omega
    rw [this]
    rfl
  · intro xs tail hx hl
    rw [hx] at q1
    obtain ⟨r2, e2, _, _⟩ := Rdr.readFull_ok q1 (n := 4 * n) (by rw [flatMap_length (encode_length .le 4), hl])
    unfold readGrid
    refine Res.bind_ok e1 ?_
    dsimp only
    rw [hd, if_neg (show ¬ (writtenHeader flag quantity cosmo render loc).type.isVectorGrid = 1 from
      show ¬ (0 : Word 8) = 1 by decide), show (writtenHeader flag quantity cosmo render loc).loc = loc from rfl,
      if_neg (by rw [hn]; omega), hnn]
    refine Res.bind_ok e2 ?_
    dsimp only
    rw [← hl, ofMem_flatMap (encode_length .le 4) (decode_encode .le 4)]

/-- C65 for scalar grids that are not projected: `ReadGrid` gives back the values, converted to double precision.
Missing: projected grids (`C65_projection_counterexample`) and the flag of vector grids
(`C65_vector_counterexample`). -/
theorem C65_scalar_partial (widen : Word 4 → Word 8) (quantity : Word 8) (xs : List (Word 4)) (cosmo : CosmoInfo)
    (render : RenderInfo) (loc : LocationInfo)
    (hn : (loc.pixelSpan.a * loc.pixelSpan.b * loc.pixelSpan.c).toInt = xs.length) :
    ∃ file, writeBuffer quantity (.scalar xs) cosmo render loc = .ok file ∧ readGrid widen file = .ok (xs.map widen) := by
  obtain ⟨flag, _, e⟩ := writeBuffer_eq quantity (.scalar xs) cosmo render loc (by simp)
  exact ⟨_, e, (readGrid_eq widen quantity _ cosmo render loc e (by simp) _ hn).2 xs [] (by simp [Finalized.bytes]) rfl⟩

/-- C65 fails for projected grids: the file is one layer thick but `ReadGrid` expects all layers, and reports an error. -/
theorem C65_projection_counterexample (widen : Word 4 → Word 8) (quantity : Word 8) (xs : List (Word 4))
    (cosmo : CosmoInfo) (render : RenderInfo) (loc : LocationInfo) (n : ℕ)
    (hn : (loc.pixelSpan.a * loc.pixelSpan.b * loc.pixelSpan.c).toInt = n) (hl : xs.length < n) :
    ∃ file, writeBuffer quantity (.scalar xs) cosmo render loc = .ok file ∧ readGrid widen file = .err := by
  obtain ⟨flag, _, e⟩ := writeBuffer_eq quantity (.scalar xs) cosmo render loc (by simp)
  refine ⟨_, e, (readGrid_eq widen quantity _ cosmo render loc e (by simp) n hn).1 ?_⟩
  rw [Finalized.bytes, flatMap_length (encode_length .le 4)]
  omega

/-- C65 fails for vector grids: the header always says that the grid is scalar, and `ReadGrid` returns the first
component as if it were the grid, without an error. -/
theorem C65_vector_counterexample (widen : Word 4 → Word 8) (quantity : Word 8) (xs ys zs : List (Word 4))
    (cosmo : CosmoInfo) (render : RenderInfo) (loc : LocationInfo)
    (hn : (loc.pixelSpan.a * loc.pixelSpan.b * loc.pixelSpan.c).toInt = xs.length) :
    ∃ file hd, writeBuffer quantity (.vector xs ys zs) cosmo render loc = .ok file ∧ readGridHeader file = .ok hd ∧
      hd.type.isVectorGrid = 0 ∧ readGrid widen file = .ok (xs.map widen) := by
  obtain ⟨flag, _, e⟩ := writeBuffer_eq quantity (.vector xs ys zs) cosmo render loc (by simp)
  refine ⟨_, writtenHeader flag quantity cosmo render loc, e, ?_, rfl,
    (readGrid_eq widen quantity _ cosmo render loc e (by simp) _ hn).2 xs _ rfl rfl⟩
  obtain ⟨r, e1, _, _⟩ := Rdr.readFull_ok (r := ⟨_, 0⟩) (bytes := encGridHeader (writtenHeader flag quantity cosmo render loc))
    (tail := (Finalized.vector xs ys zs).bytes) rfl (encGridHeader_length _)
  unfold readGridHeader
  refine Res.bind_ok e1 ?_
  have := decGridHeader_enc (writtenHeader flag quantity cosmo render loc) []
  rw [List.append_nil] at this
  dsimp only
  rw [this]

/-- A location with 2 x 1 x 3 pixels. -/
def exLoc : LocationInfo := ⟨⟨0, 0, 0⟩, ⟨7, 7, 7⟩, ⟨0, 0, 0⟩, ⟨2, 1, 3⟩, 9⟩

/-- Parameters with the given projection axis. -/
def exRender (axis : Word 8) : RenderInfo := ⟨25, 100, 1, 1, axis⟩

example : ∃ file, writeBuffer 0 (.scalar [1, 2, 3, 4, 5, 6]) ⟨1, 2, 3, 4, 5, 6, 7, 8⟩ (exRender (-1)) exLoc = .ok file ∧
    readGrid (fun x => x.setWidth 64) file = .ok [1, 2, 3, 4, 5, 6] :=
  C65_scalar_partial (fun x => x.setWidth 64) 0 [1, 2, 3, 4, 5, 6] ⟨1, 2, 3, 4, 5, 6, 7, 8⟩ (exRender (-1)) exLoc (by decide)

example : ∃ file, writeBuffer 0 (.scalar [1, 2]) ⟨1, 2, 3, 4, 5, 6, 7, 8⟩ (exRender 2) exLoc = .ok file ∧
    readGrid (fun x => x.setWidth 64) file = .err :=
  C65_projection_counterexample (fun x => x.setWidth 64) 0 [1, 2] ⟨1, 2, 3, 4, 5, 6, 7, 8⟩ (exRender 2) exLoc 6
    (by decide) (by decide)

/-! ## C98 -/

/-- Number of pixels of an image: all three dimensions, or the two that are left by a projection. -/
def pixels (axis : ℤ) (dim : W3) : ℤ :=
  if axis = -1 then dim.a.toInt * dim.b.toInt * dim.c.toInt
  else if axis = 0 then dim.b.toInt * dim.c.toInt
  else if axis = 1 then dim.a.toInt * dim.c.toInt
  else dim.a.toInt * dim.b.toInt

theorem pyCount_eq {axis : ℤ} (h0 : -1 ≤ axis) (h1 : axis ≤ 2) (dim : W3) : pyCount axis dim = pixels axis dim := by
  unfold pyCount pixels
  obtain rfl | rfl | rfl | rfl : axis = -1 ∨ axis = 0 ∨ axis = 1 ∨ axis = 2 := by omega
  all_goals norm_num

theorem pyFromFile_ok {r : Rdr} {xs : List (Word 4)} {tail : List Byte} (h : r.rest = xs.flatMap (encode .le 4) ++ tail) :
    ∃ r', pyFromFile r xs.length = .ok (xs, r') ∧ r'.rest = tail := by
  obtain ⟨r', e, _, q⟩ := Rdr.readFull_ok h (n := 4 * xs.length) (by rw [flatMap_length (encode_length .le 4)])
  refine ⟨r', ?_, q⟩
  unfold pyFromFile
  refine Res.bind_ok e ?_
  dsimp only
  rw [ofMem_flatMap (encode_length .le 4) (decode_encode .le 4)]

/-- The steps of the Python reader up to the data. -/
theorem pyReadGrid_eq (quantity : Word 8) (buf : Finalized) (cosmo : CosmoInfo) (render : RenderInfo)
    (loc : LocationInfo) (hb : buf ≠ .neither)
    (h0 : -1 ≤ render.projectionAxis.toInt) (h1 : render.projectionAxis.toInt ≤ 2) (n : ℕ)
    (hn : pixels render.projectionAxis.toInt loc.pixelSpan = n) :
    ∃ file r, writeBuffer quantity buf cosmo render loc = .ok file ∧ r.rest = buf.bytes ∧
      pyReadGrid file = (if ¬ (quantity = 0 ∨ quantity = 3) then do
        let (xs, r) ← pyFromFile r n
        let (ys, r) ← pyFromFile r n
        let (zs, _) ← pyFromFile r n
        Res.ok (.vector xs ys zs)
      else do
        let (xs, _) ← pyFromFile r n
        Res.ok (.scalar xs)) := by
  obtain ⟨flag, ef, e⟩ := writeBuffer_eq quantity buf cosmo render loc hb
  obtain ⟨flag', ef', hpy⟩ := C66_little_endian_partial 2 (by norm_num) (by norm_num)
  have : flag' = flag := by
    have : some flag' = some flag := ef'.symm.trans ef
    exact Option.some.inj this
  subst this
  set hd := writtenHeader flag' quantity cosmo render loc with hhd
  have hsplit : encGridHeader hd ++ buf.bytes = encode .le 8 flag' ++ ((hd.words.drop 1).flatMap (encode .le 8) ++ buf.bytes) := by
    rw [← List.append_assoc]
    rfl
  obtain ⟨r1, e1, _, q1⟩ := Rdr.readFull_ok (r := ⟨encGridHeader hd ++ buf.bytes, 0⟩) hsplit (encode_length .le 8 flag')
  obtain ⟨r2, e2, _, q2⟩ := Rdr.readFull_ok q1 (n := 336) (by
    rw [flatMap_length (encode_length .le 8)]
    rfl)
  refine ⟨_, r2, e, q2, ?_⟩
  have hdec : decGridHeader (encode .le 8 flag' ++ (hd.words.drop 1).flatMap (encode .le 8)) = hd := by
    have := decGridHeader_enc hd []
    rw [List.append_nil] at this
    exact this
  unfold pyReadGrid
  refine Res.bind_ok e1 ?_
  dsimp only
  rw [hpy]
  dsimp only
  rw [if_neg (by norm_num)]
  refine Res.bind_ok e2 ?_
  dsimp only
  rw [hdec, show hd.render = render from rfl, show hd.loc = loc from rfl, show hd.type.gridType = quantity from rfl,
    pyCount_eq h0 h1, hn, if_neg (by omega), Int.toNat_natCast]

/-- C98: the Python reader returns the values of every scalar grid (density and velocity divergence), projected along
any axis or not. -/
theorem C98_scalar (quantity : Word 8) (hq : quantity = 0 ∨ quantity = 3) (xs : List (Word 4)) (cosmo : CosmoInfo)
    (render : RenderInfo) (loc : LocationInfo)
    (h0 : -1 ≤ render.projectionAxis.toInt) (h1 : render.projectionAxis.toInt ≤ 2)
    (hn : pixels render.projectionAxis.toInt loc.pixelSpan = xs.length) :
    ∃ file, writeBuffer quantity (.scalar xs) cosmo render loc = .ok file ∧ pyReadGrid file = .ok (.scalar xs) := by
  obtain ⟨file, r, e, q, hp⟩ := pyReadGrid_eq quantity (.scalar xs) cosmo render loc (by simp) h0 h1 _ hn
  obtain ⟨r', e', _⟩ := pyFromFile_ok (r := r) (xs := xs) (tail := []) (by rw [q]; simp [Finalized.bytes])
  refine ⟨file, e, ?_⟩
  rw [hp, if_neg (not_not.mpr hq)]
  exact Res.bind_ok e' rfl

/-- C98: the Python reader returns the three components of every vector grid. -/
theorem C98_vector (quantity : Word 8) (hq : ¬ (quantity = 0 ∨ quantity = 3)) (xs ys zs : List (Word 4))
    (cosmo : CosmoInfo) (render : RenderInfo) (loc : LocationInfo)
    (h0 : -1 ≤ render.projectionAxis.toInt) (h1 : render.projectionAxis.toInt ≤ 2)
    (hn : pixels render.projectionAxis.toInt loc.pixelSpan = xs.length) (hy : ys.length = xs.length)
    (hz : zs.length = xs.length) :
    ∃ file, writeBuffer quantity (.vector xs ys zs) cosmo render loc = .ok file ∧
      pyReadGrid file = .ok (.vector xs ys zs) := by
  obtain ⟨file, r, e, q, hp⟩ := pyReadGrid_eq quantity (.vector xs ys zs) cosmo render loc (by simp) h0 h1 _ hn
  obtain ⟨r1, e1, q1⟩ := pyFromFile_ok (r := r) (xs := xs) q
  obtain ⟨r2, e2, q2⟩ := pyFromFile_ok q1
  obtain ⟨r3, e3, _⟩ := pyFromFile_ok (r := r2) (xs := zs) (tail := []) (by rw [q2]; simp)
  rw [hy] at e2
  rw [hz] at e3
  refine ⟨file, e, ?_⟩
  rw [hp, if_pos hq]
  exact Res.bind_ok e1 (Res.bind_ok e2 (Res.bind_ok e3 rfl))

example : ∃ file, writeBuffer 0 (.scalar [1, 2]) ⟨1, 2, 3, 4, 5, 6, 7, 8⟩ (exRender 2) exLoc = .ok file ∧
    pyReadGrid file = .ok (.scalar [1, 2]) :=
  C98_scalar 0 (.inl rfl) [1, 2] ⟨1, 2, 3, 4, 5, 6, 7, 8⟩ (exRender 2) exLoc (by decide) (by decide) (by decide)

end Verif.Io
