import Verif.Io.Bytes

/-!
# C62: sheet files round-trip; C63: damaged sheet files
-/

set_option autoImplicit false

namespace Verif.Io

open Verif.Go

theorem encHeader_length (o : Order) (h : SheetHeader) : (encHeader o h).length = 152 := by
  unfold encHeader
  rw [List.length_append, flatMap_length (encode_length o 8), flatMap_length (encV_length o)]
  rfl

theorem decHeader_encHeader (o : Order) (h : SheetHeader) : decHeader o (encHeader o h) = h := by
  have f : ∀ (i : ℕ) (w : Word 8), [h.z, h.omegaM, h.omegaL, h.h100, h.count, h.countWidth, h.segmentWidth, h.gridWidth,
      h.gridCount, h.idx, h.cells, h.mass, h.totalWidth][i]? = some w →
      decode o 8 (((encHeader o h).drop (8 * i)).take 8) = w := by
    intro i w hw
    unfold encHeader
    rw [slice_flatMap (encode_length o 8) _ _ hw, decode_encode]
  have v : ∀ (i : ℕ) (w : V3), [h.origin, h.width, h.velocityOrigin, h.velocityWidth][i]? = some w →
      decV o (((encHeader o h).drop (104 + 12 * i)).take 12) = w := by
    intro i w hw
    unfold encHeader
    rw [← List.drop_drop, drop_app (by rw [flatMap_length (encode_length o 8)]; rfl)]
    have := slice_flatMap (encV_length o) _ [] hw
    rw [List.append_nil] at this
    rw [this, decV_encV]
  unfold decHeader
  dsimp only
  rw [f 0 _ rfl, f 1 _ rfl, f 2 _ rfl, f 3 _ rfl, f 4 _ rfl, f 5 _ rfl, f 6 _ rfl, f 7 _ rfl, f 8 _ rfl, f 9 _ rfl,
    f 10 _ rfl, f 11 _ rfl, f 12 _ rfl, v 0 _ rfl, v 1 _ rfl, v 2 _ rfl, v 3 _ rfl]

/-- The flag stored for a byte order. -/
def flagOf (o : Order) : Word 4 :=
  match o with
  | .le => 0
  | .be => -1

theorem endianness_flagOf (o : Order) : endianness (flagOf o) = .ok o := by
  cases o <;> rfl

/-- The flag bytes are the same in both byte orders. -/
theorem encode_flagOf (o : Order) : encode .le 4 (flagOf o) = encode o 4 (flagOf o) := by
  cases o
  · rfl
  · decide

/-- Layout of a sheet file. -/
def sheetBytes (o : Order) (h : SheetHeader) (xs vs : List V3) : List Byte :=
  encode o 4 (flagOf o) ++ (encode o 4 (BitVec.ofNat (8 * 4) headerSize) ++ (encHeader o h ++
    (xs.flatMap (encV o) ++ vs.flatMap (encV o))))

/-- The header as the reader returns it. -/
def withCount (h : SheetHeader) : SheetHeader := { h with count := h.countWidth * h.countWidth * h.countWidth }

theorem readSheetHeader_ok (o : Order) (h : SheetHeader) (tail : List Byte) :
    ∃ r : Rdr, readSheetHeader (encode o 4 (flagOf o) ++ (encode o 4 (BitVec.ofNat (8 * 4) headerSize) ++
      (encHeader o h ++ tail))) = .ok (withCount h, r, o) ∧
      r.data = encode o 4 (flagOf o) ++ (encode o 4 (BitVec.ofNat (8 * 4) headerSize) ++ (encHeader o h ++ tail)) := by
  set file := encode o 4 (flagOf o) ++ (encode o 4 (BitVec.ofNat (8 * 4) headerSize) ++ (encHeader o h ++ tail)) with hf
  have h0 : (⟨file, 0⟩ : Rdr).rest = encode .le 4 (flagOf o) ++
      (encode o 4 (BitVec.ofNat (8 * 4) headerSize) ++ (encHeader o h ++ tail)) := by
    rw [encode_flagOf]
    exact hf
  obtain ⟨r1, e1, d1, q1⟩ := readInt32_ok h0
  obtain ⟨r2, e2, d2, q2⟩ := readInt32_ok q1
  have h3 : (r2.seek (4 + 4)).rest = encHeader o h ++ tail := by
    show r2.data.drop 8 = _
    rw [d2, d1]
    show file.drop (4 + 4) = _
    rw [hf, ← List.drop_drop, drop_app (encode_length _ _ _), drop_app (encode_length _ _ _)]
  obtain ⟨r3, e3, d3, q3⟩ := Rdr.readFull_ok h3 (encHeader_length o h)
  refine ⟨r3, ?_, ?_⟩
  · unfold readSheetHeader
    refine Res.bind_ok e1 (Res.bind_ok (endianness_flagOf o) (Res.bind_ok e2 ?_))
    dsimp only
    rw [if_neg (by simp)]
    refine Res.bind_ok e3 ?_
    dsimp only
    rw [decHeader_encHeader]
    rfl
  · rw [d3]
    show r2.data = _
    rw [d2, d1]

theorem writeVecAsByte_ok (sys o : Order) (vs : List V3) :
    ∃ vs', writeVecAsByte sys o vs = .ok (vs.flatMap (encV o), vs') ∧ (sys = o → vs' = vs) := by
  unfold writeVecAsByte
  simp only [isSysOrder_iff]
  by_cases ho : sys = o
  · subst ho
    refine ⟨vs, ?_, fun _ => rfl⟩
    simp only [decide_true, Bool.true_eq_false, if_false]
    refine Res.bind_ok rfl ?_
    rw [ofMem_flatMap (encV_length sys) (decV_encV sys)]
  · refine ⟨ofMem 12 (decV sys) vs.length (vs.flatMap (encV o)), ?_, fun h => absurd h ho⟩
    simp only [ho, decide_false, if_true]
    rw [swap_vecs ho]
    exact Res.bind_ok rfl rfl

theorem ofNat_of_toInt {w : Word 8} {n : ℕ} (h : w.toInt = n) : w = BitVec.ofNat (8 * 8) n := by
  rw [← BitVec.ofInt_natCast, ← h, BitVec.ofInt_toInt]

/-- Positions of a sheet file of either byte order. -/
theorem readPositions_ok (sys o : Order) (h : SheetHeader) (xs vs buf : List V3) (hn : h.gridCount.toInt = xs.length)
    (hb : buf.length = xs.length) : readSheetPositionsAt sys (sheetBytes o h xs vs) buf = .ok xs := by
  obtain ⟨r, e, hd⟩ := readSheetHeader_ok o h (xs.flatMap (encV o) ++ vs.flatMap (encV o))
  have hr : (r.seek (4 + 4 + headerSize)).rest = xs.flatMap (encV o) ++ vs.flatMap (encV o) := by
    show r.data.drop (4 + 4 + headerSize) = _
    rw [hd, ← List.drop_drop, ← List.drop_drop, drop_app (encode_length _ _ _), drop_app (encode_length _ _ _),
      drop_app (n := headerSize) (encHeader_length _ _)]
  obtain ⟨r', e', _, _⟩ := C64_vec (sys := sys) hr hb
  unfold readSheetPositionsAt sheetBytes
  rw [e]
  dsimp only
  rw [if_neg (not_not.mpr (by rw [hb]; exact ofNat_of_toInt hn))]
  exact Res.bind_ok e' rfl

/-- Velocities of a sheet file of either byte order. -/
theorem readVelocities_ok (sys o : Order) (h : SheetHeader) (xs vs buf : List V3) (hx : xs.length = vs.length)
    (hn : h.gridCount.toInt = vs.length) (hb : buf.length = vs.length) :
    readSheetVelocitiesAt sys (sheetBytes o h xs vs) buf = .ok vs := by
  obtain ⟨r, e, hd⟩ := readSheetHeader_ok o h (xs.flatMap (encV o) ++ vs.flatMap (encV o))
  have hr : (r.seek (4 + 4 + headerSize + 3 * 4 * buf.length)).rest = vs.flatMap (encV o) ++ [] := by
    show r.data.drop (4 + 4 + headerSize + 3 * 4 * buf.length) = _
    rw [hd, ← List.drop_drop, ← List.drop_drop, ← List.drop_drop, drop_app (encode_length _ _ _),
      drop_app (encode_length _ _ _), drop_app (n := headerSize) (encHeader_length _ _),
      drop_app (by rw [flatMap_length (encV_length o), hb, hx]), List.append_nil]
  obtain ⟨r', e', _, _⟩ := C64_vec (sys := sys) hr hb
  unfold readSheetVelocitiesAt sheetBytes
  refine Res.bind_ok e ?_
  dsimp only
  rw [if_neg (not_not.mpr (by rw [hb]; exact ofNat_of_toInt hn))]
  exact Res.bind_ok e' rfl

/-- Writing a sheet and reading it back, on machines of either byte order (possibly different ones): the header comes
back with `Count = CountWidth³`, positions and velocities come back unchanged whatever the buffers contained. On a
little endian machine the caller's slices are unchanged too. -/
theorem C62_roundtrip (sysW sysR : Order) (h : SheetHeader) (xs vs xBuf vBuf : List V3)
    (hx : h.gridCount.toInt = xs.length) (hv : h.gridCount.toInt = vs.length)
    (hw : h.gridWidth * h.gridWidth * h.gridWidth = h.gridCount)
    (hxb : xBuf.length = xs.length) (hvb : vBuf.length = vs.length) :
    ∃ file xs' vs', writeSheet sysW h xs vs = .ok (file, xs', vs') ∧
      readSheetHeaderAt file = .ok { h with count := h.countWidth * h.countWidth * h.countWidth } ∧
      readSheetPositionsAt sysR file xBuf = .ok xs ∧
      readSheetVelocitiesAt sysR file vBuf = .ok vs ∧
      (sysW = .le → xs' = xs ∧ vs' = vs) := by
  obtain ⟨xs', ex, ux⟩ := writeVecAsByte_ok sysW .le xs
  obtain ⟨vs', ev, uv⟩ := writeVecAsByte_ok sysW .le vs
  refine ⟨sheetBytes .le h xs vs, xs', vs', ?_, ?_, ?_, ?_, fun hs => ⟨ux hs, uv hs⟩⟩
  · unfold writeSheet
    rw [if_neg (not_not.mpr hx), if_neg (not_not.mpr hv), if_neg (not_not.mpr hw)]
    refine Res.bind_ok (a := Order.le) rfl (Res.bind_ok ex (Res.bind_ok ev ?_))
    simp only [sheetBytes, flagOf, List.append_assoc]
  · obtain ⟨r, e, _⟩ := readSheetHeader_ok .le h (xs.flatMap (encV .le) ++ vs.flatMap (encV .le))
    exact Res.bind_ok e rfl
  · exact readPositions_ok sysR .le h xs vs xBuf hx hxb
  · have : (xs.length : ℤ) = vs.length := hx.symm.trans hv
    exact readVelocities_ok sysR .le h xs vs vBuf (by exact_mod_cast this) hv hvb

/-- A header used in the examples: one grid point. -/
def exHeader : SheetHeader :=
  ⟨1, 2, 3, 4, 99, 8, 0, 1, 1, 5, 6, 7, 8, ⟨1, 2, 3⟩, ⟨4, 5, 6⟩, ⟨7, 8, 9⟩, ⟨10, 11, 12⟩⟩

example : ∃ file xs' vs', writeSheet .be exHeader [⟨1, 2, 3⟩] [⟨4, 5, 6⟩] = .ok (file, xs', vs') ∧
    readSheetPositionsAt .le file [⟨0, 0, 0⟩] = .ok [⟨1, 2, 3⟩] :=
  let ⟨f, x, v, h1, _, h3, _⟩ := C62_roundtrip .be .le exHeader [⟨1, 2, 3⟩] [⟨4, 5, 6⟩] [⟨0, 0, 0⟩] [⟨0, 0, 0⟩]
    (by decide) (by decide) (by decide) rfl rfl
  ⟨f, x, v, h1, h3⟩

/-- `WriteSheet` refuses data that does not fit the header. -/
theorem C62_write_checks {sys : Order} {h : SheetHeader} {xs vs : List V3} {out : List Byte × List V3 × List V3}
    (e : writeSheet sys h xs vs = .ok out) :
    h.gridCount.toInt = xs.length ∧ xs.length = vs.length ∧ h.gridWidth * h.gridWidth * h.gridWidth = h.gridCount := by
  unfold writeSheet at e
  split_ifs at e with h1 h2 h3
  push Not at h1 h2 h3
  refine ⟨h1, ?_, h3⟩
  have := h1.symm.trans h2
  exact_mod_cast this

example : ∃ out, writeSheet .le exHeader [⟨1, 2, 3⟩] [⟨4, 5, 6⟩] = .ok out := by
  obtain ⟨f, x, v, h1, _⟩ := C62_roundtrip .le .le exHeader [⟨1, 2, 3⟩] [⟨4, 5, 6⟩] [⟨0, 0, 0⟩] [⟨0, 0, 0⟩]
    (by decide) (by decide) (by decide) rfl rfl
  exact ⟨_, h1⟩

/-! ## Sections -/

theorem take_mono {α : Type} {a b : List α} {m n : ℕ} (h : a.take n = b.take n) (hm : m ≤ n) : a.take m = b.take m := by
  have := congrArg (List.take m) h
  rwa [List.take_take, List.take_take, Nat.min_eq_left hm] at this

theorem readInt32_eq (data : List Byte) (pos : ℕ) (o : Order) :
    readInt32 ⟨data, pos⟩ o =
      if pos + 4 ≤ data.length then .ok (decode o 4 ((data.drop pos).take 4), ⟨data, pos + 4⟩) else .panic := by
  unfold readInt32 Rdr.readFull
  have hl : ((data.drop pos).take 4).length = 4 ↔ pos + 4 ≤ data.length := by
    rw [List.length_take, List.length_drop]; omega
  simp only [hl]
  split_ifs <;> rfl

/-- The outcome of reading a header, case by case. -/
theorem readSheetHeader_eq (file : List Byte) :
    readSheetHeader file =
      if 4 ≤ file.length then
        match endianness (decode .le 4 (file.take 4)) with
        | .ok o =>
          if 8 ≤ file.length then
            if decode o 4 ((file.drop 4).take 4) ≠ BitVec.ofNat (8 * 4) headerSize then .err
            else if 160 ≤ file.length then
              .ok (withCount (decHeader o ((file.drop 8).take 152)), ⟨file, 160⟩, o)
            else .err
          else .panic
        | .err => .err
        | .panic => .panic
      else .panic := by
  unfold readSheetHeader
  dsimp only
  rw [readInt32_eq]
  by_cases h4 : 4 ≤ file.length
  · rw [if_pos (by omega), if_pos h4]
    refine Res.bind_ok rfl ?_
    dsimp only
    rw [List.drop_zero]
    cases endianness (decode .le 4 (file.take 4)) with
    | ok o =>
      refine Res.bind_ok rfl ?_
      dsimp only
      rw [readInt32_eq]
      by_cases h8 : 8 ≤ file.length
      · rw [if_pos (by omega), if_pos h8]
        refine Res.bind_ok rfl ?_
        dsimp only [Nat.zero_add]
        by_cases hs : decode o 4 ((file.drop 4).take 4) ≠ BitVec.ofNat (8 * 4) headerSize
        · rw [if_pos hs, if_pos hs]
        · rw [if_neg hs, if_neg hs]
          have hl : ((file.drop 8).take 152).length = 152 ↔ 160 ≤ file.length := by
            rw [List.length_take, List.length_drop]; omega
          unfold Rdr.seek Rdr.readFull headerSize
          simp only [hl]
          by_cases h160 : 160 ≤ file.length
          · rw [if_pos h160, if_pos h160]; rfl
          · rw [if_neg h160, if_neg h160]; rfl
      · rw [if_neg (by omega), if_neg h8]; rfl
    | err => rfl
    | panic => rfl
  · rw [if_neg (by omega), if_neg h4]; rfl

/-- The header depends on the first 160 bytes only. -/
theorem readSheetHeader_congr {file file' : List Byte} (h : file.take 160 = file'.take 160) :
    (∃ hd o p, readSheetHeader file = .ok (hd, ⟨file, p⟩, o) ∧ readSheetHeader file' = .ok (hd, ⟨file', p⟩, o)) ∨
      (readSheetHeader file = .err ∧ readSheetHeader file' = .err) ∨
      (readSheetHeader file = .panic ∧ readSheetHeader file' = .panic) := by
  have hl := congrArg List.length h
  rw [List.length_take, List.length_take] at hl
  have h1 : file.take 4 = file'.take 4 := take_mono h (by norm_num)
  have h2 : (file.drop 4).take 4 = (file'.drop 4).take 4 := by
    rw [List.take_drop, List.take_drop, take_mono h (by norm_num)]
  have h3 : (file.drop 8).take 152 = (file'.drop 8).take 152 := by
    rw [List.take_drop, List.take_drop, h]
  simp only [readSheetHeader_eq, h1, h2, h3,
    show (4 ≤ file.length ↔ 4 ≤ file'.length) by omega, show (8 ≤ file.length ↔ 8 ≤ file'.length) by omega,
    show (160 ≤ file.length ↔ 160 ≤ file'.length) by omega]
  by_cases h4 : 4 ≤ file'.length
  · simp only [if_pos h4]
    cases endianness (decode .le 4 (file'.take 4)) with
    | ok o =>
      dsimp only
      by_cases h8 : 8 ≤ file'.length
      · simp only [if_pos h8]
        by_cases hs : decode o 4 ((file'.drop 4).take 4) ≠ BitVec.ofNat (8 * 4) headerSize
        · simp only [if_pos hs]
          right; left; simp
        · simp only [if_neg hs]
          by_cases h160 : 160 ≤ file'.length
          · simp only [if_pos h160]
            left; exact ⟨_, _, _, rfl, rfl⟩
          · simp only [if_neg h160]
            right; left; simp
      · simp only [if_neg h8]
        right; right; simp
    | err => right; left; simp
    | panic => right; right; simp
  · simp only [if_neg h4]
    right; right; simp

theorem readVec_congr {sys o : Order} {buf : List V3} {f f' : List Byte} {p : ℕ}
    (h : (f.drop p).take (12 * buf.length) = (f'.drop p).take (12 * buf.length)) :
    (do let (xs, _) ← readVecAsByte sys ⟨f, p⟩ o buf
        Res.ok xs) = (do let (xs, _) ← readVecAsByte sys ⟨f', p⟩ o buf
                         Res.ok xs) := by
  have hl := flatMap_length (encV_length sys) buf
  unfold readVecAsByte Rdr.read
  simp only [hl, h, bind]
  by_cases h1 : buf.flatMap (encV sys) = []
  · simp only [if_pos h1, Res.bind]
    split_ifs
    · cases swapLoop (buf.length * 3) 4 2 3 (buf.flatMap (encV sys)) <;> rfl
    · rfl
  · simp only [if_neg h1]
    by_cases h2 : (f'.drop p).take (12 * buf.length) = []
    · simp only [if_pos h2, Res.bind]
    · simp only [if_neg h2, Res.bind]
      split_ifs
      · cases swapLoop (buf.length * 3) 4 2 3 ((f'.drop p).take (12 * buf.length) ++
          (buf.flatMap (encV sys)).drop ((f'.drop p).take (12 * buf.length)).length) <;> rfl
      · rfl

/-- Reading positions looks at the header and the position section only. -/
theorem C62_positions_section (sys : Order) {file file' : List Byte} (buf : List V3)
    (h : file.take (160 + 12 * buf.length) = file'.take (160 + 12 * buf.length)) :
    readSheetPositionsAt sys file buf = readSheetPositionsAt sys file' buf := by
  unfold readSheetPositionsAt
  rcases readSheetHeader_congr (take_mono h (by omega)) with ⟨hd, o, p, e, e'⟩ | ⟨e, e'⟩ | ⟨e, e'⟩
  · rw [e, e']
    dsimp only
    split_ifs
    · rfl
    · refine readVec_congr ?_
      rw [List.take_drop, List.take_drop, show 4 + 4 + headerSize + 12 * buf.length = 160 + 12 * buf.length from rfl, h]
  · rw [e, e']
  · rw [e, e']

/-- Reading velocities looks at the header and at what follows the position section only. -/
theorem C62_velocities_section (sys : Order) {file file' : List Byte} (buf : List V3)
    (h : file.take 160 = file'.take 160)
    (h' : file.drop (160 + 12 * buf.length) = file'.drop (160 + 12 * buf.length)) :
    readSheetVelocitiesAt sys file buf = readSheetVelocitiesAt sys file' buf := by
  unfold readSheetVelocitiesAt
  rcases readSheetHeader_congr h with ⟨hd, o, p, e, e'⟩ | ⟨e, e'⟩ | ⟨e, e'⟩
  · rw [e, e']
    simp only [bind, Res.bind]
    split_ifs
    · rfl
    · refine readVec_congr ?_
      rw [show 4 + 4 + headerSize + 3 * 4 * buf.length = 160 + 12 * buf.length from rfl, h']
  · rw [e, e']
  · rw [e, e']

/-- Overwriting the positions of a file does not change its velocities. -/
example : readSheetVelocitiesAt .le (sheetBytes .le exHeader [⟨1, 2, 3⟩] [⟨4, 5, 6⟩]) [⟨0, 0, 0⟩] =
    readSheetVelocitiesAt .le (sheetBytes .le exHeader [⟨9, 9, 9⟩] [⟨4, 5, 6⟩]) [⟨0, 0, 0⟩] :=
  C62_velocities_section .le _ (by decide +kernel) (by decide +kernel)

/-- Overwriting the velocities does not change the positions. -/
example : readSheetPositionsAt .le (sheetBytes .le exHeader [⟨1, 2, 3⟩] [⟨4, 5, 6⟩]) [⟨0, 0, 0⟩] =
    readSheetPositionsAt .le (sheetBytes .le exHeader [⟨1, 2, 3⟩] [⟨7, 7, 7⟩]) [⟨0, 0, 0⟩] :=
  C62_positions_section .le _ (by decide +kernel)

/-! ## C63 -/

theorem encHeader_decHeader (o : Order) {bs : List Byte} (h : bs.length = 152) : encHeader o (decHeader o bs) = bs := by
  have e8 : ∀ i, 8 * i + 8 ≤ 152 → encode o 8 (decode o 8 ((bs.drop (8 * i)).take 8)) = (bs.drop (8 * i)).take 8 := by
    intro i hi
    refine encode_decode o 8 ?_
    rw [List.length_take, List.length_drop]; omega
  have e4 : ∀ n, n + 4 ≤ 152 → encode o 4 (decode o 4 ((bs.drop n).take 4)) = (bs.drop n).take 4 := by
    intro i hi
    refine encode_decode o 4 ?_
    rw [List.length_take, List.length_drop]; omega
  have ev : ∀ n, n + 12 ≤ 152 → encV o (decV o ((bs.drop n).take 12)) = (bs.drop n).take 12 := by
    intro n hn
    unfold encV decV
    dsimp only
    rw [List.take_take, List.drop_take, List.drop_take, List.take_take, List.take_take, List.drop_drop, List.drop_drop,
      show min 4 12 = 4 from rfl, show min 4 (12 - 4) = 4 from rfl, show min 4 (12 - 8) = 4 from rfl, e4 n (by omega), e4 (n + 4) (by omega), e4 (n + 8) (by omega), ← List.drop_drop, ← List.drop_drop]
    generalize bs.drop n = l
    rw [show (12 : ℕ) = 4 + (4 + 4) from rfl, List.take_add, List.take_add, List.drop_drop, List.append_assoc]
  have cat : ∀ n m, (bs.drop n).take m ++ bs.drop (n + m) = bs.drop n := by
    intro n m
    rw [← List.drop_drop, List.take_append_drop]
  unfold encHeader decHeader
  dsimp only
  simp only [List.flatMap_cons, List.flatMap_nil, List.append_nil, List.append_assoc]
  rw [e8 0 (by norm_num), e8 1 (by norm_num), e8 2 (by norm_num), e8 3 (by norm_num), e8 4 (by norm_num),
    e8 5 (by norm_num), e8 6 (by norm_num), e8 7 (by norm_num), e8 8 (by norm_num), e8 9 (by norm_num),
    e8 10 (by norm_num), e8 11 (by norm_num), e8 12 (by norm_num), ev _ (by norm_num), ev _ (by norm_num),
    ev _ (by norm_num), ev _ (by norm_num)]
  have last : (bs.drop (104 + 12 * 3)).take 12 = bs.drop (104 + 12 * 3) :=
    List.take_of_length_le (by rw [List.length_drop]; omega)
  rw [last, cat (104 + 12 * 2) 12, cat (104 + 12 * 1) 12, cat (104 + 12 * 0) 12, cat (8 * 12) 8, cat (8 * 11) 8,
    cat (8 * 10) 8, cat (8 * 9) 8, cat (8 * 8) 8, cat (8 * 7) 8, cat (8 * 6) 8, cat (8 * 5) 8, cat (8 * 4) 8,
    cat (8 * 3) 8, cat (8 * 2) 8, cat (8 * 1) 8, cat (8 * 0) 8]
  rfl

theorem readSheetHeader_inv {file : List Byte} {h : SheetHeader} {r : Rdr} {o : Order}
    (e : readSheetHeader file = .ok (h, r, o)) :
    160 ≤ file.length ∧ r = ⟨file, 160⟩ ∧ file.take 4 = encode .le 4 (flagOf o) ∧
      (file.drop 4).take 4 = encode o 4 152 ∧
      ∃ h0, h = withCount h0 ∧ (file.drop 8).take 152 = encHeader o h0 := by
  rw [readSheetHeader_eq] at e
  by_cases h4 : 4 ≤ file.length
  case neg => rw [if_neg h4] at e; cases e
  rw [if_pos h4] at e
  cases ho : endianness (decode .le 4 (file.take 4)) with
  | ok o' =>
    rw [ho] at e
    dsimp only at e
    split_ifs at e with h8 hs h160
    injection e with e
    simp only [Prod.mk.injEq] at e
    obtain ⟨e1, e2, rfl⟩ := e
    rw [ne_eq, not_not] at hs
    refine ⟨h160, e2.symm, ?_, ?_, _, e1.symm, (encHeader_decHeader o' ?_).symm⟩
    · have : decode .le 4 (file.take 4) = flagOf o' := by
        unfold endianness at ho
        split_ifs at ho with c1 c2
        · injection ho with ho; subst ho; exact c1
        · injection ho with ho; subst ho; exact c2
      rw [← this, encode_decode]
      rw [List.length_take]; omega
    · have : (152 : Word 4) = decode o' 4 ((file.drop 4).take 4) := hs.symm
      rw [this, encode_decode]
      rw [List.length_take, List.length_drop]; omega
    · rw [List.length_take, List.length_drop]; omega
  | err => rw [ho] at e; cases e
  | panic => rw [ho] at e; cases e

/-- A header is accepted only from a file with at least 160 bytes, a known byte order flag and the right header size,
and the fields returned are those stored, with the count recomputed: every damage listed is detected here. -/
theorem C63_header {file : List Byte} {h : SheetHeader} (e : readSheetHeaderAt file = .ok h) :
    160 ≤ file.length ∧ ∃ o h0, h = withCount h0 ∧
      file.take 4 = encode .le 4 (flagOf o) ∧ (file.drop 4).take 4 = encode o 4 152 ∧
      (file.drop 8).take 152 = encHeader o h0 := by
  unfold readSheetHeaderAt at e
  cases he : readSheetHeader file with
  | ok a =>
    obtain ⟨h', r, o⟩ := a
    rw [he] at e
    injection e with e
    obtain ⟨h1, _, h2, h3, h0, h4, h5⟩ := readSheetHeader_inv he
    exact ⟨h1, o, h0, e ▸ h4, h2, h3, h5⟩
  | err => rw [he] at e; cases e
  | panic => rw [he] at e; cases e

example : ∃ h, readSheetHeaderAt (sheetBytes .be exHeader [] []) = .ok h :=
  let ⟨_, e, _⟩ := readSheetHeader_ok .be exHeader ([].flatMap (encV .be) ++ [].flatMap (encV .be))
  ⟨_, Res.bind_ok e rfl⟩

theorem readVec_err {sys o : Order} {f : List Byte} {p : ℕ} {buf : List V3} {out : List V3 × Rdr}
    (e : readVecAsByte sys ⟨f, p⟩ o buf = .ok out) (hb : buf ≠ []) : p < f.length := by
  have hl := flatMap_length (encV_length sys) buf
  have hpos : 0 < buf.length := List.length_pos_iff.mpr hb
  by_contra hc
  have h1 : ¬ buf.flatMap (encV sys) = [] := by
    intro h
    rw [h, List.length_nil] at hl
    omega
  have h2 : f.drop p = [] := List.drop_eq_nil_of_le (by omega)
  have h3 : (⟨f, p⟩ : Rdr).read (buf.flatMap (encV sys)) = .err := by
    unfold Rdr.read
    simp only [h2, List.take_nil, if_true, if_neg h1]
  unfold readVecAsByte at e
  simp only [h3] at e
  cases e

/-- Velocities are accepted only if the header is, if it announces as many vectors as asked for, and if the file goes
beyond the position section. Missing: that the whole velocity section is there (see the counterexamples). -/
theorem C63_velocities_partial {sys : Order} {file : List Byte} {buf out : List V3}
    (e : readSheetVelocitiesAt sys file buf = .ok out) :
    (∃ h, readSheetHeaderAt file = .ok h ∧ h.gridCount = BitVec.ofNat 64 buf.length) ∧
      (buf ≠ [] → 160 + 12 * buf.length < file.length) := by
  unfold readSheetVelocitiesAt at e
  cases he : readSheetHeader file with
  | ok a =>
    obtain ⟨h, r, o⟩ := a
    rw [he] at e
    have e : (if h.gridCount ≠ BitVec.ofNat (8 * 8) buf.length then Res.err
      else do
        let (vs, _) ← readVecAsByte sys (r.seek (4 + 4 + headerSize + 3 * 4 * buf.length)) o buf
        Res.ok vs) = Res.ok out := e
    split_ifs at e with hc
    rw [not_not] at hc
    refine ⟨⟨h, by unfold readSheetHeaderAt; exact Res.bind_ok he rfl, hc⟩, ?_⟩
    intro hb
    obtain ⟨_, hr, _⟩ := readSheetHeader_inv he
    rw [hr] at e
    cases hv : readVecAsByte sys ((⟨file, 160⟩ : Rdr).seek (4 + 4 + headerSize + 3 * 4 * buf.length)) o buf with
    | ok a => exact readVec_err hv hb
    | err => rw [hv] at e; cases e
    | panic => rw [hv] at e; cases e
  | err => rw [he] at e; cases e
  | panic => rw [he] at e; cases e

example : ∃ out, readSheetVelocitiesAt .le (sheetBytes .be exHeader [⟨1, 2, 3⟩] [⟨4, 5, 6⟩]) [⟨0, 0, 0⟩] = .ok out :=
  ⟨_, readVelocities_ok .le .be exHeader _ _ _ rfl (by decide) rfl⟩

/-- Positions: a damaged header (wrong size field, or fewer than 160 bytes) is reported as success, and the buffer keeps
whatever it contained. -/
theorem C63_positions_counterexample {sys : Order} {file : List Byte} (buf : List V3)
    (e : readSheetHeaderAt file = .err) : readSheetPositionsAt sys file buf = .ok buf := by
  unfold readSheetHeaderAt at e
  unfold readSheetPositionsAt
  cases he : readSheetHeader file with
  | ok a => rw [he] at e; cases e
  | err => rfl
  | panic => rw [he] at e; cases e

/-- A file that consists of the byte order flag and a header size of 7. -/
example : readSheetPositionsAt .le [0, 0, 0, 0, 7, 0, 0, 0] [⟨8, 8, 8⟩] = .ok [⟨8, 8, 8⟩] :=
  C63_positions_counterexample _ (by decide +kernel)

theorem swapLoop_isSome (n : ℕ) (b : List Byte) (h : b.length = 12 * n) :
    ∃ b', swapLoop ((n : ℤ) * 3) 4 2 3 b = some b' := by
  obtain ⟨b', e, _⟩ := swapLoop_spec (n * 3) 2 b (by rw [h]; ring)
  refine ⟨b', ?_⟩
  push_cast at e
  exact e

/-- Velocities: a sheet file cut off anywhere inside the velocity section is read without an error. -/
theorem C63_truncated_counterexample (sys o : Order) (h : SheetHeader) (xs vs buf : List V3) (m : ℕ)
    (hx : xs.length = vs.length) (hn : h.gridCount.toInt = vs.length) (hb : buf.length = vs.length)
    (hm : 160 + 12 * vs.length < m) (hm' : m < 160 + 24 * vs.length) :
    ∃ out, readSheetVelocitiesAt sys ((sheetBytes o h xs vs).take m) buf = .ok out := by
  have hlen : (sheetBytes o h xs vs).length = 160 + 24 * vs.length := by
    unfold sheetBytes
    simp only [List.length_append, encode_length, encHeader_length, flatMap_length (encV_length o)]
    omega
  have hne : vs ≠ [] := by
    rintro rfl
    simp at hm'
    omega
  obtain ⟨r, e, _⟩ := readSheetHeader_ok o h (xs.flatMap (encV o) ++ vs.flatMap (encV o))
  have he : ∃ p, readSheetHeader ((sheetBytes o h xs vs).take m) = .ok (withCount h, ⟨(sheetBytes o h xs vs).take m, p⟩, o) := by
    rcases readSheetHeader_congr (file := sheetBytes o h xs vs) (file' := (sheetBytes o h xs vs).take m)
      (by rw [List.take_take, Nat.min_eq_left (by omega)]) with ⟨hd, o', p, e1, e2⟩ | ⟨e1, _⟩ | ⟨e1, _⟩
    · have := e.symm.trans e1
      injection this with this
      simp only [Prod.mk.injEq] at this
      obtain ⟨rfl, _, rfl⟩ := this
      exact ⟨p, e2⟩
    · cases e.symm.trans e1
    · cases e.symm.trans e1
  obtain ⟨p, he⟩ := he
  set file := (sheetBytes o h xs vs).take m with hf
  have hfl : file.length = m := by rw [hf, List.length_take, hlen]; omega
  have hl := flatMap_length (encV_length sys) buf
  have hv : ∃ a, readVecAsByte sys ⟨file, 160 + 12 * buf.length⟩ o buf = .ok a := by
    have h1 : ¬ buf.flatMap (encV sys) = [] := by
      intro hc
      rw [hc, List.length_nil] at hl
      have := List.length_pos_iff.mpr hne
      omega
    have h2 : ¬ (file.drop (160 + 12 * buf.length)).take (buf.flatMap (encV sys)).length = [] := by
      intro hc
      have := congrArg List.length hc
      rw [List.length_take, List.length_drop, hfl, hl, List.length_nil] at this
      omega
    unfold readVecAsByte Rdr.read
    simp only [if_neg h1, if_neg h2]
    have h3 : ((file.drop (160 + 12 * buf.length)).take (buf.flatMap (encV sys)).length ++
        (buf.flatMap (encV sys)).drop ((file.drop (160 + 12 * buf.length)).take (buf.flatMap (encV sys)).length).length).length
        = 12 * buf.length := by
      rw [List.length_append, List.length_drop, List.length_take, List.length_drop, hl, hfl]
      omega
    obtain ⟨b', e'⟩ := swapLoop_isSome buf.length _ h3
    simp only [bind, Res.bind]
    split_ifs
    · rw [e']
      exact ⟨_, rfl⟩
    · exact ⟨_, rfl⟩
  obtain ⟨a, ha⟩ := hv
  refine ⟨a.1, ?_⟩
  unfold readSheetVelocitiesAt
  refine Res.bind_ok he ?_
  dsimp only
  rw [if_neg (not_not.mpr (by rw [hb]; exact ofNat_of_toInt hn))]
  exact Res.bind_ok ha rfl

/-- One byte short: the last component of the last velocity is made up from the old contents of the buffer. -/
example : readSheetVelocitiesAt .le ((sheetBytes .le exHeader [⟨1, 2, 3⟩] [⟨4, 5, 0x01020304⟩]).take 183)
    [⟨0, 0, 0xff000000⟩] = .ok [⟨4, 5, 0xff020304⟩] := by decide +kernel

end Verif.Io
