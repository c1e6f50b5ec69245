import Verif.Io.PyHeaderModel
import Verif.Io.Grid
import Verif.Io.ConfigModel
import Verif.Main.OutputModel

/-!
# C191: header, shape and names of a grid as Python reads them
-/

set_option autoImplicit false

namespace Verif.Io

open Verif.Go

/-! ## Pieces of a string of words -/

theorem drop_flatMap {α : Type} {s : ℕ} {enc : α → List Byte} (hl : ∀ a, (enc a).length = s) (xs : List α) (i : ℕ) :
    (xs.flatMap enc).drop (s * i) = (xs.drop i).flatMap enc := by
  induction xs generalizing i with
  | nil => simp
  | cons a xs ih =>
    cases i with
    | zero => simp
    | succ i =>
      rw [List.flatMap_cons, show s * (i + 1) = s + s * i by ring, ← List.drop_drop, drop_app (hl a), ih, List.drop_succ_cons]

theorem take_flatMap {α : Type} {s : ℕ} {enc : α → List Byte} (hl : ∀ a, (enc a).length = s) (xs : List α) (i : ℕ) :
    (xs.flatMap enc).take (s * i) = (xs.take i).flatMap enc := by
  induction xs generalizing i with
  | nil => simp
  | cons a xs ih =>
    cases i with
    | zero => simp
    | succ i =>
      rw [List.flatMap_cons, List.take_succ_cons, List.flatMap_cons, ← ih, List.take_append, hl a,
        List.take_of_length_le (by rw [hl a]; nlinarith), show s * (i + 1) - s = s * i by rw [Nat.mul_add]; omega]

theorem pySub_words (ws : List (Word 8)) (a n : ℕ) :
    pySub (ws.flatMap (encode .le 8)) (8 * a) (8 * (a + n)) = ((ws.drop a).take n).flatMap (encode .le 8) := by
  unfold pySub
  rw [take_flatMap (encode_length .le 8), drop_flatMap (encode_length .le 8), List.drop_take, Nat.add_sub_cancel_left]

theorem pyUnpack_words (ws : List (Word 8)) (n : ℕ) (h : ws.length = n) :
    pyUnpack (-1) n (ws.flatMap (encode .le 8)) = some ws := by
  subst h
  unfold pyUnpack
  rw [if_pos (flatMap_length (encode_length .le 8) ws), if_pos rfl, ofMem_flatMap (encode_length .le 8) (decode_encode .le 8)]

theorem pyUnpack_sub (ws : List (Word 8)) (a n : ℕ) (h : a + n ≤ ws.length) :
    pyUnpack (-1) n (pySub (ws.flatMap (encode .le 8)) (8 * a) (8 * (a + n))) = some ((ws.drop a).take n) := by
  rw [pySub_words]
  refine pyUnpack_words _ n ?_
  rw [List.length_take, List.length_drop]
  omega

/-- What Python makes of a header of either version that begins with these words. -/
theorem pyReadHeader_words (flag : Word 8) (t : TypeInfo) (cosmo : CosmoInfo) (render : RenderInfo) (loc : LocationInfo)
    (rest : List (Word 8)) (body : List Byte) (ver : ℕ)
    (hv : pyEndiannessVersion .le (encode .le 8 flag) = (-1, ver))
    (hr : (ver = 1 ∧ rest.length = 0) ∨ (ver = 2 ∧ rest.length = 13)) (ws : List (Word 8))
    (hws : ws = [flag] ++ [t.headerSize, t.gridType, t.isVectorGrid] ++
      [cosmo.redshift, cosmo.scaleFactor, cosmo.omegaM, cosmo.omegaL, cosmo.hubble, cosmo.rhoMean,
        cosmo.rhoCritical, cosmo.boxWidth] ++
      [render.particles, render.totalPixels, render.subsampleLength, render.minProjectionDepth, render.projectionAxis] ++
      loc.words ++ rest) :
    pyReadHeader (ws.flatMap (encode .le 8) ++ body) =
      some (⟨ver, 232 + 8 * rest.length, -1, t.headerSize.toInt, t.gridType.toInt,
        decide (¬ (t.gridType.toInt = 0 ∨ t.gridType.toInt = 3)), cosmo, render, loc⟩,
        decide (t.headerSize.toInt ≠ 240 + 8 * rest.length)) := by
  have hlen : ws.length = 30 + rest.length := by
    rw [hws]
    simp [LocationInfo.words, W3.words]
    omega
  have hfirst : (ws.flatMap (encode .le 8) ++ body).take 8 = encode .le 8 flag := by
    rw [hws]
    simp only [List.cons_append, List.nil_append, List.flatMap_cons, List.append_assoc]
    exact take_app (encode_length .le 8 flag)
  have hlf := flatMap_length (encode_length .le 8) ws
  have hsz : ∃ v, pySizes ver = some ⟨232 + 8 * rest.length, 24, 64, 40, 104, v⟩ ∧
      (ver = 2 → v = some 104) := by
    rcases hr with ⟨h, h'⟩ | ⟨h, h'⟩
    · subst h
      rw [h']
      exact ⟨none, rfl, by norm_num⟩
    · subst h
      rw [h']
      exact ⟨some 104, rfl, fun _ => rfl⟩
  obtain ⟨v, hs, hv2⟩ := hsz
  have hall : encode .le 8 flag ++ ((ws.flatMap (encode .le 8) ++ body).drop 8).take (232 + 8 * rest.length) =
      ws.flatMap (encode .le 8) := by
    rw [← hfirst, ← List.take_add, show 8 + (232 + 8 * rest.length) = 8 * ws.length by omega, take_app hlf]
  unfold pyReadHeader
  dsimp only
  rw [hfirst, if_neg (not_not.mpr (encode_length .le 8 flag)), hv]
  dsimp only
  rw [hs, Option.bind_eq_bind, Option.bind_some]
  dsimp only
  rw [hall]
  have h0 : pySub (ws.flatMap (encode .le 8)) 0 8 = encode .le 8 flag := by
    have := pySub_words ws 0 1
    rw [hws] at this ⊢
    simpa using this
  unfold pyHeader
  dsimp only
  rw [h0, hv]
  dsimp only
  rw [if_neg (by omega), if_neg (by rcases hr with ⟨h, h'⟩ | ⟨h, h'⟩ <;> omega), if_neg (by
    rcases hr with ⟨h, h'⟩ | ⟨h, h'⟩
    · omega
    · rw [hv2 h, h']
      simp)]
  rw [show (24 + 8 : ℕ) = 8 * (1 + 3) from rfl, show 8 * (1 + 3) + 64 = 8 * (4 + 8) from rfl,
    show 8 * (4 + 8) + 40 = 8 * (12 + 5) from rfl, show 8 * (12 + 5) + 104 = 8 * (17 + 13) from rfl]
  rw [show pySub (ws.flatMap (encode .le 8)) 8 (8 * (1 + 3)) = pySub (ws.flatMap (encode .le 8)) (8 * 1) (8 * (1 + 3)) from rfl,
    pyUnpack_sub ws 1 3 (by omega),
    show pySub (ws.flatMap (encode .le 8)) (8 * (1 + 3)) (8 * (4 + 8)) =
      pySub (ws.flatMap (encode .le 8)) (8 * 4) (8 * (4 + 8)) from rfl, pyUnpack_sub ws 4 8 (by omega),
    show pySub (ws.flatMap (encode .le 8)) (8 * (4 + 8)) (8 * (12 + 5)) =
      pySub (ws.flatMap (encode .le 8)) (8 * 12) (8 * (12 + 5)) from rfl, pyUnpack_sub ws 12 5 (by omega),
    show pySub (ws.flatMap (encode .le 8)) (8 * (12 + 5)) (8 * (17 + 13)) =
      pySub (ws.flatMap (encode .le 8)) (8 * 17) (8 * (17 + 13)) from rfl, pyUnpack_sub ws 17 13 (by omega)]
  simp only [Option.bind_eq_bind, Option.bind_some]
  subst hws
  simp [LocationInfo.words, W3.words, pyCosmo, pyRender, pyLoc]
  constructor
  · by_cases a : t.gridType.toInt = 0 <;> by_cases b : t.gridType.toInt = 3 <;> simp [a, b]
  · rw [Bool.eq_iff_iff]
    simp
    omega

/-- C191: the header that Python reads from a file of `WriteBuffer` has the version 2, the little endian order, the quantity
and every field of the three parts as written, and nothing is said about a wrong size. -/
theorem C191_header (quantity : Word 8) (buf : Finalized) (cosmo : CosmoInfo) (render : RenderInfo) (loc : LocationInfo)
    (hb : buf ≠ .neither) :
    ∃ file, writeBuffer quantity buf cosmo render loc = .ok file ∧
      pyReadHeader file = some (⟨2, 336, -1, 344, quantity.toInt,
        decide (¬ (quantity.toInt = 0 ∨ quantity.toInt = 3)), cosmo, render, loc⟩, false) := by
  obtain ⟨flag, ef, e⟩ := writeBuffer_eq quantity buf cosmo render loc hb
  obtain ⟨flag', ef', hpy⟩ := C66_little_endian_partial 2 (by norm_num) (by norm_num)
  obtain rfl : flag' = flag := Option.some.inj (ef'.symm.trans ef)
  refine ⟨_, e, ?_⟩
  have := pyReadHeader_words flag' ⟨344, quantity, 0⟩ cosmo render loc (List.replicate 13 0) buf.bytes 2 hpy
    (Or.inr ⟨rfl, by simp⟩) (writtenHeader flag' quantity cosmo render loc).words rfl
  rw [encGridHeader, this]
  rfl

example : ∃ file, writeBuffer 2 (.vector [1, 2] [3, 4] [5, 6]) ⟨1, 2, 3, 4, 5, 6, 7, 8⟩ (exRender 2) exLoc = .ok file ∧
    pyReadHeader file = some (⟨2, 336, -1, 344, 2, true, ⟨1, 2, 3, 4, 5, 6, 7, 8⟩, exRender 2, exLoc⟩, false) :=
  C191_header 2 (.vector [1, 2] [3, 4] [5, 6]) ⟨1, 2, 3, 4, 5, 6, 7, 8⟩ (exRender 2) exLoc (by simp)

/-- C191: a file of version 1 has the same header without the last thirteen words, and the flag of that version. Python reads
all its fields too. -/
theorem C191_version1 (h : GridHeader) (body : List Byte)
    (hf : endiannessVersionFlag 1 .le = some h.endiannessVersion) (hs : h.type.headerSize = 240) :
    pyReadHeader ((h.words.take 30).flatMap (encode .le 8) ++ body) =
      some (⟨1, 232, -1, 240, h.type.gridType.toInt,
        decide (¬ (h.type.gridType.toInt = 0 ∨ h.type.gridType.toInt = 3)), h.cosmo, h.render, h.loc⟩, false) := by
  obtain ⟨flag', ef', hpy⟩ := C66_little_endian_partial 1 (by norm_num) (by norm_num)
  have e' : flag' = h.endiannessVersion := Option.some.inj (ef'.symm.trans hf)
  rw [e'] at hpy
  have := pyReadHeader_words h.endiannessVersion h.type h.cosmo h.render h.loc [] body 1 hpy (Or.inl ⟨rfl, rfl⟩)
    (h.words.take 30) rfl
  rw [this, hs]
  rfl

example : ∃ flag, endiannessVersionFlag 1 .le = some flag ∧
    (pyReadHeader ((GridHeader.words ⟨flag, ⟨240, 3, 0⟩, ⟨1, 2, 3, 4, 5, 6, 7, 8⟩, exRender 2, exLoc, exLoc⟩).take 30
      |>.flatMap (encode .le 8))).map (fun p => p.1.loc) = some exLoc := by
  obtain ⟨flag, e, _⟩ := C66_little_endian_partial 1 (by norm_num) (by norm_num)
  refine ⟨flag, e, ?_⟩
  have := C191_version1 ⟨flag, ⟨240, 3, 0⟩, ⟨1, 2, 3, 4, 5, 6, 7, 8⟩, exRender 2, exLoc, exLoc⟩ [] e rfl
  rw [List.append_nil] at this
  rw [this]
  rfl

/-! ## The arrays -/

theorem pyFloats_ok (xs : List (Word 4)) (tail : List Byte) :
    pyFloats (-1) xs.length (xs.flatMap (encode .le 4) ++ tail) = some (xs, tail) := by
  have hl := flatMap_length (encode_length .le 4) xs
  unfold pyFloats
  rw [if_neg (by rw [List.length_append, hl]; push_cast; omega), if_pos rfl, Int.toNat_natCast, drop_app hl]
  congr 2
  have key : ∀ ys : List (Word 4), ofMem 4 (decode .le 4) ys.length (ys.flatMap (encode .le 4) ++ tail) = ys := by
    intro ys
    induction ys with
    | nil => rfl
    | cons y ys ih =>
      rw [List.flatMap_cons, List.append_assoc, List.length_cons, ofMem, take_app (encode_length .le 4 y),
        drop_app (encode_length .le 4 y), ih, decode_encode]
  exact key xs

/-- The sides of the image: the axes in the order z, y, x, without the one along which it is projected. -/
def sides (axis : ℤ) (dim : W3) : List ℤ :=
  (if axis = 2 then [] else [dim.c.toInt]) ++ (if axis = 1 then [] else [dim.b.toInt]) ++
    (if axis = 0 then [] else [dim.a.toInt])

theorem pyShape_eq {axis : ℤ} (h0 : -1 ≤ axis) (h1 : axis ≤ 2) (dim : W3) : pyShape axis dim = some (sides axis dim) := by
  unfold pyShape sides
  obtain rfl | rfl | rfl | rfl : axis = -1 ∨ axis = 0 ∨ axis = 1 ∨ axis = 2 := by omega
  all_goals norm_num

theorem sides_prod {axis : ℤ} (h0 : -1 ≤ axis) (h1 : axis ≤ 2) (dim : W3) : (sides axis dim).prod = pixels axis dim := by
  unfold sides pixels
  obtain rfl | rfl | rfl | rfl : axis = -1 ∨ axis = 0 ∨ axis = 1 ∨ axis = 2 := by omega
  all_goals norm_num; ring

theorem pyReshape_ok (xs : List (Word 4)) {axis : ℤ} (h0 : -1 ≤ axis) (h1 : axis ≤ 2) (dim : W3)
    (hp : 0 ≤ dim.a.toInt ∧ 0 ≤ dim.b.toInt ∧ 0 ≤ dim.c.toInt) (hn : pixels axis dim = xs.length) :
    pyReshape xs (sides axis dim) = some ⟨sides axis dim, xs⟩ := by
  unfold pyReshape
  rw [if_pos]
  refine ⟨by rw [sides_prod h0 h1, hn], ?_⟩
  intro n hn'
  unfold sides at hn'
  simp only [List.mem_append] at hn'
  rcases hn' with (h | h) | h <;> split_ifs at h <;> simp at h <;> omega

/-- C191: for a file of `WriteBuffer` with as many values as the image has pixels, `read_grid` gives one array for density and
divergence, three for the others, with the values in the order written and the sides of the image in the order z, y, x. -/
theorem C191_grid (quantity : Word 8) (cosmo : CosmoInfo) (render : RenderInfo) (loc : LocationInfo)
    (h0 : -1 ≤ render.projectionAxis.toInt) (h1 : render.projectionAxis.toInt ≤ 2)
    (hp : 0 ≤ loc.pixelSpan.a.toInt ∧ 0 ≤ loc.pixelSpan.b.toInt ∧ 0 ≤ loc.pixelSpan.c.toInt) (n : ℕ)
    (hn : pixels render.projectionAxis.toInt loc.pixelSpan = n) :
    (∀ xs : List (Word 4), xs.length = n → quantity.toInt = 0 ∨ quantity.toInt = 3 →
      ∃ file, writeBuffer quantity (.scalar xs) cosmo render loc = .ok file ∧
        pyGrid file = some [⟨sides render.projectionAxis.toInt loc.pixelSpan, xs⟩]) ∧
    (∀ xs ys zs : List (Word 4), xs.length = n → ys.length = n → zs.length = n → ¬ (quantity.toInt = 0 ∨ quantity.toInt = 3) →
      ∃ file, writeBuffer quantity (.vector xs ys zs) cosmo render loc = .ok file ∧
        pyGrid file = some [⟨sides render.projectionAxis.toInt loc.pixelSpan, xs⟩,
          ⟨sides render.projectionAxis.toInt loc.pixelSpan, ys⟩, ⟨sides render.projectionAxis.toInt loc.pixelSpan, zs⟩]) := by
  have hbody : ∀ (buf : Finalized), buf ≠ .neither → ∃ file, writeBuffer quantity buf cosmo render loc = .ok file ∧
      file.drop (336 + 8) = buf.bytes := by
    intro buf hb
    obtain ⟨flag, _, e⟩ := writeBuffer_eq quantity buf cosmo render loc hb
    exact ⟨_, e, drop_app (encGridHeader_length _)⟩
  constructor
  · intro xs hx hq
    obtain ⟨file, e, hh⟩ := C191_header quantity (.scalar xs) cosmo render loc (by simp)
    obtain ⟨file', e', hd⟩ := hbody (.scalar xs) (by simp)
    obtain rfl : file' = file := Res.ok.inj (e'.symm.trans e)
    refine ⟨_, e, ?_⟩
    have hfl := pyFloats_ok xs []
    rw [List.append_nil] at hfl
    unfold pyGrid
    rw [hh]
    simp only [Option.bind_eq_bind, Option.bind_some]
    rw [hd, decide_eq_false (not_not.mpr hq), if_neg (by simp), pyCount_eq h0 h1, hn, Finalized.bytes, ← hx, hfl,
      Option.bind_some, pyShape_eq h0 h1, Option.bind_some, pyReshape_ok xs h0 h1 _ hp (by rw [hn, hx]), Option.bind_some]
  · intro xs ys zs hx hy hz hq
    obtain ⟨file, e, hh⟩ := C191_header quantity (.vector xs ys zs) cosmo render loc (by simp)
    obtain ⟨file', e', hd⟩ := hbody (.vector xs ys zs) (by simp)
    obtain rfl : file' = file := Res.ok.inj (e'.symm.trans e)
    refine ⟨_, e, ?_⟩
    have f1 := pyFloats_ok xs (ys.flatMap (encode .le 4) ++ zs.flatMap (encode .le 4))
    have f2 := pyFloats_ok ys (zs.flatMap (encode .le 4))
    have f3 := pyFloats_ok zs []
    rw [List.append_nil, hz] at f3
    rw [hy] at f2
    rw [hx] at f1
    unfold pyGrid
    rw [hh]
    simp only [Option.bind_eq_bind, Option.bind_some]
    rw [hd, decide_eq_true hq, if_pos rfl, pyCount_eq h0 h1, hn, Finalized.bytes, f1, Option.bind_some, f2, Option.bind_some,
      f3, Option.bind_some, pyShape_eq h0 h1, Option.bind_some, pyReshape_ok xs h0 h1 _ hp (by rw [hn, hx]), Option.bind_some,
      pyReshape_ok ys h0 h1 _ hp (by rw [hn, hy]), Option.bind_some, pyReshape_ok zs h0 h1 _ hp (by rw [hn, hz]),
      Option.bind_some]

example : ∃ file, writeBuffer 0 (.scalar [1, 2, 3, 4, 5, 6]) ⟨1, 2, 3, 4, 5, 6, 7, 8⟩ (exRender (-1)) exLoc = .ok file ∧
    pyGrid file = some [⟨[3, 1, 2], [1, 2, 3, 4, 5, 6]⟩] :=
  (C191_grid 0 ⟨1, 2, 3, 4, 5, 6, 7, 8⟩ (exRender (-1)) exLoc (by decide) (by decide) (by decide) 6 (by decide)).1
    [1, 2, 3, 4, 5, 6] rfl (by decide)

example : ∃ file, writeBuffer 2 (.vector [1, 2] [3, 4] [5, 6]) ⟨1, 2, 3, 4, 5, 6, 7, 8⟩ (exRender 2) exLoc = .ok file ∧
    pyGrid file = some [⟨[1, 2], [1, 2]⟩, ⟨[1, 2], [3, 4]⟩, ⟨[1, 2], [5, 6]⟩] :=
  (C191_grid 2 ⟨1, 2, 3, 4, 5, 6, 7, 8⟩ (exRender 2) exLoc (by decide) (by decide) (by decide) 2 (by decide)).2
    [1, 2] [3, 4] [5, 6] rfl rfl rfl (by decide)

/-- C191: `vals[z, y, x]` is the value number `x + y nx + z nx ny` of the file, and `vals[v, u]` of a projected grid the value
number `u + v nu`. -/
theorem C191_index (xs : List (Word 4)) :
    (∀ nx ny nz x y z : ℕ, x < nx → y < ny → z < nz →
      PyArray.at ⟨[(nz : ℤ), ny, nx], xs⟩ [z, y, x] = xs[x + y * nx + z * nx * ny]?) ∧
    (∀ nu nv u v : ℕ, u < nu → v < nv → PyArray.at ⟨[(nv : ℤ), nu], xs⟩ [v, u] = xs[u + v * nu]?) := by
  constructor
  · intro nx ny nz x y z hx hy hz
    unfold PyArray.at
    rw [if_pos (by simp; omega)]
    congr 1
    simp only [List.zip_cons_cons, List.zip_nil_right, List.foldl_cons, List.foldl_nil]
    rw [show ((0 * (nz : ℤ) + z) * ny + y) * nx + x = ((x + y * nx + z * nx * ny : ℕ) : ℤ) by push_cast; ring]
    exact Int.toNat_natCast _
  · intro nu nv u v hu hv
    unfold PyArray.at
    rw [if_pos (by simp; omega)]
    congr 1
    simp only [List.zip_cons_cons, List.zip_nil_right, List.foldl_cons, List.foldl_nil]
    rw [show (0 * (nv : ℤ) + v) * nu + u = ((u + v * nu : ℕ) : ℤ) by push_cast; ring]
    exact Int.toNat_natCast _

example : PyArray.at ⟨[3, 1, 2], [10, 11, 12, 13, 14, 15]⟩ [2, 0, 1] = some 15 := by decide

/-! ## Names -/

/-- C191: Python names every quantity as the configuration does, apart from blanks, and no other number has a name. -/
theorem C191_names (q : ℤ) :
    (∀ name, quantityFromString name = some q →
      ∃ s, pyGridTypeStr q = some s ∧ String.ofList (s.toList.filter (· ≠ ' ')) = name) ∧
    ((pyGridTypeStr q).isSome ↔ ∃ name, quantityFromString name = some q) := by
  have key : ∀ name, quantityFromString name = some q →
      ∃ s, pyGridTypeStr q = some s ∧ String.ofList (s.toList.filter (· ≠ ' ')) = name := by
    intro name h
    unfold quantityFromString at h
    split_ifs at h with h1 h2 h3 h4 h5
    all_goals
      obtain rfl := Option.some.inj h
      subst name
      exact ⟨_, rfl, by decide⟩
  refine ⟨key, ?_, ?_⟩
  · intro h
    unfold pyGridTypeStr at h
    split_ifs at h with h1 h2 h3 h4 h5
    · exact ⟨"Density", by subst q; rfl⟩
    · exact ⟨"DensityGradient", by subst q; rfl⟩
    · exact ⟨"Velocity", by subst q; rfl⟩
    · exact ⟨"VelocityDivergence", by subst q; rfl⟩
    · exact ⟨"VelocityCurl", by subst q; rfl⟩
    · simp at h
  · rintro ⟨name, h⟩
    obtain ⟨s, e, _⟩ := key name h
    rw [e]
    rfl

example : quantityFromString "VelocityCurl" = some 4 ∧ pyGridTypeStr 4 = some "Velocity Curl" := by decide

/-- C191: the axis that Python prints is the one given to `NewRenderInfo`, and "None" for any other text. -/
theorem C191_axis (particles cells skip : ℤ) (axis : List Char) :
    pyAxisStr (Main.newRenderInfo particles cells skip axis).projectionAxis.toInt =
      some (if axis ∈ [['X'], ['Y'], ['Z']] then String.ofList axis else "None") := by
  unfold Main.newRenderInfo
  dsimp only
  by_cases h1 : axis = ['X']
  · subst h1
    decide
  · by_cases h2 : axis = ['Y']
    · subst h2
      decide
    · by_cases h3 : axis = ['Z']
      · subst h3
        decide
      · simp only [h1, h2, h3, if_false, List.mem_cons, List.not_mem_nil, or_self]
        decide

example : pyAxisStr (Main.newRenderInfo 64 1000 1 ['Z']).projectionAxis.toInt = some "Z" := by
  rw [C191_axis]
  decide

end Verif.Io
