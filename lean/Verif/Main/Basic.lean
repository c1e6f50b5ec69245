import Verif.Main.Model
import Mathlib.Algebra.Order.Floor.Ring
import Mathlib.Algebra.Order.Field.Basic
import Mathlib.Data.Rat.Floor
import Mathlib.Algebra.Order.Ring.Abs
import Mathlib.Tactic.Linarith
import Mathlib.Tactic.Positivity
import Mathlib.Tactic.FieldSimp
import Mathlib.Tactic.IntervalCases
import Mathlib.Tactic.NormNum
import Mathlib.Tactic.GCongr

/-!
C81, C83-C86, C102, C103: mode selection, snapshot iteration, segment names, integer helpers, pixel and
particle counts of `render/main/main.go`.
-/

set_option autoImplicit false

namespace Verif.Main
open Verif.Go Verif.Geom

/-! ## C86: the mode -/

theorem modes_eq (vars : List (String × String)) (l : List String) :
    vars.foldl (fun s v => if v.2 ≠ "" then s ++ [v.1] else s) l =
      l ++ (vars.filter fun v => v.2 ≠ "").map (·.1) := by
  induction vars generalizing l with
  | nil => simp
  | cons v vs ih =>
    rw [List.foldl_cons, ih]
    by_cases h : v.2 = ""
    · simp [h]
    · simp [h]

theorem getModeName_iff (vars : List (String × String)) (n : String) :
    getModeName vars = some n ↔ ∃ v, (vars.filter fun v => v.2 ≠ "") = [(n, v)] := by
  unfold getModeName
  simp only [modes_eq, List.nil_append, List.length_map]
  generalize (vars.filter fun v => decide (v.2 ≠ "")) = l
  rcases l with _ | ⟨a, _ | ⟨b, l⟩⟩
  · simp
  · obtain ⟨a1, a2⟩ := a
    simp
  · simp

/-- C86: a mode runs exactly when one flag is set and it is that mode's, in whatever order the flags are
visited. -/
theorem C86_mode (vars : List (String × String)) (hn : vars.Nodup) (n : String) :
    getModeName vars = some n ↔
      ∃ v, v ≠ "" ∧ (n, v) ∈ vars ∧ ∀ q ∈ vars, q.2 ≠ "" → q = (n, v) := by
  rw [getModeName_iff]
  constructor
  · rintro ⟨v, h⟩
    have hm : ∀ q, q ∈ vars.filter (fun v => decide (v.2 ≠ "")) ↔ q = (n, v) := by
      intro q
      rw [h, List.mem_singleton]
    have h1 := (hm (n, v)).mpr rfl
    rw [List.mem_filter] at h1
    refine ⟨v, by simpa using h1.2, h1.1, fun q hq hq2 => (hm q).mp ?_⟩
    rw [List.mem_filter]
    exact ⟨hq, by simpa using hq2⟩
  · rintro ⟨v, hv, hm, hu⟩
    refine ⟨v, ?_⟩
    have hnd := hn.filter fun v => decide (v.2 ≠ "")
    have hmem : ∀ q ∈ vars.filter (fun v => decide (v.2 ≠ "")), q = (n, v) := by
      intro q hq
      rw [List.mem_filter] at hq
      exact hu q hq.1 (by simpa using hq.2)
    have hin : (n, v) ∈ vars.filter (fun v => decide (v.2 ≠ "")) := by
      rw [List.mem_filter]
      exact ⟨hm, by simpa using hv⟩
    revert hnd hmem hin
    generalize vars.filter (fun v => decide (v.2 ≠ "")) = l
    intro hnd hmem hin
    rcases l with _ | ⟨a, _ | ⟨b, l⟩⟩
    · simp at hin
    · rw [hmem a (by simp)]
    · have h1 := hmem a (by simp)
      have h2 := hmem b (by simp)
      rw [h1, h2] at hnd
      simp at hnd

/-- C86: the order in which the flags are visited is irrelevant. -/
theorem C86_order (vars vars' : List (String × String)) (h : vars.Perm vars') :
    getModeName vars = getModeName vars' := by
  have hf := h.filter fun v => decide (v.2 ≠ "")
  refine Option.ext fun n => ?_
  rw [getModeName_iff, getModeName_iff]
  constructor
  · rintro ⟨v, e⟩
    rw [e] at hf
    exact ⟨v, List.singleton_perm.mp hf |>.symm ▸ rfl⟩
  · rintro ⟨v, e⟩
    rw [e] at hf
    exact ⟨v, List.perm_singleton.mp hf⟩

example : getModeName [("TetraHist", ""), ("Render", "a.cfg"), ("ConvertSnapshot", "")] = some "Render" ∧
    getModeName [("TetraHist", ""), ("Render", "")] = none ∧
    getModeName [("TetraHist", "b"), ("Render", "a")] = none ∧
    [("TetraHist", ""), ("Render", "a.cfg"), ("ConvertSnapshot", "")].Nodup := by decide +kernel

/-! ## C83: snapshot iteration -/

/-- The snapshots a configuration asks for: the single input, or the iterated ones of an inclusive range. -/
def requested (sprintf : String → ℤ → String) (con : ConvertConfig) : List (String × String) :=
  if con.iteratedInput = "" then [(con.input, con.output)]
  else (List.range (con.iterationEnd + 1 - con.iterationStart).toNat).map fun (k : ℕ) =>
    (sprintf con.iteratedInput (con.iterationStart + k), sprintf con.iteratedOutput (con.iterationStart + k))

theorem iterFrom_foldlM {σ : Type} (body : ℤ → σ → Option σ) (n : ℕ) : ∀ (lo : ℤ) (s : σ),
    iterFrom body n lo s = ((List.range n).map fun (k : ℕ) => lo + k).foldlM (fun s i => body i s) s := by
  induction n with
  | zero => intro lo s; rfl
  | succ n ih =>
    intro lo s
    rw [List.range_succ_eq_map, List.map_cons, List.map_map, List.foldlM_cons]
    change (body lo s).bind _ = (body (lo + ((0 : ℕ) : ℤ)) s).bind _
    rw [Nat.cast_zero, add_zero]
    congr 1
    funext t
    rw [ih]
    congr 1
    refine List.map_congr_left fun k _ => ?_
    simp only [Function.comp, Nat.succ_eq_add_one, Nat.cast_add, Nat.cast_one]
    ring

/-- C83 (partial): the snapshots converted are, in order, the single input or the iterated ones from
`IterationStart` to `IterationEnd` inclusive, and a failure stops the run. Missing: when `IterationEnd` is
unset nothing is converted (see the counterexample), although the documentation promises all that exist. -/
theorem C83_range_partial {σ : Type} (sprintf : String → ℤ → String)
    (convert : String → String → σ → Option σ) (con : ConvertConfig) (s : σ) :
    lGadget2Main sprintf convert con s =
      (requested sprintf con).foldlM (fun s io => convert io.1 io.2 s) s := by
  unfold lGadget2Main requested ConvertConfig.validIteratedInput
  by_cases h : con.iteratedInput = ""
  · simp only [h, ne_eq, not_true_eq_false, decide_false, Bool.false_eq_true, if_false, if_true]
    unfold forRange
    change (convert con.input con.output s).bind some = (convert con.input con.output s).bind some
    rfl
  · simp only [h, ne_eq, not_false_eq_true, decide_true, if_true, if_false]
    unfold forRange
    rw [iterFrom_foldlM, List.foldlM_map, List.foldlM_map]

/-- Counterexample to C83: with iterated input and the default `IterationEnd`, no snapshot is converted, for
every start and whatever directories exist. -/
theorem C83_unset_counterexample {σ : Type} (sprintf : String → ℤ → String)
    (convert : String → String → σ → Option σ) (fin fout : String) (hf : fin ≠ "") (start : ℤ) (h0 : 0 ≤ start)
    (s : σ) :
    lGadget2Main sprintf convert { defaultConvert with
      iteratedInput := fin, iteratedOutput := fout, iterationStart := start } s = some s := by
  rw [C83_range_partial]
  unfold requested defaultConvert
  simp only [hf, if_false]
  rw [show ((-1 : ℤ) + 1 - start).toNat = 0 by omega]
  rfl

example : lGadget2Main (fun f i => f ++ toString i) (fun i o s => some (s ++ [(i, o)]))
    ⟨"", "", "in", "out", 3, 5, 8⟩ [] = some [("in3", "out3"), ("in4", "out4"), ("in5", "out5")] := by
  decide +kernel

/-! ## C84, C85 -/

/-- C84 (partial): `validCellNum` accepts exactly the positive numbers, so every power of two passes and no
non-positive number does. Missing: other positive numbers are accepted too. -/
theorem C84_positive_partial (c : ℤ) : validCellNum c = true ↔ 1 ≤ c := by
  by_cases h : c > 1
  · rw [validCellNum, if_pos h, C84_positive_partial (c.tdiv 2), Int.tdiv_eq_ediv_of_nonneg (by omega)]
    omega
  · rw [validCellNum, if_neg h, decide_eq_true_iff]
    omega
termination_by c.toNat
decreasing_by
  rw [Int.tdiv_eq_ediv_of_nonneg (by omega)]
  omega

theorem C84_powers (k : ℕ) : validCellNum (2 ^ k) = true := by
  rw [C84_positive_partial]
  have : (0 : ℤ) < 2 ^ k := by positivity
  omega

/-- Counterexample to C84: infinitely many numbers that are no power of two are accepted. -/
theorem C84_counterexample (k : ℕ) :
    validCellNum (2 * k + 3) = true ∧ ¬ ∃ m : ℕ, (2 * (k : ℤ) + 3) = 2 ^ m := by
  refine ⟨(C84_positive_partial _).mpr (by omega), ?_⟩
  rintro ⟨m, h⟩
  rcases m with _ | m
  · simp at h; omega
  · rw [pow_succ] at h
    omega

example : validCellNum 8 = true ∧ validCellNum 0 = false ∧ validCellNum (-4) = false := by
  refine ⟨(C84_positive_partial _).mpr (by norm_num), ?_, ?_⟩ <;>
    rw [Bool.eq_false_iff, ne_eq, C84_positive_partial] <;> norm_num

theorem round_near (x : ℚ) : |(round x : ℚ) - x| ≤ 1 / 2 := by
  have h1 := Int.floor_le x
  have h2 := Int.le_ceil x
  have h3 : (⌈x⌉ : ℚ) ≤ ⌊x⌋ + 1 := by exact_mod_cast Int.ceil_le_floor_add_one x
  unfold round
  split_ifs with h
  · rw [abs_le]; constructor <;> linarith
  · rw [abs_le]; constructor <;> linarith

/-- `round` finds the integer that is closer than one half. -/
theorem round_eq (x : ℚ) (n : ℤ) (h : |x - n| < 1 / 2) : round x = n := by
  have h1 := abs_le.mp (round_near x)
  have h2 := abs_lt.mp h
  have h3 : (round x : ℚ) < n + 1 := by linarith
  have h4 : (n : ℚ) - 1 < round x := by linarith
  have h3' : round x < n + 1 := by exact_mod_cast h3
  have h4' : n - 1 < round x := by exact_mod_cast h4
  omega

/-- C85: whatever the power function returns, a result of `intCubeRoot` is an exact cube root. -/
theorem C85_exact (pow : ℤ → ℚ) (x r : ℤ) (h : intCubeRoot pow x = some r) : r ^ 3 = x := by
  unfold intCubeRoot at h
  simp only at h
  split_ifs at h with h'
  · rw [Option.some.injEq] at h
    rw [← h, pow_three', not_not.mp h']

/-- C85: a perfect cube is accepted when the power function is off by less than one half. -/
theorem C85_complete (pow : ℤ → ℚ) (r : ℤ) (h : |pow (r ^ 3) - r| < 1 / 2) : intCubeRoot pow (r ^ 3) = some r := by
  unfold intCubeRoot
  simp only [round_eq _ _ h]
  rw [if_neg]
  rw [not_not]
  ring

/-- C85: what is no cube is rejected, whatever the power function returns. -/
theorem C85_rejects (pow : ℤ → ℚ) (x : ℤ) (h : ¬ ∃ r : ℤ, r ^ 3 = x) : intCubeRoot pow x = none := by
  cases e : intCubeRoot pow x with
  | none => rfl
  | some r => exact absurd ⟨r, C85_exact pow x r e⟩ h

example : intCubeRoot (fun _ => 1023999 / 1000) (1024 ^ 3) = some 1024 ∧
    intCubeRoot (fun _ => 1024) (1024 ^ 3 + 1) = none := by decide +kernel

/-! ## C81: names -/

/-- The decimal digit of a one digit number. -/
theorem digit {x : ℤ} (h0 : 0 ≤ x) (h1 : x < 10) :
    (toString x).toList = [Char.ofNat (48 + x.toNat)] := by
  interval_cases x <;> decide

theorem digit_inj {x y : ℤ} (h0 : 0 ≤ x) (h1 : x < 10) (k0 : 0 ≤ y) (k1 : y < 10)
    (h : Char.ofNat (48 + x.toNat) = Char.ofNat (48 + y.toNat)) : x = y := by
  have hv : ∀ z : ℤ, 0 ≤ z → z < 10 → (Char.ofNat (48 + z.toNat)).toNat = 48 + z.toNat := by
    intro z _ _
    interval_cases z <;> decide
  have := congrArg Char.toNat h
  rw [hv x h0 h1, hv y k0 k1] at this
  omega

/-- C81 (partial): with at most ten cells on a side no two segments get the same file name. Missing: from
eleven cells on, names collide (see the counterexample). -/
theorem C81_names_partial (c : ℤ) (hc : c ≤ 10) (x y z x' y' z' : ℤ)
    (h : 0 ≤ x ∧ x < c ∧ 0 ≤ y ∧ y < c ∧ 0 ≤ z ∧ z < c)
    (h' : 0 ≤ x' ∧ x' < c ∧ 0 ≤ y' ∧ y' < c ∧ 0 ≤ z' ∧ z' < c)
    (e : sheetName x y z = sheetName x' y' z') : x = x' ∧ y = y' ∧ z = z' := by
  have e := congrArg String.toList e
  unfold sheetName at e
  simp only [String.toList_append] at e
  rw [digit h.1 (by omega), digit (x := y) (by omega) (by omega), digit (x := z) (by omega) (by omega),
    digit h'.1 (by omega), digit (x := y') (by omega) (by omega), digit (x := z') (by omega) (by omega)] at e
  have e := List.append_cancel_right e
  simp only [List.append_assoc] at e
  have e := List.append_cancel_left e
  simp only [List.cons_append, List.nil_append, List.cons.injEq, and_true] at e
  exact ⟨digit_inj (by omega) (by omega) (by omega) (by omega) e.1,
    digit_inj (by omega) (by omega) (by omega) (by omega) e.2.1,
    digit_inj (by omega) (by omega) (by omega) (by omega) e.2.2⟩

/-- Counterexample to C81: with eleven or more cells on a side, two segments share a name, so one file
overwrites the other. -/
theorem C81_counterexample (c : ℤ) (hc : 11 ≤ c) :
    ∃ x y z x' y' z' : ℤ, (0 ≤ x ∧ x < c ∧ 0 ≤ y ∧ y < c ∧ 0 ≤ z ∧ z < c) ∧
      (0 ≤ x' ∧ x' < c ∧ 0 ≤ y' ∧ y' < c ∧ 0 ≤ z' ∧ z' < c) ∧ (x, y, z) ≠ (x', y', z') ∧
      sheetName x y z = sheetName x' y' z' := by
  refine ⟨1, 0, 10, 10, 1, 0, by omega, by omega, by decide, ?_⟩
  decide

example : sheetName 7 0 3 = "sheet703.dat" := by decide

/-! ## C102: pixels -/

theorem maxWidth_spec (box : BoxCon) :
    (maxWidth box = box.xWidth ∨ maxWidth box = box.yWidth ∨ maxWidth box = box.zWidth) ∧
      box.xWidth ≤ maxWidth box ∧ box.yWidth ≤ maxWidth box ∧ box.zWidth ≤ maxWidth box := by
  unfold maxWidth
  simp only
  split_ifs with h1 h2 h2 <;> refine ⟨by simp, ?_, ?_, ?_⟩ <;> linarith

/-- C102: when `ImagePixels` is set, the widest side of the image spans that many pixels, up to half a pixel,
no side spans more, and the box has at least `ImagePixels` pixels on a side. -/
theorem C102_image (con : RenderCon) (box : BoxCon) (L w : ℚ) (hp : 0 < con.imagePixels)
    (hw : w = box.xWidth ∨ w = box.yWidth ∨ w = box.zWidth)
    (hmax : box.xWidth ≤ w ∧ box.yWidth ≤ w ∧ box.zWidth ≤ w) (h0 : 0 < w) (hL : w ≤ L) :
    ∃ n, totalPixels con box L = some n ∧ con.imagePixels ≤ n ∧
      |w / (L / n) - con.imagePixels| ≤ 1 / 2 := by
  have hm : maxWidth box = w := by
    obtain ⟨h1, h2, h3, h4⟩ := maxWidth_spec box
    apply le_antisymm
    · rcases h1 with h | h | h <;> rw [h] <;> tauto
    · rcases hw with h | h | h <;> rw [h] <;> assumption
  refine ⟨round (L / w * con.imagePixels), ?_, ?_, ?_⟩
  · unfold totalPixels
    rw [if_pos hp]
    simp only [hm]
    rw [if_neg (not_lt.mpr hL)]
  · have hr := abs_le.mp (round_near (L / w * con.imagePixels))
    have h1 : (1 : ℚ) ≤ L / w := by rwa [one_le_div h0]
    have hpq : (0 : ℚ) < con.imagePixels := by exact_mod_cast hp
    have h2 : (con.imagePixels : ℚ) ≤ L / w * con.imagePixels := by nlinarith
    have h3 : (con.imagePixels : ℚ) - 1 < round (L / w * con.imagePixels) := by linarith [hr.1]
    have : con.imagePixels - 1 < round (L / w * con.imagePixels) := by exact_mod_cast h3
    omega
  · set q : ℚ := L / w * con.imagePixels with hq
    have hr := round_near q
    have hLp : 0 < L := lt_of_lt_of_le h0 hL
    have h1 : w / L ≤ 1 := by rwa [div_le_one hLp]
    have h2 : 0 < w / L := by positivity
    have e : w / (L / (round q : ℚ)) - con.imagePixels = w / L * ((round q : ℚ) - q) := by
      rw [hq]
      field_simp
    rw [e, abs_mul, abs_of_pos h2]
    calc w / L * |(round q : ℚ) - q| ≤ 1 * (1 / 2) := by gcongr
      _ = 1 / 2 := by norm_num

/-- C102: a box wider than the simulation is refused, and without `ImagePixels` the number given is used. -/
theorem C102_other (con : RenderCon) (box : BoxCon) (L : ℚ) :
    (0 < con.imagePixels → L < box.xWidth ∨ L < box.yWidth ∨ L < box.zWidth → totalPixels con box L = none) ∧
    (con.imagePixels ≤ 0 → totalPixels con box L = some con.totalPixels) := by
  obtain ⟨_, h2, h3, h4⟩ := maxWidth_spec box
  constructor
  · intro hp h
    unfold totalPixels
    rw [if_pos hp]
    simp only
    rw [if_pos]
    rcases h with h | h | h <;> linarith
  · intro hp
    unfold totalPixels
    rw [if_neg (by omega)]

example : totalPixels ⟨100, 0, 0, 0, 1, true⟩ ⟨10, 20, 5, "Z"⟩ 125 = some 625 ∧
    totalPixels ⟨100, 0, 0, 0, 1, true⟩ ⟨10, 200, 5, "Z"⟩ 125 = none ∧
    totalPixels ⟨0, 512, 0, 0, 1, true⟩ ⟨10, 200, 5, "Z"⟩ 125 = some 512 := by decide +kernel

/-! ## C103: particles per tetrahedron -/

/-- The number of cells which the box covers along the projection axis, one without projection. -/
def projected (box : BoxCon) (cellWidth : ℚ) : ℤ :=
  if box.projectionAxis = "X" then ⌈box.xWidth / cellWidth⌉
  else if box.projectionAxis = "Y" then ⌈box.yWidth / cellWidth⌉
  else if box.projectionAxis = "Z" then ⌈box.zWidth / cellWidth⌉
  else 1

theorem projected_pos (box : BoxCon) (cw : ℚ) (hc : 0 < cw)
    (h : 0 < box.xWidth ∧ 0 < box.yWidth ∧ 0 < box.zWidth) : 0 < projected box cw := by
  obtain ⟨h1, h2, h3⟩ := h
  unfold projected
  split_ifs
  · rw [Int.ceil_pos]; positivity
  · rw [Int.ceil_pos]; positivity
  · rw [Int.ceil_pos]; positivity
  · norm_num

/-- The sampling rule: five particles for 500 pixels across and no subsampling, scaled with the volumes of
pixels and tetrahedra and shared out over the projected cells. -/
def rule (pixels subsample depth : ℤ) : ℚ :=
  5 * ((pixels : ℚ) / 500) ^ 3 * (subsample : ℚ) ^ 3 / depth

/-- C103: with `AutoParticles` the particle count follows the sampling rule for the depth of this box, and is
positive; what an earlier box left in the configuration has no influence. -/
theorem C103_auto (con : RenderCon) (box : BoxCon) (L : ℚ) (pixels d : ℤ) (ha : con.autoParticles = true)
    (hL : 0 < L) (hs : 0 < con.subsampleLength) (hp : 0 < pixels)
    (hw : 0 < box.xWidth ∧ 0 < box.yWidth ∧ 0 < box.zWidth) (ht : totalPixels con box L = some pixels) :
    ∃ n con', particles { con with projectionDepth := d } box L = some (n, con') ∧ 0 < n ∧
      n = ⌈rule pixels con.subsampleLength (projected box (L / pixels))⌉ ∧
      con' = { con with projectionDepth := projected box (L / pixels) } := by
  have hpq : (0 : ℚ) < pixels := by exact_mod_cast hp
  have hsq : (0 : ℚ) < con.subsampleLength := by exact_mod_cast hs
  have hd := projected_pos box (L / pixels) (by positivity) hw
  have hdq : (0 : ℚ) < projected box (L / pixels) := by exact_mod_cast hd
  refine ⟨_, _, ?_, ?_, rfl, rfl⟩
  · unfold particles
    simp only [ha, if_true]
    have ht' : ∀ d, totalPixels ⟨con.imagePixels, con.totalPixels, con.particles, d, con.subsampleLength, true⟩
        box L = some pixels := fun d => ht
    rw [ht']
    change ((if projected box (L / pixels) > 0 then _ else _ : Option (ℤ × RenderCon))) = _
    rw [if_pos hd, ht']
    change some (⌈5 * ((pixels : ℚ) / 500) ^ 3 * ((con.subsampleLength : ℚ) / 1) ^ 3 *
      (1 / (projected box (L / pixels) : ℚ))⌉, _) = _
    rw [div_one, mul_one_div]
    rfl
  · rw [Int.ceil_pos]
    unfold rule
    positivity

/-- C103: without `AutoParticles` a given depth is used with the same rule, and otherwise the given number of
particles; the configuration is left alone. -/
theorem C103_given (con : RenderCon) (box : BoxCon) (L : ℚ) (pixels : ℤ) (ha : con.autoParticles = false)
    (hs : 0 < con.subsampleLength) (hp : 0 < pixels) (ht : totalPixels con box L = some pixels) :
    particles con box L = some (if 0 < con.projectionDepth then
      ⌈rule pixels con.subsampleLength con.projectionDepth⌉ else con.particles, con) ∧
    (0 < con.projectionDepth → 0 < ⌈rule pixels con.subsampleLength con.projectionDepth⌉) := by
  have hpq : (0 : ℚ) < pixels := by exact_mod_cast hp
  have hsq : (0 : ℚ) < con.subsampleLength := by exact_mod_cast hs
  constructor
  · unfold particles
    simp only [ha, Bool.false_eq_true, if_false]
    change (if con.projectionDepth > 0 then _ else _ : Option (ℤ × RenderCon)) = _
    by_cases h : con.projectionDepth > 0
    · rw [if_pos h, if_pos h, ht]
      change some (⌈5 * ((pixels : ℚ) / 500) ^ 3 * ((con.subsampleLength : ℚ) / 1) ^ 3 *
        (1 / (con.projectionDepth : ℚ))⌉, _) = _
      rw [div_one, mul_one_div]
      rfl
    · rw [if_neg h, if_neg h]
  · intro h
    have hdq : (0 : ℚ) < con.projectionDepth := by exact_mod_cast h
    rw [Int.ceil_pos]
    unfold rule
    positivity

/-- C103: more pixels or coarser subsampling never lower the particle count and a deeper projection never
raises it. -/
theorem C103_monotone (p p' s s' d d' : ℤ) (hp : 0 ≤ p) (hpp : p ≤ p') (hs : 0 ≤ s) (hss : s ≤ s') (hd : 0 < d')
    (hdd : d' ≤ d) : ⌈rule p s d⌉ ≤ ⌈rule p' s' d'⌉ := by
  apply Int.ceil_le_ceil
  unfold rule
  have h1 : (0 : ℚ) ≤ p := by exact_mod_cast hp
  have h2 : (p : ℚ) ≤ p' := by exact_mod_cast hpp
  have h3 : (0 : ℚ) ≤ s := by exact_mod_cast hs
  have h4 : (s : ℚ) ≤ s' := by exact_mod_cast hss
  have h5 : (0 : ℚ) < d' := by exact_mod_cast hd
  have h6 : (d' : ℚ) ≤ d := by exact_mod_cast hdd
  have h7 : (0 : ℚ) ≤ p' := h1.trans h2
  have h8 : (0 : ℚ) ≤ s' := h3.trans h4
  gcongr

example : (particles ⟨100, 0, 0, 9, 2, true⟩ ⟨10, 20, 5, "Z"⟩ 125).map Prod.fst = some 4 ∧
    (particles ⟨0, 1000, 25, 0, 1, false⟩ ⟨10, 20, 5, ""⟩ 125).map Prod.fst = some 25 ∧
    (particles ⟨0, 1000, 25, 4, 1, false⟩ ⟨10, 20, 5, ""⟩ 125).map Prod.fst = some 10 := by decide +kernel

end Verif.Main
