import Verif.Fp.RandModel
import Verif.Rand.Lemmas2

/-! # C123, C124: the random number generators in machine arithmetic -/

set_option autoImplicit false

namespace Verif.Fp

open Verif.Go Verif.Rand

/-- A `float64` value. -/
abbrev F64 (x : ℚ) : Prop := Rep 53 x

/-- A `float32` value. -/
abbrev F32 (x : ℚ) : Prop := Rep 24 x

theorem f64_rep (x : ℚ) : F64 (f64 x) := rep_rnd (by norm_num) x
theorem f64_of {x : ℚ} (h : F64 x) : f64 x = x := rnd_of_rep h
theorem f64_le {x y : ℚ} (hy : F64 y) (h : x ≤ y) : f64 x ≤ y := rnd_le (by norm_num) hy h
theorem le_f64 {x y : ℚ} (hx : F64 x) (h : x ≤ y) : x ≤ f64 y := le_rnd (by norm_num) hx h
theorem f64_mono {x y : ℚ} (h : x ≤ y) : f64 x ≤ f64 y := rnd_mono (by norm_num) h
theorem f64_nonneg {x : ℚ} (h : 0 ≤ x) : 0 ≤ f64 x := rnd_nonneg (by norm_num) h
theorem f64_zero : f64 0 = 0 := rnd_zero 53
theorem f64_int {m : ℤ} (h : |m| ≤ 2 ^ 53) : F64 m := rep_of_int h (by norm_num)

/-- Sums and products within a bound that is a number of the format. -/
theorem mulAdd_le (fused : Bool) {a b c d t : ℚ} (hd : rnd 53 (a * b) ≤ d) (hd' : a * b ≤ d) (ht : F64 t) (h : d + c ≤ t) :
    mulAdd fused 53 a b c ≤ t := by
  unfold mulAdd
  split_ifs
  · exact rnd_le (by norm_num) ht (by linarith)
  · exact rnd_le (by norm_num) ht (by linarith)

theorem le_mulAdd (fused : Bool) {a b c : ℚ} (h0 : 0 ≤ a * b) (hc : F64 c) : c ≤ mulAdd fused 53 a b c := by
  unfold mulAdd
  split_ifs
  · exact le_rnd (by norm_num) hc (by linarith)
  · exact le_rnd (by norm_num) hc (by linarith [rnd_nonneg (p := 53) (by norm_num) h0])

/-! ### C123 -/

/-- C123: a draw from `[low, high)` is at least `low` and at most `high`. That it is below `high` is missing: see the
counterexample. -/
theorem C123_uniform_partial (fused : Bool) {low high f : ℚ} (hl : F64 low) (hh : F64 high) (h : low ≤ high) (hf : F64 f)
    (h0 : 0 ≤ f) (h1 : f < 1) : low ≤ uniform fused low high f ∧ uniform fused low high f ≤ high := by
  unfold uniform
  split_ifs with c
  · rw [c.1, c.2]; exact ⟨h0, h1.le⟩
  · have hd : 0 ≤ high - low := by linarith
    have hr : 0 ≤ f64 (high - low) := f64_nonneg hd
    refine ⟨le_mulAdd fused (mul_nonneg h0 hr) hl, ?_⟩
    refine mulAdd_le fused (d := high - low) (rnd_mul_rnd_le (by norm_num) hf h0 h1 hd) ?_ hh (by linarith)
    -- without rounding of the product
    have hmax : f ≤ 1 - (2 : ℚ) ^ (-(53 : ℤ)) := by
      by_contra hc
      rw [not_le] at hc
      have hhalf : (2 : ℚ) ^ (-1 : ℤ) ≤ |f| := by
        rw [abs_of_nonneg h0]
        refine le_trans ?_ hc.le
        norm_num
      obtain ⟨k, hk⟩ := rep_multiple hf hhalf
      norm_num at hk hc
      have a1 : (k : ℚ) < 2 ^ 53 := by rw [hk] at h1; norm_num at h1 ⊢; linarith
      have a2 : (2 ^ 53 - 1 : ℚ) < k := by rw [hk] at hc; norm_num at hc ⊢; linarith
      have b1 : k < 2 ^ 53 := by exact_mod_cast a1
      have b2 : (2 ^ 53 - 1 : ℤ) < k := by exact_mod_cast a2
      omega
    have he := rnd_err 53 (high - low)
    rw [abs_of_nonneg hd] at he
    have he2 : f64 (high - low) ≤ (high - low) * (1 + 1 / 2 ^ 53) := by
      have := (abs_le.mp he).2
      have e : (high - low) * (1 + 1 / 2 ^ 53) = (high - low) + (high - low) / 2 ^ 53 := by ring
      rw [e]
      unfold f64
      linarith
    calc f * f64 (high - low) ≤ (1 - (2 : ℚ) ^ (-(53 : ℤ))) * ((high - low) * (1 + 1 / 2 ^ 53)) := by
          apply mul_le_mul hmax he2 hr
          norm_num
      _ = (high - low) * (1 - 1 / 2 ^ 106) := by norm_num; ring
      _ ≤ high - low := by nlinarith

/-- C123: with `low = 0` the draw is below `high`. -/
theorem C123_uniform_zero (fused : Bool) {high f : ℚ} (hh : F64 high) (h : 0 < high) (hf : F64 f) (h0 : 0 ≤ f) (h1 : f < 1) :
    0 ≤ uniform fused 0 high f ∧ uniform fused 0 high f < high := by
  refine ⟨(C123_uniform_partial fused (rep_zero _) hh h.le hf h0 h1).1, ?_⟩
  have key := rnd_mul_lt (p := 53) (by norm_num) hf hh h h1
  unfold uniform
  split_ifs with c
  · rw [c.2]; exact h1
  · rw [sub_zero, f64_of hh]
    unfold mulAdd
    split_ifs
    · rwa [add_zero]
    · rwa [add_zero, rnd_idem (by norm_num)]

/-- C123: the same for blocks of draws, which are the draws one by one. -/
theorem C123_uniformAt_partial (fused : Bool) {low high : ℚ} (hl : F64 low) (hh : F64 high) (h : low ≤ high) (fs : List ℚ)
    (hf : ∀ f ∈ fs, F64 f ∧ 0 ≤ f ∧ f < 1) :
    uniformAt fused low high fs = fs.map (uniform fused low high) ∧
      ∀ v ∈ uniformAt fused low high fs, low ≤ v ∧ v ≤ high := by
  have e : uniformAt fused low high fs = fs.map (uniform fused low high) := by
    unfold uniformAt uniform
    split <;> simp
  refine ⟨e, ?_⟩
  rw [e]
  intro v hv
  obtain ⟨f, hf', rfl⟩ := List.mem_map.mp hv
  obtain ⟨a, b, c⟩ := hf f hf'
  exact C123_uniform_partial fused hl hh h a b c

/-- C123: a drawn integer is at least `low` and at most `high`. That it is below `high` is missing: see the counterexample. -/
theorem C123_uniformInt_partial (fused : Bool) {low high : ℤ} (hl : |low| ≤ 2 ^ 53) (hh : |high| ≤ 2 ^ 53)
    (hd : high - low ≤ 2 ^ 53) (h : low ≤ high) {f : ℚ} (h0 : 0 ≤ f) (h1 : f < 1) :
    low ≤ uniformInt fused low high f ∧ uniformInt fused low high f ≤ high := by
  have hdr : F64 ((high - low : ℤ) : ℚ) := f64_int (by rw [abs_of_nonneg (by omega)]; exact hd)
  have hd0 : (0 : ℚ) ≤ ((high - low : ℤ) : ℚ) := by exact_mod_cast (by omega : 0 ≤ high - low)
  unfold uniformInt
  rw [f64_of hdr, f64_of (f64_int hl)]
  constructor
  · rw [Int.le_floor]
    exact le_mulAdd fused (mul_nonneg hd0 h0) (f64_int hl)
  · have hle : ((high - low : ℤ) : ℚ) * f ≤ ((high - low : ℤ) : ℚ) := by nlinarith
    have : mulAdd fused 53 ((high - low : ℤ) : ℚ) f (low : ℚ) ≤ (high : ℚ) :=
      mulAdd_le fused (rnd_le (by norm_num) hdr hle) hle (f64_int hh) (by push_cast; linarith)
    exact_mod_cast (Int.floor_le _).trans this

/-- C123: an integer drawn from `[0, high)` is in the range. (This is how the renderer picks its sample points.) -/
theorem C123_uniformInt_zero (fused : Bool) {high : ℤ} (hh : high ≤ 2 ^ 53) (h : 0 < high) {f : ℚ} (hf : F64 f)
    (h0 : 0 ≤ f) (h1 : f < 1) : 0 ≤ uniformInt fused 0 high f ∧ uniformInt fused 0 high f < high := by
  refine ⟨(C123_uniformInt_partial fused (by norm_num) (by rw [abs_of_pos h]; exact hh) (by omega) h.le h0 h1).1, ?_⟩
  have hhr : F64 (high : ℚ) := f64_int (by rw [abs_of_pos h]; exact hh)
  have hq : (0 : ℚ) < high := by exact_mod_cast h
  have key := rnd_mul_lt (p := 53) (by norm_num) hf hhr hq h1
  rw [mul_comm] at key
  unfold uniformInt
  rw [sub_zero, f64_of hhr, Int.cast_zero, f64_zero, Int.floor_lt]
  unfold mulAdd
  split_ifs
  · rwa [add_zero]
  · rwa [add_zero, rnd_idem (by norm_num)]

/-- C123: the upper end can be drawn. A draw from `[1, 2)` can be 2; and the first integer that a Xorshift generator with
seed 3656011084 draws from `[4194304, 4194305)` is 4194305. -/
theorem C123_counterexample (fused : Bool) :
    (F64 (1 - 1 / 2 ^ 53) ∧ uniform fused 1 2 (1 - 1 / 2 ^ 53) = 2) ∧
      ∃ g f, xorNext (Xor.init 3656011084) = some (g, f) ∧ uniformInt fused 4194304 4194305 f = 4194305 := by
  refine ⟨⟨⟨2 ^ 53 - 1, -53, by norm_num, by norm_num⟩, by cases fused <;> decide +kernel⟩, ?_⟩
  refine ⟨_, _, (by decide +kernel : xorNext (Xor.init 3656011084) = some (⟨1, 362436069, 521288629, 3656011084⟩,
    4294967295 / 4294967296)), ?_⟩
  cases fused <;> decide +kernel

example : ∃ g f, xorNext (Xor.init 7) = some (g, f) ∧ uniformInt false 0 25 f = 3 := by
  refine ⟨(Xor.init 7).step, xorValue (Xor.init 7).step, by decide +kernel, by decide +kernel⟩

/-! The values of Xorshift -/

theorem xorValue_eq (g : Xor) : xorValue g = f64 g.value := by
  have h : (4294967295#32 - g.w).toNat < 2 ^ 32 := (4294967295#32 - g.w).isLt
  unfold xorValue Xor.value
  have a : F64 ((4294967295#32 - g.w).toNat : ℚ) := by
    generalize (4294967295#32 - g.w).toNat = k at h ⊢
    have := f64_int (m := (k : ℤ)) (by rw [abs_of_nonneg (by positivity)]; norm_cast; omega)
    exact_mod_cast this
  have b : F64 (4294967295 : ℚ) := by
    have := f64_int (m := 4294967295) (by norm_num)
    exact_mod_cast this
  rw [f64_of a, f64_of b]

theorem xorValue_eq_one (g : Xor) : xorValue g = 1 ↔ g.value = 1 := by
  rw [xorValue_eq]
  constructor
  · intro h
    by_contra hc
    have hle := (Xor.value_range g).2
    have h2 : g.value ≤ 1 - 1 / 2 ^ 53 := by
      unfold Xor.value at hc hle ⊢
      generalize (4294967295#32 - g.w).toNat = k at hc hle ⊢
      have hk : k ≤ 4294967295 := by
        rw [div_le_one (by norm_num)] at hle
        exact_mod_cast hle
      have hk2 : k ≠ 4294967295 := by
        rintro rfl
        norm_num at hc
      have hk3 : (k : ℚ) ≤ 4294967294 := by exact_mod_cast (by omega : k ≤ 4294967294)
      rw [div_le_iff₀ (by norm_num)]
      norm_num
      linarith
    have h3 : f64 g.value ≤ 1 - 1 / 2 ^ 53 := f64_le ⟨2 ^ 53 - 1, -53, by norm_num, by norm_num⟩ h2
    rw [h] at h3
    norm_num at h3
  · intro h
    rw [h]
    exact f64_of (rep_one (by norm_num))

theorem xorNextFuel_eq (n : ℕ) : ∀ g : Xor, xorNextFuel n g = (Xor.nextFuel n g).map fun r => (r.1, f64 r.2) := by
  induction n with
  | zero => intro g; rfl
  | succ n ih =>
    intro g
    simp only [xorNextFuel, Xor.nextFuel, xorValue_eq_one]
    split_ifs
    · exact ih _
    · simp [xorValue_eq]

theorem draws_map {S : Type} (next next' : S → Option (S × ℚ)) (F : ℚ → ℚ)
    (h : ∀ s, next' s = (next s).map fun r => (r.1, F r.2)) (n : ℕ) :
    ∀ s, draws next' n s = (draws next n s).map fun r => (r.1, r.2.map F) := by
  induction n with
  | zero => intro s; rfl
  | succ n ih =>
    intro s
    simp only [draws, bind, h]
    cases next s with
    | none => rfl
    | some r =>
      simp only [Option.map_some, Option.bind_some, ih]
      cases draws next n r.1 with
      | none => rfl
      | some q => rfl

/-- C123: the values of Xorshift in machine arithmetic are the exact ones, rounded, and in `[0, 1)`; a value is drawn anew
in the same cases. -/
theorem C123_xorshift (seed : BitVec 64) (n : ℕ) : ∃ g vs, draws Xor.next n (Xor.init seed) = some (g, vs) ∧
    draws xorNext n (Xor.init seed) = some (g, vs.map f64) ∧ ∀ v ∈ vs.map f64, F64 v ∧ 0 ≤ v ∧ v < 1 := by
  obtain ⟨g, vs, e, -, -⟩ := Xor.draws_isSome n _ (Xor.init_nonzero seed)
  have e2 := draws_map Xor.next xorNext f64 (fun s => xorNextFuel_eq 4 s) n (Xor.init seed)
  rw [e] at e2
  refine ⟨g, vs, e, e2, ?_⟩
  -- values are values of states that are not drawn anew
  have key : ∀ n (s s' : Xor) (ws : List ℚ), draws xorNext n s = some (s', ws) → ∀ v ∈ ws, ∃ q : Xor, v = xorValue q ∧ v ≠ 1 := by
    intro n
    induction n with
    | zero => intro s s' ws h v hv; simp [draws] at h; rw [h.2] at hv; simp at hv
    | succ n ih =>
      intro s s' ws h v hv
      simp only [draws, bind, Option.bind_eq_some_iff] at h
      obtain ⟨⟨s1, w⟩, e1, ⟨s2, us⟩, e2, h⟩ := h
      simp only [Option.some.injEq, Prod.mk.injEq] at h
      rw [← h.2, List.mem_cons] at hv
      rcases hv with rfl | hv
      · have fuel : ∀ k (a b : Xor) (v : ℚ), xorNextFuel k a = some (b, v) → ∃ q : Xor, v = xorValue q ∧ v ≠ 1 := by
          intro k
          induction k with
          | zero => intro a b v h; cases h
          | succ k ihk =>
            intro a b v h
            simp only [xorNextFuel] at h
            split_ifs at h with c
            · exact ihk _ _ _ h
            · simp only [Option.some.injEq, Prod.mk.injEq] at h
              exact ⟨_, h.2.symm, by rw [← h.2]; exact c⟩
        exact fuel 4 _ _ _ e1
      · exact ih _ _ _ e2 v hv
  intro v hv
  obtain ⟨q, hq, h1⟩ := key n _ _ _ e2 v hv
  rw [hq, xorValue_eq] at h1 ⊢
  obtain ⟨r0, r1⟩ := Xor.value_range q
  exact ⟨f64_rep _, f64_nonneg r0, lt_of_le_of_ne (f64_le (rep_one (by norm_num)) r1) h1⟩

example : draws xorNext 1 (Xor.init 3656011084) =
    some (⟨1, 362436069, 521288629, 3656011084⟩, [4294967295 / 4294967296]) := by decide +kernel

/-! ### C124 -/

/-- The entries of a table of numbers of the format in `[0, 1]`. -/
def Entries (g : Taus) : Prop := ∀ v ∈ g.seq, F64 v ∧ 0 ≤ v ∧ v ≤ 1

/-- Indices of the table. -/
structure Inside (g : Taus) : Prop where
  leader : 0 ≤ g.leader ∧ g.leader < g.seq.length
  first : 0 ≤ g.firstFollower ∧ g.firstFollower < g.seq.length
  second : 0 ≤ g.secondFollower ∧ g.secondFollower < g.seq.length

theorem rd_mem {xs : List ℚ} {i : ℤ} {v : ℚ} (h : rd xs i = some v) : v ∈ xs := by
  rw [rd_some_iff] at h
  exact List.mem_of_getElem? h.2

theorem tausNext_ok {g : Taus} (hi : Inside g) (he : Entries g) :
    ∃ g' v, tausNext g = some (g', v) ∧ Inside g' ∧ Entries g' ∧ F64 v ∧ 0 ≤ v ∧ v ≤ 1 := by
  obtain ⟨⟨l0, l1⟩, ⟨a0, a1⟩, b0, b1⟩ := hi
  obtain ⟨a, ha⟩ := rd_isSome a0 a1
  obtain ⟨b, hb⟩ := rd_isSome b0 b1
  obtain ⟨ra, a2, a3⟩ := he a (rd_mem ha)
  obtain ⟨rb, b2, b3⟩ := he b (rd_mem hb)
  have one : F64 (1 : ℚ) := rep_one (by norm_num)
  have hv : F64 (if f64 (a - b) < 0 then f64 (f64 (a - b) + 1) else f64 (a - b)) ∧
      0 ≤ (if f64 (a - b) < 0 then f64 (f64 (a - b) + 1) else f64 (a - b)) ∧
      (if f64 (a - b) < 0 then f64 (f64 (a - b) + 1) else f64 (a - b)) ≤ 1 := by
    split_ifs with c
    · have : (-1 : ℚ) ≤ f64 (a - b) := le_f64 (rep_neg one) (by linarith)
      exact ⟨f64_rep _, f64_nonneg (by linarith), f64_le one (by linarith)⟩
    · exact ⟨f64_rep _, not_lt.mp c, f64_le one (by linarith)⟩
  obtain ⟨m, hm⟩ := Int.eq_ofNat_of_zero_le l0
  have hml : m < g.seq.length := by omega
  unfold tausNext
  rw [ha, hb, hm]
  simp only [bind, Option.bind_some, wr_natCast hml]
  refine ⟨_, _, rfl, ?_, ?_, hv⟩
  · constructor <;> simp only [List.length_set] <;> split_ifs <;> omega
  · intro w hw
    rcases List.mem_or_eq_of_mem_set hw with h | h
    · exact he w h
    · rw [h]; exact hv

/-- C124: all draws of the Tausworthe generator are in `[0, 1]` and no index leaves the table. That they are below 1 is
missing: see the counterexample. -/
theorem C124_range_partial (n : ℕ) : ∀ g : Taus, Inside g → Entries g →
    ∃ g' vs, draws tausNext n g = some (g', vs) ∧ vs.length = n ∧ ∀ v ∈ vs, F64 v ∧ 0 ≤ v ∧ v ≤ 1 := by
  induction n with
  | zero => intro g _ _; exact ⟨g, [], rfl, rfl, by simp⟩
  | succ n ih =>
    intro g hi he
    obtain ⟨g1, v, e1, hi1, he1, hv⟩ := tausNext_ok hi he
    obtain ⟨g2, vs, e2, hl, hvs⟩ := ih g1 hi1 he1
    refine ⟨g2, v :: vs, by simp [draws, e1, e2], by simp [hl], ?_⟩
    intro w hw
    rcases List.mem_cons.mp hw with rfl | hw
    · exact hv
    · exact hvs w hw

/-- Entries that are multiples of `2⁻⁵³`, as draws of many generators are. -/
def OnGrid (g : Taus) : Prop := ∀ v ∈ g.seq, (∃ k : ℤ, v = k * (2 : ℚ) ^ (-53 : ℤ)) ∧ 0 ≤ v ∧ v < 1

theorem grid_rep {k : ℤ} (h : |(k : ℚ) * (2 : ℚ) ^ (-53 : ℤ)| ≤ 1) : F64 ((k : ℚ) * (2 : ℚ) ^ (-53 : ℤ)) := by
  have := rep_of_multiple (p := 53) (by norm_num) (E := 0) (k := k) (by simpa using h)
  simpa using this

/-- C124: on tables of multiples of `2⁻⁵³` in `[0, 1)` the arithmetic is exact, so that the draws are those of C08. -/
theorem C124_exact (n : ℕ) : ∀ g : Taus, OnGrid g → draws tausNext n g = draws Taus.next n g := by
  induction n with
  | zero => intro g _; rfl
  | succ n ih =>
    intro g hg
    have step : tausNext g = g.next ∧ ∀ r, g.next = some r → OnGrid r.1 := by
      unfold tausNext Taus.next
      cases ha : rd g.seq g.firstFollower with
      | none => exact ⟨rfl, by intro r h; cases h⟩
      | some a =>
        cases hb : rd g.seq g.secondFollower with
        | none => exact ⟨rfl, by intro r h; cases h⟩
        | some b =>
          obtain ⟨⟨k, hk⟩, a0, a1⟩ := hg a (rd_mem ha)
          obtain ⟨⟨l, hl⟩, b0, b1⟩ := hg b (rd_mem hb)
          have hu : (2 : ℚ) ^ (-53 : ℤ) * 2 ^ 53 = 1 := by norm_num
          have e1 : a - b = ((k - l : ℤ) : ℚ) * (2 : ℚ) ^ (-53 : ℤ) := by rw [hk, hl]; push_cast; ring
          have e2 : a - b + 1 = ((k - l + 2 ^ 53 : ℤ) : ℚ) * (2 : ℚ) ^ (-53 : ℤ) := by
            rw [e1, Int.cast_add, add_mul]; norm_num
          have r1 : f64 (a - b) = a - b := by
            apply f64_of
            rw [e1]
            apply grid_rep
            rw [← e1, abs_le]; constructor <;> linarith
          have r2 : a - b < 0 → f64 (a - b + 1) = a - b + 1 := by
            intro c
            apply f64_of
            rw [e2]
            apply grid_rep
            rw [← e2, abs_le]; constructor <;> linarith
          have hval : (if f64 (a - b) < 0 then f64 (f64 (a - b) + 1) else f64 (a - b)) =
              if a - b < 0 then a - b + 1 else a - b := by
            rw [r1]
            split_ifs with c
            · exact r2 c
            · rfl
          simp only [bind, Option.bind_some, hval]
          refine ⟨trivial, ?_⟩
          intro r hr
          cases hw : wr g.seq g.leader (if a - b < 0 then a - b + 1 else a - b) with
          | none => rw [hw] at hr; cases hr
          | some seq =>
            rw [hw] at hr
            simp only [Option.bind_some, Option.some.injEq] at hr
            rw [← hr]
            intro w hmem
            simp only at hmem
            have hset : ∃ m : ℕ, seq = g.seq.set m (if a - b < 0 then a - b + 1 else a - b) := by
              exact ⟨_, (wr_some hw).2.2⟩
            obtain ⟨m, rfl⟩ := hset
            rcases List.mem_or_eq_of_mem_set hmem with h | h
            · exact hg w h
            · rw [h]
              split_ifs with c
              · exact ⟨⟨_, e2⟩, by linarith, by linarith⟩
              · exact ⟨⟨_, e1⟩, by linarith, by linarith⟩
    simp only [draws, bind, step.1]
    cases hn : g.next with
    | none => rfl
    | some r =>
      simp only [Option.bind_some]
      rw [ih r.1 (step.2 r hn)]

/-! The table -/

/-- Digit by digit: the sum of `v d / 2 ^ d`, every sum rounded. -/
def columnSum (v : ℕ → ℚ) : ℕ → ℚ
  | 0 => 0
  | d + 1 => f64 (columnSum v d + v d * (2 : ℚ) ^ (-(d : ℤ)))

theorem uniform_digit (fused : Bool) (j : ℕ) {x : ℚ} (hx : F64 x) :
    uniform fused 0 ((2 : ℚ) ^ (-(j : ℤ))) x = x * (2 : ℚ) ^ (-(j : ℤ)) := by
  unfold uniform
  split_ifs with c
  · rw [c.2, mul_one]
  · have h1 : f64 ((2 : ℚ) ^ (-(j : ℤ)) - 0) = (2 : ℚ) ^ (-(j : ℤ)) := by
      rw [sub_zero]; exact f64_of (rep_two (by norm_num) _)
    have h2 : rnd 53 (x * (2 : ℚ) ^ (-(j : ℤ))) = x * (2 : ℚ) ^ (-(j : ℤ)) := rnd_of_rep (rep_scale hx _)
    rw [h1]
    unfold mulAdd
    split_ifs <;> simp only [h2, add_zero]

theorem f64_half (j : ℕ) : f64 ((2 : ℚ) ^ (-(j : ℤ)) / 2) = (2 : ℚ) ^ (-((j + 1 : ℕ) : ℤ)) := by
  have : (2 : ℚ) ^ (-(j : ℤ)) / 2 = (2 : ℚ) ^ (-((j + 1 : ℕ) : ℤ)) := by
    push_cast
    rw [neg_add, zpow_add₀ two_ne_zero]
    norm_num
    ring
  rw [this]
  exact f64_of (rep_two (by norm_num) _)

theorem tausFill_spec (fused : Bool) (draw : ℕ → ℚ) (hd : ∀ k, F64 (draw k)) :
    ∃ s, tausFill fused draw = some s ∧ s.1.length = 9689 ∧
      ∀ k, k < 9689 → s.1[k]? = some (columnSum (fun d => draw (d * 9689 + k)) 15) := by
  unfold tausFill
  obtain ⟨s, e, h1, -, -, h4⟩ := forRange_spec
    (fun (j : ℤ) (s : List ℚ × ℚ × ℕ) => s.1.length = 9689 ∧ s.2.1 = (2 : ℚ) ^ (-j) ∧ s.2.2 = j.toNat * 9689 ∧
      ∀ k, k < 9689 → s.1[k]? = some (columnSum (fun d => draw (d * 9689 + k)) j.toNat))
    (lo := 0) (hi := tauswortheDigitsRandomized) (by decide)
    (fun _ s => do
      let (seq, f, pos) := s
      let s2 ← forRange 0 seq.length (fun i s => do
        let (seq, pos) := s
        let old ← rd seq i
        let seq ← wr seq i (f64 (old + uniform fused 0 f (draw pos)))
        some (seq, pos + 1)) (seq, pos)
      some (s2.1, f64 (f / 2), s2.2)) (List.replicate tauswortheSeqLen 0, 1, 0)
    (by
      refine ⟨List.length_replicate, by simp, by simp, ?_⟩
      intro k hk
      rw [List.getElem?_replicate, if_pos (show k < tauswortheSeqLen from hk)]
      rfl)
    (by
      rintro j ⟨seq, f, pos⟩ hj0 _ ⟨hl, hf, hpos, hb⟩
      obtain ⟨j, rfl⟩ := Int.eq_ofNat_of_zero_le hj0
      simp only [Int.toNat_natCast] at hl hf hpos hb ⊢
      obtain ⟨⟨seq2, pos2⟩, e2, hl2, hp2, hb2⟩ := forRange_spec
        (fun i (s : List ℚ × ℕ) => s.1.length = 9689 ∧ (s.2 : ℤ) = j * 9689 + i ∧
          ∀ k : ℕ, k < 9689 → s.1[k]? = some (columnSum (fun d => draw (d * 9689 + k)) (if (k : ℤ) < i then j + 1 else j)))
        (lo := 0) (hi := seq.length) (by omega)
        (fun i s => do
          let (seq, pos) := s
          let old ← rd seq i
          let seq ← wr seq i (f64 (old + uniform fused 0 f (draw pos)))
          some (seq, pos + 1)) (seq, pos)
        (by
          refine ⟨hl, by simp only [hpos]; push_cast; ring, ?_⟩
          intro k hk
          rw [if_neg (by omega)]
          exact hb k hk)
        (by
          rintro i ⟨sq, ps⟩ hi1 hi2 ⟨hl', hp', hb'⟩
          obtain ⟨m, rfl⟩ := Int.eq_ofNat_of_zero_le hi1
          simp only at hl' hp' hb' ⊢
          have hm : m < sq.length := by omega
          have hps : ps = j * 9689 + m := by omega
          have ho := hb' m (by omega)
          rw [if_neg (by omega), List.getElem?_eq_getElem hm] at ho
          simp only [rd_of_lt hm, bind, Option.bind_some, wr_natCast hm]
          refine ⟨_, rfl, by simpa using hl', by push_cast; omega, ?_⟩
          intro k hk
          simp only
          by_cases hkm : k = m
          · subst hkm
            rw [List.getElem?_set_self hm, if_pos (by omega), Option.some.inj ho, hf, uniform_digit fused j (hd ps), hps]
            rfl
          · rw [List.getElem?_set_ne (by omega), hb' k hk]
            congr 2
            by_cases c : (k : ℤ) < m
            · rw [if_pos c, if_pos (by omega)]
            · rw [if_neg c, if_neg (by omega)])
      rw [e2]
      simp only at hl2 hp2 hb2
      refine ⟨_, rfl, hl2, ?_, ?_, ?_⟩
      · simp only [hf]
        exact_mod_cast f64_half j
      · simp only
        rw [hl] at hp2
        have : ((j : ℤ) + 1).toNat = j + 1 := by omega
        rw [this]
        push_cast at hp2
        omega
      · intro k hk
        have h := hb2 k hk
        rw [if_pos (by omega)] at h
        have : ((j : ℤ) + 1).toNat = j + 1 := by omega
        rw [this]
        exact h)
  exact ⟨s, e, h1, h4⟩

theorem columnSum_range {v : ℕ → ℚ} (hv : ∀ d, 0 ≤ v d ∧ v d < 1) (d : ℕ) (hd : d ≤ 15) :
    F64 (columnSum v d) ∧ 0 ≤ columnSum v d ∧ columnSum v d ≤ 2 - 2 * (2 : ℚ) ^ (-(d : ℤ)) := by
  induction d with
  | zero => exact ⟨rep_zero _, le_rfl, by simp [columnSum]⟩
  | succ d ih =>
    obtain ⟨-, h1, h2⟩ := ih (by omega)
    have hpos : (0 : ℚ) < (2 : ℚ) ^ (-(d : ℤ)) := by positivity
    have e : (2 : ℚ) * (2 : ℚ) ^ (-((d + 1 : ℕ) : ℤ)) = (2 : ℚ) ^ (-(d : ℤ)) := by
      push_cast
      rw [neg_add, zpow_add₀ two_ne_zero]
      norm_num
      ring
    have hle : columnSum v d + v d * (2 : ℚ) ^ (-(d : ℤ)) ≤ 2 - (2 : ℚ) ^ (-(d : ℤ)) := by nlinarith [(hv d).2]
    have hge : 0 ≤ columnSum v d + v d * (2 : ℚ) ^ (-(d : ℤ)) := by nlinarith [(hv d).1]
    refine ⟨f64_rep _, f64_nonneg hge, ?_⟩
    rw [e]
    refine f64_le ?_ hle
    refine ⟨2 ^ (d + 1) - 1, -d, ?_, ?_⟩
    · have h3 : (1 : ℤ) ≤ 2 ^ (d + 1) := one_le_pow₀ (by norm_num)
      have h4 : (2 : ℤ) ^ (d + 1) ≤ 2 ^ 53 := pow_le_pow_right₀ (by norm_num) (by omega)
      rw [abs_of_nonneg (by omega)]
      omega
    · push_cast
      rw [sub_mul, pow_succ, mul_comm ((2 : ℚ) ^ d), mul_assoc, ← zpow_natCast, ← zpow_add₀ two_ne_zero]
      simp

/-- C124: the table made from any numbers in `[0, 1)` holds numbers of the format in `[0, 1)`. -/
theorem C124_init (fused : Bool) (draw : ℕ → ℚ) (hd : ∀ k, F64 (draw k) ∧ 0 ≤ draw k ∧ draw k < 1) :
    ∃ g, tausInit fused draw = some g ∧ g.seq.length = 9689 ∧ Inside g ∧ ∀ v ∈ g.seq, F64 v ∧ 0 ≤ v ∧ v < 1 := by
  obtain ⟨s, e, h1, h2⟩ := tausFill_spec fused draw fun k => (hd k).1
  unfold tausInit
  rw [e]
  refine ⟨_, rfl, by simpa using h1, ?_, ?_⟩
  · constructor <;> simp only [List.length_map, h1, tauswortheFirstOffset, tauswortheSecondOffset] <;> norm_num
  · intro v hv
    simp only [List.mem_map] at hv
    obtain ⟨w, hw, rfl⟩ := hv
    obtain ⟨k, hk⟩ := List.getElem?_of_mem hw
    have hk2 : k < 9689 := by rw [← h1]; exact (List.getElem?_eq_some_iff.mp hk).1
    have hw2 : w = columnSum (fun d => draw (d * 9689 + k)) 15 := by
      rw [h2 k hk2] at hk
      exact (Option.some.inj hk).symm
    obtain ⟨r1, r2, r3⟩ := columnSum_range (v := fun d => draw (d * 9689 + k)) (fun d => (hd _).2) 15 le_rfl
    rw [← hw2] at r1 r2 r3
    split_ifs with c
    · have hs : F64 (w - 1) := rep_sub (by norm_num) r1 (rep_one (by norm_num)) (by linarith) (by norm_num at r3 ⊢; linarith)
      rw [f64_of hs]
      refine ⟨hs, by linarith, ?_⟩
      norm_num at r3
      linarith
    · exact ⟨r1, r2, not_le.mp c⟩

/-- The draws of the counterexample. -/
def tinyDraw (k : ℕ) : ℚ := if k = 14 * 9689 + 4187 then 1 / 2 ^ 53 else 0

/-- C124: a draw can be 1. If the numbers from which the table is made are all 0 but for one `2⁻⁵³` in the last round, the
first draw is `0 - 2⁻⁶⁷ + 1`, which rounds to 1. -/
theorem C124_counterexample (fused : Bool) : (∀ k, F64 (tinyDraw k) ∧ 0 ≤ tinyDraw k ∧ tinyDraw k < 1) ∧
    ∃ g g', tausInit fused tinyDraw = some g ∧ tausNext g = some (g', 1) := by
  have hd : ∀ k, F64 (tinyDraw k) ∧ 0 ≤ tinyDraw k ∧ tinyDraw k < 1 := by
    intro k
    unfold tinyDraw
    split_ifs
    · exact ⟨⟨1, -53, by norm_num, by norm_num⟩, by norm_num, by norm_num⟩
    · exact ⟨rep_zero _, le_rfl, by norm_num⟩
  refine ⟨hd, ?_⟩
  obtain ⟨s, e, h1, h2⟩ := tausFill_spec fused tinyDraw fun k => (hd k).1
  have v0 : columnSum (fun d => tinyDraw (d * 9689 + 2444)) 15 = 0 := by decide +kernel
  have v1 : columnSum (fun d => tinyDraw (d * 9689 + 4187)) 15 = 1 / 2 ^ 67 := by decide +kernel
  unfold tausInit
  rw [e]
  suffices h : ∃ g', tausNext ⟨s.1.map fun v => if v ≥ 1 then f64 (v - 1) else v, 0, 2444, 4187⟩ = some (g', 1) by
    obtain ⟨g', h⟩ := h
    exact ⟨_, g', rfl, h⟩
  have g0 : rd (s.1.map fun v => if v ≥ 1 then f64 (v - 1) else v) 2444 = some 0 := by
    have : rd (s.1.map fun v => if v ≥ 1 then f64 (v - 1) else v) ((2444 : ℕ) : ℤ) = some 0 := by
      rw [rd_natCast, List.getElem?_map, h2 2444 (by norm_num), v0]; norm_num
    exact_mod_cast this
  have g1 : rd (s.1.map fun v => if v ≥ 1 then f64 (v - 1) else v) 4187 = some (1 / 2 ^ 67) := by
    have : rd (s.1.map fun v => if v ≥ 1 then f64 (v - 1) else v) ((4187 : ℕ) : ℤ) = some (1 / 2 ^ 67) := by
      rw [rd_natCast, List.getElem?_map, h2 4187 (by norm_num), v1]; norm_num
    exact_mod_cast this
  have hval : (if f64 (0 - 1 / 2 ^ 67) < 0 then f64 (f64 (0 - 1 / 2 ^ 67) + 1) else f64 (0 - 1 / 2 ^ 67)) = 1 := by
    decide +kernel
  unfold tausNext
  simp only [g0, g1, bind, Option.bind_some, hval]
  have hw : wr (s.1.map fun v => if v ≥ 1 then f64 (v - 1) else v) 0 1 =
      some ((s.1.map fun v => if v ≥ 1 then f64 (v - 1) else v).set 0 1) := by
    have := wr_natCast (xs := s.1.map fun v => if v ≥ 1 then f64 (v - 1) else v) (i := 0) (v := 1)
      (by rw [List.length_map, h1]; norm_num)
    exact_mod_cast this
  rw [hw]
  exact ⟨_, rfl⟩

example : draws tausNext 2 ⟨[1/2, 1/4, 1/8], 0, 1, 2⟩ = some (⟨[1/8, 1/4, 7/8], 1, 2, 0⟩, [1/8, 7/8]) := by
  decide +kernel

example : OnGrid ⟨List.replicate 9689 (3 / 4), 0, 2444, 4187⟩ := by
  intro v hv
  rw [List.eq_of_mem_replicate hv]
  exact ⟨⟨6755399441055744, by norm_num⟩, by norm_num, by norm_num⟩

end Verif.Fp
